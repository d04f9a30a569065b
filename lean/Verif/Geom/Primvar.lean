import Mathlib.Algebra.Order.Field.Basic

/-!
# Primitive variables

Model of the classes of libs/core/parameters.h: values of a primitive variable with their storage class, single or as arrays, loaded
by `ProcessPrimitiveVariables` (libs/core/api/ri.cpp), copied, split, diced and transformed. The values of a parameter are a flat
list, as in the code.
-/

namespace Verif.Geom.Primvar

/-- Outcomes: a value, a failed assertion, or an access outside of the values. -/
inductive Res (α : Type) where
  | ok (a : α)
  | assertFail
  | ub
  deriving DecidableEq, Repr

/-- Sequencing of outcomes. -/
def Res.bind {α β : Type} : Res α → (α → Res β) → Res β
  | .ok a, f => f a
  | .assertFail, _ => .assertFail
  | .ub, _ => .ub

instance : Monad Res where
  pure := Res.ok
  bind := Res.bind

/-- The storage classes that `CqParameter::Create` tells apart, include/aqsis/riutil/primvartype.h:50-59; libs/core/parameters.cpp:92-114,
118-140. -/
inductive Cls where
  | constant | uniform | varying | vertex | faceVarying | faceVertex
  deriving DecidableEq, Repr

/-- How values are stored: `CqParameterTypedVarying` (and the classes derived from it), `…Uniform`, `…Constant`, `…VaryingArray` (and
the classes derived from it), and `…UniformArray` with `…ConstantArray`, libs/core/parameters.h:223, 369, 512, 797, 948, 1085. -/
inductive Kind where
  | varying | uniform | constant | varyingArray | fixedArray
  deriving DecidableEq, Repr

/-- A parameter: class, `m_Count`, `m_size` (of `CqParameterTypedVaryingArray`, otherwise not used) and `m_aValues` or `m_Value`,
libs/core/parameters.h:167-168, 359, 502, 626, 937-938, 1076, 1213. -/
structure Param (T : Type) where
  cls : Cls
  count : ℕ
  size : ℕ
  vals : List T
  deriving DecidableEq, Repr

variable {T : Type}

/-- The class that `CqParameter::Create` makes, libs/core/parameters.cpp:87-140. -/
def kindOf (c : Cls) (count : ℕ) : Kind :=
  if count ≤ 1 then
    match c with
    | .constant => .constant
    | .uniform => .uniform
    | _ => .varying
  else
    match c with
    | .constant | .uniform => .fixedArray
    | _ => .varyingArray

/-- The class of a parameter. -/
def Param.kind (p : Param T) : Kind := kindOf p.cls p.count

/-- `CqParameter::Create` with the constructors, libs/core/parameters.h:227-231, 373-377, 516-518, 801-805, 952-956, 1089-1093; `d` is
the value made by the default constructor. -/
def create (d : T) (c : Cls) (count : ℕ) : Param T :=
  match kindOf c count with
  | .varying | .uniform | .constant => ⟨c, count, 1, [d]⟩
  | .varyingArray | .fixedArray => ⟨c, count, 1, List.replicate count d⟩

/-- `std::vector::resize`. -/
def resize (d : T) (n : ℕ) (l : List T) : List T := l.take n ++ List.replicate (n - l.length) d

/-- `SetSize`, libs/core/parameters.h:260-263, 402-405, 543-544, 830-834, 984-985, 1121-1122. -/
def Param.setSize (d : T) (n : ℕ) (p : Param T) : Param T :=
  match p.kind with
  | .varying | .uniform => { p with vals := resize d n p.vals }
  | .constant | .fixedArray => p
  | .varyingArray => { p with size := n, vals := resize d (n * p.count) p.vals }

/-- `Size`, libs/core/parameters.h:264-267, 406-409, 545-548, 835-838, 986-989, 1123-1126. -/
def Param.getSize (p : Param T) : ℕ :=
  match p.kind with
  | .varying | .uniform => p.vals.length
  | .constant | .fixedArray => 1
  | .varyingArray => p.size

/-- Where `pValue( Index )` points to, libs/core/parameters.h:321-330, 469-478, 599-606, 894-903, 1045-1054, 1182-1191. -/
def Param.offset (p : Param T) (i : ℕ) : Res ℕ :=
  match p.kind with
  | .varying => if i < p.vals.length then .ok i else .assertFail
  | .uniform => if 0 < p.vals.length then .ok i else .assertFail
  | .constant => .ok 0
  | .varyingArray => if i < p.size then .ok (p.count * i) else .assertFail
  | .fixedArray => if 0 < p.vals.length then .ok 0 else .assertFail

/-- `pValue( i )[ k ]` as a value. -/
def Param.read (p : Param T) (i k : ℕ) : Res T :=
  (p.offset i).bind fun o => match p.vals[o + k]? with
    | some x => .ok x
    | none => .ub

/-- `pValue( i )[ k ] = x`. -/
def Param.write (p : Param T) (i k : ℕ) (x : T) : Res (Param T) :=
  (p.offset i).bind fun o => if o + k < p.vals.length then .ok { p with vals := p.vals.set (o + k) x } else .ub

/-! ## Loading -/

/-- The inner loop of `ProcessPrimitiveVariables`, libs/core/api/ri.cpp:3704-3705, over array indices; the state is the parameter and
the number `i` of the value. -/
def loadInner (data : ℕ → T) (iVal : ℕ) : ℕ → Param T × ℕ → Res (Param T × ℕ)
  | 0, s => .ok s
  | n + 1, s => (loadInner data iVal n s).bind fun s' => (s'.1.write iVal n (data s'.2)).bind fun p => .ok (p, s'.2 + 1)

/-- The outer loop, libs/core/api/ri.cpp:3702-3705. -/
def loadOuter (data : ℕ → T) (count : ℕ) : ℕ → Param T × ℕ → Res (Param T × ℕ)
  | 0, s => .ok s
  | n + 1, s => (loadOuter data count n s).bind fun s' => loadInner data n count s'

/-- A parameter as `ProcessPrimitiveVariables` makes it from the values of a request, libs/core/api/ri.cpp:3663-3707; `n` is the number
of values of the class for the surface (1 for constants). The loops for the other types (3709-3785) are the same. -/
def load (d : T) (c : Cls) (count n : ℕ) (data : ℕ → T) : Res (Param T) :=
  (loadOuter data count n ((create d c count).setSize d n, 0)).bind fun s => .ok s.1

/-! ## Copying -/

/-- `SetValue` of `CqParameterTypedVaryingArray`, libs/core/parameters.h:914-915, over array indices. -/
def copyElems (src : Param T) (it is : ℕ) : ℕ → Param T → Res (Param T)
  | 0, p => .ok p
  | n + 1, p => (copyElems src it is n p).bind fun q => (src.read is n).bind fun x => q.write it n x

/-- `SetValue`, libs/core/parameters.h:206-212, 906-916. The pointers to the values are taken before the loop and checked there. -/
def Param.setValue (p src : Param T) (it is : ℕ) : Res (Param T) :=
  match p.kind with
  | .varyingArray => if src.count = p.count then copyElems src it is p.count p else .assertFail
  | _ => (src.read is 0).bind fun x => p.write it 0 x

/-! ## Splitting -/

/-- The assignments for one array element, libs/core/parameters.h:284-297, 860-863, 871-874; libs/core/geometry/surface.cpp:310-323.
`mid a b` is `static_cast<T>( ( a + b ) * 0.5 )`. The results have been clones of the parameter before. -/
def splitElem (mid : T → T → T) (u : Bool) (p : Param T) (k : ℕ) (r : Param T × Param T) : Res (Param T × Param T) :=
  (p.read 0 k).bind fun a => (p.read 1 k).bind fun b => (p.read 2 k).bind fun c => (p.read 3 k).bind fun e =>
    if u then
      (r.2.write 1 k b).bind fun r2 => (r2.write 3 k e).bind fun r2 =>
        (r2.write 0 k (mid a b)).bind fun r2 => (r.1.write 1 k (mid a b)).bind fun r1 =>
          (r2.write 2 k (mid c e)).bind fun r2 => (r1.write 3 k (mid c e)).bind fun r1 => .ok (r1, r2)
    else
      (r.2.write 2 k c).bind fun r2 => (r2.write 3 k e).bind fun r2 =>
        (r2.write 0 k (mid a c)).bind fun r2 => (r.1.write 2 k (mid a c)).bind fun r1 =>
          (r2.write 1 k (mid b e)).bind fun r2 => (r1.write 3 k (mid b e)).bind fun r1 => .ok (r1, r2)

/-- The loop over the elements of an array, libs/core/parameters.h:858, 869; libs/core/geometry/surface.cpp:308 (its order does not
matter). -/
def splitElems (mid : T → T → T) (u : Bool) (p : Param T) : ℕ → Param T × Param T → Res (Param T × Param T)
  | 0, r => .ok r
  | n + 1, r => (splitElems mid u p n r).bind fun r' => splitElem mid u p n r'

/-- `CqSurface::NaturalSubdivide`, libs/core/geometry/surface.cpp:300-360. -/
def naturalQuad (mid : T → T → T) (u : Bool) (p : Param T) : Res (Param T × Param T) := splitElems mid u p p.count (p, p)

/-- Splitting of a parameter into two clones of it, libs/core/geometry/surface.cpp:554-556 with `Subdivide`,
libs/core/parameters.h:272-299, 415-423, 552-560, 661-667, 843-878, 993-994, 1130-1131. `natural` is `NaturalSubdivide` of the surface;
`CqParameterTypedVertexArray` (1223-1286) does not override `Subdivide` of `CqParameterTypedVaryingArray`. -/
def Param.subdivide (d : T) (mid : T → T → T) (natural : Bool → Param T → Res (Param T × Param T)) (u : Bool) (p : Param T) :
    Res (Param T × Param T) :=
  match p.kind with
  | .uniform | .constant | .fixedArray => .ok (p, p)
  | .varying =>
    if p.cls = .vertex ∨ p.cls = .faceVertex then natural u p
    else
      let r := p.setSize d 4
      if p.vals.length = 4 then splitElem mid u p 0 (r, r) else .ok (r, r)
  | .varyingArray =>
    let r := p.setSize d 4
    if p.size = 4 then splitElems mid u p p.count (r, r) else .ok (r, r)

/-! ## Dicing -/

/-- `BilinearEvaluate`, libs/core/bilinear.h:189-225, with the cast left out (floats). -/
def bilinear {K : Type} [Field K] [LinearOrder K] (a b c d s t : K) : K :=
  let ab := if s ≤ 0 then a else if s ≥ 1 then b else (b - a) * s + a
  let cd := if s ≤ 0 then c else if s ≥ 1 then d else (d - c) * s + c
  if t ≤ 0 then ab else if t ≥ 1 then cd else (cd - ab) * t + ab

/-- The values of a grid in the order of the loops, libs/core/parameters.h:1405-1417, 1479-1494, 1545-1557;
libs/core/geometry/surface.cpp:371-387. -/
def gridValues (u v : ℕ) (f : ℕ → ℕ → T) : List T :=
  (List.range (v + 1)).flatMap fun iv => (List.range (u + 1)).map fun iu => f iu iv

variable {K : Type} [Field K] [LinearOrder K]

/-- Bilinear dicing of one array element, libs/core/parameters.h:1402-1417, 1476-1494, 1542-1557. -/
def diceElem (u v : ℕ) (p : Param K) (k : ℕ) : Res (List K) :=
  (p.read 0 k).bind fun a => (p.read 1 k).bind fun b => (p.read 2 k).bind fun c => (p.read 3 k).bind fun d =>
    .ok (gridValues u v fun iu iv => bilinear a b c d ((iu : K) * (1 / (u : K))) ((iv : K) * (1 / (v : K))))

/-- The elements of an array one after the other. -/
def diceElems (u v : ℕ) (p : Param K) : ℕ → Res (List (List K))
  | 0 => .ok []
  | n + 1 => (diceElems u v p n).bind fun l => (diceElem u v p n).bind fun x => .ok (l ++ [x])

/-- `DiceOne`, libs/core/parameters.h:303-307, 452-456, 584-588, 686-690, 1021-1032, 1158-1169, 1270-1274, 1525-1559: element `k` of the
array into a variable with the values `old`. Of a uniform or constant array every value of the variable is set. -/
def Param.diceOne (u v : ℕ) (p : Param K) (k : ℕ) (old : List K) : Res (List K) :=
  match p.kind with
  | .varying | .uniform | .constant => .assertFail
  | .varyingArray =>
    if p.cls = .vertex ∨ p.cls = .faceVertex then .ok old
    else if k < p.count then (if p.size = 4 then diceElem u v p k else .ok old) else .assertFail
  | .fixedArray =>
    if k < p.count then (if max (u * v) old.length ≤ old.length then (p.read 0 k).bind fun x => .ok (old.map fun _ => x) else .ub)
    else .assertFail

/-- `Dice` for classes other than vertex and facevertex, into a varying variable with `old` values for each array element,
libs/core/parameters.h:424-436, 561-571, 995-1007, 1132-1144, 1377-1430, 1455-1496; `n` is the size of the variable. A list for each
array element. -/
def Param.dice (u v n : ℕ) (p : Param K) : Res (List (List K)) :=
  match p.kind with
  | .varying =>
    if p.vals.length ≥ 4 then (diceElem u v p 0).bind fun l => .ok [l]
    else (p.read 0 0).bind fun x => .ok [gridValues u v fun _ _ => x]
  | .uniform | .constant =>
    if max (u * v) n ≤ n then (p.read 0 0).bind fun x => .ok [List.replicate n x] else .ub
  | .fixedArray =>
    if max (u * v) n ≤ n then
      (if p.vals.length < p.count then .ub else .ok ((p.vals.take p.count).map fun x => List.replicate n x))
    else .ub
  | .varyingArray =>
    if n = p.size then (if p.size = 4 then diceElems u v p p.count else .ok []) else .assertFail

/-! ## Copying to a variable of a shader -/

/-- The values written by `CopyToShaderVariable` into a variable of `n` values, libs/core/parameters.h:438-450, 572-582, 677-684,
1432-1446; single values only. -/
def Param.copyToVar (p : Param T) (n : ℕ) : Res (List T) :=
  match p.kind with
  | .varying =>
    if p.cls = .vertex ∨ p.cls = .faceVertex then
      (List.range n).foldr (fun i acc => (p.read i 0).bind fun x => acc.bind fun l => .ok (x :: l)) (.ok [])
    else if n = p.vals.length then
      (List.range (n + 1)).foldr (fun i acc => (p.read i 0).bind fun x => acc.bind fun l => .ok (x :: l)) (.ok [])
    else .assertFail
  | .uniform | .constant => (p.read 0 0).bind fun x => .ok (List.replicate n x)
  | .varyingArray | .fixedArray => .assertFail

/-! ## Transforming -/

/-- The loops of `CqSurface::Transform`, libs/core/geometry/surface.cpp:636-638, 643-645, 650-652, 657-659: the first `Size()` entries
of the flat values. -/
def Param.transform (f : T → T) (p : Param T) : Param T :=
  { p with vals := (p.vals.take p.getSize).map f ++ p.vals.drop p.getSize }

end Verif.Geom.Primvar
