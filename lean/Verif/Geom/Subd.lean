import Verif.Geom.Lath
import Mathlib.Algebra.Module.Defs
import Mathlib.Algebra.Field.Basic
import Mathlib.Algebra.Order.Ring.Defs
/-!
# The masks of a subdivision surface

libs/core/geometry/subdivision2.cpp. Values are vectors over a field, where the code has floats; a conversion back to a type that is not float is not modelled.
A value is absent if a loop does not end, or if the assertion of line 532 fails. One element of a variable is modelled, arrays have one such value per element.
-/
namespace Verif.Geom.Subd
open Verif.Geom.Lath

/-- The storage classes that have a value per vertex or per corner of a facet (include/aqsis/riutil/primvartype.h:50-59). -/
inductive Cls where
  | vertex | varying | faceVertex | faceVarying
  deriving DecidableEq, Repr

/-- `IndexFunction` (libs/core/geometry/subdivision2.cpp:471-476, 668-672, 891-896, 944-948, 1046-1050): `VertexIndex` or `FaceVertexIndex`. -/
def Cls.index (c : Cls) (m : Mesh) (l : Nat) : Nat :=
  match c with
  | .vertex | .varying => m.vert l
  | .faceVertex | .faceVarying => m.fvert l

section
variable (K : Type) {E : Type} [Field K] [AddCommGroup E] [Module K E]

/-- The sum of the values over their number (libs/core/geometry/subdivision2.cpp:1058-1065, 606-612, 914-920). -/
def avg (L : List E) : E := (L.length : K)⁻¹ • L.sum

/-- The average of the corners of a facet (libs/core/geometry/subdivision2.cpp:1051-1067). -/
def facePoint (m : Mesh) (v : Nat → E) (l : Nat) : Option E := (m.Qfe l).map fun L => avg K (L.map v)

/-- `CqLath::Qef` (libs/core/geometry/lath.h:403-413). -/
def Qef (m : Mesh) (l : Nat) : List Nat :=
  match m.ec l with
  | some x => [l, x]
  | none => [l]

/-- The middle of an edge (libs/core/geometry/subdivision2.cpp:936-938, 950-952). -/
def midPoint (m : Mesh) (v : Nat → E) (l : Nat) : Option E := (m.ccf l).map fun x => (2 : K)⁻¹ • (v l + v x)

/-- The point of an edge inside of the mesh (libs/core/geometry/subdivision2.cpp:907-930). -/
def edgePoint (m : Mesh) (v : Nat → E) (h : Nat → K) (l : Nat) : Option E :=
  ((Qef m l).mapM (facePoint K m v)).bind fun F => (m.ccf l).map fun x =>
    (2 : K)⁻¹ • ((2 : K)⁻¹ • ((1 + h l) • (v l + v x)) + (1 - h l) • avg K F)

/-- The point of a vertex on the boundary (libs/core/geometry/subdivision2.cpp:500-538). -/
def boundaryPoint (m : Mesh) (v : Nat → E) (l : Nat) : Option E :=
  (m.Qve l).bind fun L =>
    if L.length = 2 then some (v l)
    else ((L.filter fun x => (m.ec x).isNone).mapM fun x => if m.vert x = m.vert l then (m.ccf x).map v else some (v x)).bind fun R =>
      if R.length = 2 then some ((8 : K)⁻¹ • (R.sum + (6 : K) • v l)) else none

/-- The position of a smooth vertex and the first `semiSharpPos` (libs/core/geometry/subdivision2.cpp:598-638) for the edges `L`. -/
def softPoint (m : Mesh) (v : Nat → E) (L : List Nat) (l : Nat) : Option (E × E) :=
  let n : K := L.length
  (m.Qvf l).bind fun F => (F.mapM (facePoint K m v)).bind fun Q => (L.mapM fun x => (m.ccf x).map fun y => (2 : K)⁻¹ • (v l + v y)).map fun R =>
    let q : E := n⁻¹ • ((F.length : K)⁻¹ • Q.sum)
    let r : E := n⁻¹ • (n⁻¹ • ((2 : K) • R.sum))
    let s : E := n⁻¹ • ((n - 3) • v l)
    (q + r + s, (8 : K)⁻¹ • (r + (6 : K) • s))

/-- The three hardest edges (libs/core/geometry/subdivision2.cpp:553-555). -/
abbrev Hard := Option Nat × Option Nat × Option Nat

variable [LinearOrder K]

variable {K} in
/-- `e == NULL || h > EdgeSharpness(e)` (libs/core/geometry/subdivision2.cpp:561, 567, 572). -/
def harder (h : Nat → K) (x : Nat) : Option Nat → Bool
  | none => true
  | some e => decide (h e < h x)

variable {K} in
/-- One step of the search for the hardest edges (libs/core/geometry/subdivision2.cpp:560-575). -/
def hardStep (h : Nat → K) (a : Hard) (x : Nat) : Hard :=
  if harder h x a.1 then (some x, a.1, a.2.1)
  else if harder h x a.2.1 then (a.1, some x, a.2.1)
  else if harder h x a.2.2 then (a.1, a.2.1, some x)
  else a

/-- The point of a vertex inside of the mesh that is no sharp corner (libs/core/geometry/subdivision2.cpp:549-661). -/
def creasePoint (m : Mesh) (v : Nat → E) (h : Nat → K) (l : Nat) : Option E :=
  (m.Qve l).bind fun L => (softPoint K m v L l).bind fun p =>
    let e := L.foldl (hardStep h) (none, none, none)
    let se := (L.filter fun x => decide (0 < h x)).length
    (if 2 ≤ se then (e.1.bind m.ccf).bind fun x => (e.2.1.bind m.ccf).map fun y => (8 : K)⁻¹ • (v x + v y + (6 : K) • v l) else some p.2).map fun semi =>
      let h2 : K := (e.2.1.map h).getD 0
      let h3 : K := (e.2.2.map h).getD 0
      (1 - h2) • p.1 + (h2 - h3) • semi + h3 • v l

/-- `CqSubdivision2::CreateVertex` for vertex variables (libs/core/geometry/subdivision2.cpp:497-663). -/
def vertexPoint (m : Mesh) (v : Nat → E) (h c : Nat → K) (l : Nat) : Option E :=
  (m.isBoundaryVertex l).bind fun b => if b then boundaryPoint K m v l else if 0 < c l then some (v l) else creasePoint K m v h l

/-- `isDiscontinuousFaceVertex` (libs/core/geometry/subdivision2.cpp:409-424). `close` is `isClose`. -/
def discontinuousVertex (close : E → E → Bool) (m : Mesh) (v : Nat → E) (l : Nat) : Option Bool :=
  (m.Qvf l).map fun F => F.any fun x => !close (v l) (v x)

/-- `isDiscontinuousFaceVertexEdge` (libs/core/geometry/subdivision2.cpp:435-449). An edge with a companion has `cv`, and so has the companion. -/
def discontinuousEdge (close : E → E → Bool) (m : Mesh) (v : Nat → E) (l : Nat) : Bool :=
  match m.ec l with
  | none => false
  | some x => !((m.cv l).all fun y => close (v l) (v y)) || !((m.cv x).all fun y => close (v x) (v y))

/-- `CqSubdivision2::CreateVertex` (libs/core/geometry/subdivision2.cpp:454-678): the value of the vertex of `l` after a step. `h` and `c` are `EdgeSharpness` and
`CornerSharpness` (libs/core/geometry/subdivision2.h:120-144). -/
def createVertex (close : E → E → Bool) (m : Mesh) (k : Cls) (P : Nat → E) (h c : Nat → K) (l : Nat) : Option E :=
  let v := fun x => P (k.index m x)
  match k with
  | .vertex => vertexPoint K m v h c l
  | .faceVertex => (discontinuousVertex close m v l).bind fun d => if d then some (v l) else vertexPoint K m v h c l
  | .varying | .faceVarying => some (v l)

/-- `CqSubdivision2::CreateEdgeVertex` (libs/core/geometry/subdivision2.cpp:874-956): the value at the middle of the edge of `l`. -/
def createEdgeVertex (close : E → E → Bool) (m : Mesh) (k : Cls) (P : Nat → E) (h : Nat → K) (l : Nat) : Option E :=
  let v := fun x => P (k.index m x)
  match k with
  | .vertex => if (m.ec l).isSome then edgePoint K m v h l else midPoint K m v l
  | .faceVertex => if (m.ec l).isSome && !discontinuousEdge close m v l then edgePoint K m v h l else midPoint K m v l
  | .varying | .faceVarying => midPoint K m v l

/-- `CqSubdivision2::CreateFaceVertex` (libs/core/geometry/subdivision2.cpp:1039-1068). -/
def createFaceVertex (m : Mesh) (k : Cls) (P : Nat → E) (l : Nat) : Option E := facePoint K m (fun x => P (k.index m x)) l

/-! ## Limit points -/

omit [LinearOrder K] in
/-- The sum and the number of the further corners of a facet (libs/core/geometry/subdivision2.cpp:370-378). -/
def gLoop (m : Mesh) (v : Nat → E) (stop : Nat) : Nat → Nat → E → Nat → Option (E × Nat)
  | 0, _, _, _ => none
  | fuel + 1, f, s, n => if f = stop then some (s, n) else gLoop m v stop fuel (m.cf f) (s + v f) (n + 1)

/-- What is added to `fSum` for the facet of `x` (libs/core/geometry/subdivision2.cpp:355-383). -/
def fakePoint (m : Mesh) (v : Nat → E) (p : E) (x : Nat) : Option E :=
  let e := m.cf x
  let f := m.cf e
  if m.cf (m.cf f) = x then some (v f)
  else (m.ccf x).bind fun eNext => (gLoop m v eNext (m.laths + 1) f 0 3).map fun g =>
    ((4 : K) / g.2 - 1) • (p + v e + v eNext) + ((4 : K) / g.2) • g.1

/-- The loop over the facets of a vertex (libs/core/geometry/subdivision2.cpp:348-388): `eSum`, `fSum` and `numEdges`. A lath without `cv` does not occur inside of the mesh. -/
def limitLoop (m : Mesh) (v : Nat → E) (l : Nat) : Nat → Nat → E × E × Nat → Option (E × E × Nat)
  | 0, _, _ => none
  | fuel + 1, x, (e, f, n) => (fakePoint K m v (v l) x).bind fun q => (m.cv x).bind fun y =>
      let s := (e + v (m.cf x), f + q, n + 1)
      if y = l then some s else limitLoop m v l fuel y s

/-- `while(v->cv()) v = v->cv()` (libs/core/geometry/subdivision2.cpp:285-286). -/
def lastCv (m : Mesh) : Nat → Nat → Option Nat
  | 0, _ => none
  | fuel + 1, x => match m.cv x with
    | none => some x
    | some y => lastCv m fuel y

/-- `while(v->ccv()) v = v->ccv()` (libs/core/geometry/subdivision2.cpp:291-292). -/
def lastCcv (m : Mesh) : Nat → Nat → Option Nat
  | 0, _ => none
  | fuel + 1, x => match m.ccv x with
    | none => some x
    | some y => lastCcv m fuel y

/-- `CqSubdivision2::limitPoint` (libs/core/geometry/subdivision2.cpp:172-392) of a lath whose neighbours were subdivided (lines 206-218); positions are vertex variables. -/
def limitPoint (m : Mesh) (v : Nat → E) (c : Nat → K) (l : Nat) : Option E :=
  if 0 < c l then some (v l)
  else (m.isBoundaryVertex l).bind fun b =>
    if b then
      if m.isCornerVertex l then some (v l)
      else (lastCv m (m.laths + 1) l).bind fun z => (m.ccf z).bind fun x => (lastCcv m (m.laths + 1) l).map fun s =>
        ((4 : K) / 6) • v l + ((1 : K) / 6) • (v x + v (m.cf s))
    else (limitLoop K m v l (m.laths + 1) l (0, 0, 0)).map fun (e, f, n) =>
      ((1 : K) / (n * (n + 5))) • (((n : K) * n) • v l + (4 : K) • e + f)

end
end Verif.Geom.Subd
