import Mathlib.Algebra.Field.Defs
import Mathlib.Algebra.Module.Defs
import Mathlib.Algebra.Order.Floor.Defs
import Mathlib.Algebra.Order.Floor.Ring
import Mathlib.Algebra.Order.Field.Rat
import Mathlib.Data.Rat.Floor

/-!
# Cubic splines and the `spline` shading function

Model of `CqCubicSpline` (`/repo/include/aqsis/math/spline.h:54-251`), of the table of bases it
uses (`/repo/libs/math/spline.cpp:34-66`), and of the shading functions which evaluate it
(`/repo/libs/shadervm/shaderexecenv/shadeops_deriv.cpp:128-469` and `786-1226`).

Numbers are the elements of an ordered field, so rounding is not modelled here; the one place
where rounding decides which control points are read is treated by `C68_float`.  Reading outside
the vector of control points is undefined behaviour and is modelled by `none`.
-/

namespace Verif.Math.Spline

/-- The splines of `EqSplineBasis` (`/repo/include/aqsis/math/spline.h:38-47`), in the order of
the enumeration, which is the order of the table. -/
inductive Basis where
  | bezier | bspline | catmullRom | hermite | power | linear
  deriving DecidableEq, Repr

/-- The names and positions in the table of splines (`/repo/libs/math/spline.cpp:36,41,46,51,56,61`). -/
def table : List (String × Basis) :=
  [("bezier", .bezier), ("bspline", .bspline), ("catmull-rom", .catmullRom),
   ("hermite", .hermite), ("power", .power), ("linear", .linear)]

/-- The step from one section to the next (`/repo/libs/math/spline.cpp:36,41,46,51,56,61`). -/
def step : Basis → Nat
  | .bezier => 3
  | .bspline => 1
  | .catmullRom => 1
  | .hermite => 2
  | .power => 4
  | .linear => 1

/-- The matrix of a basis, row by row (`/repo/libs/math/spline.cpp:36-65`).  `m_basis` is set from
the address of the first row, and `CqMatrix` reads sixteen numbers from there
(`/repo/include/aqsis/math/spline.h:132`, `/repo/include/aqsis/math/matrix.h:478-481`). -/
def matrix (K : Type) [Field K] : Basis → List (List K)
  | .bezier => [[-1, 3, -3, 1], [3, -6, 3, 0], [-3, 3, 0, 0], [1, 0, 0, 0]]
  | .bspline => [[-1/6, 1/2, -1/2, 1/6], [1/2, -1, 1/2, 0], [-1/2, 0, 1/2, 0],
      [1/6, 2/3, 1/6, 0]]
  | .catmullRom => [[-1/2, 3/2, -3/2, 1/2], [1, -5/2, 2, -1/2], [-1/2, 0, 1/2, 0],
      [0, 1, 0, 0]]
  | .hermite => [[2, 1, -2, 1], [-3, -2, 3, -1], [0, 1, 0, 0], [1, 0, 0, 0]]
  | .power => [[1, 0, 0, 0], [0, 1, 0, 0], [0, 0, 1, 0], [0, 0, 0, 1]]
  | .linear => [[0, 0, 0, 0], [0, 0, 0, 0], [0, -1, 1, 0], [0, 1, 0, 0]]

/-- `m_basis[i][j]` (`/repo/include/aqsis/math/spline.h:178-181`). -/
def entry (K : Type) [Field K] (b : Basis) (i j : Nat) : K :=
  ((matrix K b).getD i []).getD j 0

/-- The constructor from a name (`/repo/include/aqsis/math/spline.h:142-159`): the loop runs over
the whole table and keeps the last match, starting from Catmull-Rom. -/
def ofName (s : String) : Basis :=
  table.foldl (fun b e => if e.1 = s then e.2 else b) .catmullRom

/-- Conversion of a 64 bit unsigned number to a 32 bit `int` (implicit at
`/repo/include/aqsis/math/spline.h:208`). -/
def toInt32 (n : Nat) : Int :=
  let m : Nat := n % 2 ^ 32
  if m < 2 ^ 31 then (m : Int) else (m : Int) - 2 ^ 32

/-- `numSections` (`/repo/include/aqsis/math/spline.h:205-209`): `size() - 4` is computed in 64 bit
unsigned arithmetic, so it wraps when there are fewer than four points. -/
def numSections (b : Basis) (size : Nat) : Int :=
  toInt32 (((size + (2 ^ 64 - 4)) % 2 ^ 64 / step b + 1) % 2 ^ 64)

section
variable {K : Type} [Field K] [LinearOrder K] [FloorRing K]
variable {V : Type} [AddCommGroup V] [Module K V]

/-- Conversion of a float to an `int`, towards zero (`/repo/include/aqsis/math/spline.h:169`).
Values outside the range of `int` are not distinguished: they lead outside the control points. -/
def trunc (x : K) : Int := if 0 ≤ x then ⌊x⌋ else ⌈x⌉

/-- `m_controlPoints[i]` with an `int` index (`/repo/include/aqsis/math/spline.h:173-176`);
`none` is a read outside the vector. -/
def at? (pts : List V) (i : Int) : Option V :=
  if 0 ≤ i then pts[i.toNat]? else none

/-- One of the four sums `G0 … G3` (`/repo/include/aqsis/math/spline.h:178-181`). -/
def gsum (K : Type) [Field K] [Module K V] (b : Basis) (i : Nat) (v0 v1 v2 v3 : V) : V :=
  entry K b i 0 • v0 + entry K b i 1 • v1 + entry K b i 2 • v2 + entry K b i 3 • v3

/-- The cubic of one section (`/repo/include/aqsis/math/spline.h:178-186`). -/
def section4 (b : Basis) (v0 v1 v2 v3 : V) (t : K) : V :=
  (t * t * t) • gsum K b 0 v0 v1 v2 v3 + (t * t) • gsum K b 1 v0 v1 v2 v3
    + t • gsum K b 2 v0 v1 v2 v3 + gsum K b 3 v0 v1 v2 v3

/-- `CqCubicSpline::evaluate` (`/repo/include/aqsis/math/spline.h:162-189`). -/
def evaluate (b : Basis) (pts : List V) (t : K) : Option V := do
  let u : K := (numSections b pts.length : K) * t
  let sec := trunc u
  let t' := u - (sec : K)
  let iv := sec * (step b : Int)
  let v0 ← at? pts (0 + iv)
  let v1 ← at? pts (1 + iv)
  let v2 ← at? pts (2 + iv)
  let v3 ← at? pts (3 + iv)
  pure (section4 b v0 v1 v2 v3 t')

/-- What the shading functions do for one shading point once the control points are at hand
(`/repo/libs/shadervm/shaderexecenv/shadeops_deriv.cpp:150-176` for floats; `205-231`, `262-288`,
`321-347`, `380-406`, `439-465` are the same for the other types and for a basis given by name).
The parameters are read directly when the value is outside the open interval `(0,1)`; reading
parameter `-1` or a parameter after the last is undefined. -/
def point (b : Basis) (params : List V) (pts : List V) (value : K) : Option V :=
  if 1 ≤ value then at? params ((params.length : Int) - 2)
  else if value ≤ 0 then at? params 1
  else evaluate b pts value

/-- The control points, and what has been written to the result so far. -/
structure St (V : Type) where
  /-- `m_controlPoints`. -/
  pts : List V
  /-- The result, one value for each shading point. -/
  res : Nat → V

/-- The loop over the shading points, common to all the versions: a body is run for each running
point, once when nothing varies (`/repo/libs/shadervm/shaderexecenv/shadeops_deriv.cpp:144-149`
and `177-179`). -/
def gridLoop (varying : Bool) (running : Nat → Bool) (count : Nat)
    (body : Nat → St V → Option (St V)) : Nat → Nat → St V → Option (St V)
  | 0, _, s => some s
  | fuel + 1, i, s => do
    let s' ← if !varying || running i then body i s else some s
    if i + 1 < count && varying then gridLoop varying running count body fuel (i + 1) s' else some s'

/-- The body for control points given as parameters: they are pushed onto the spline before the
evaluation and removed afterwards
(`/repo/libs/shadervm/shaderexecenv/shadeops_deriv.cpp:150-176`). -/
def listBody (b : Basis) (value : Nat → K) (params : Nat → List V) (i : Nat) (s : St V) :
    Option (St V) :=
  if 1 ≤ value i ∨ value i ≤ 0 then do
    let r ← point b (params i) s.pts (value i)
    pure ⟨s.pts, Function.update s.res i r⟩
  else do
    let pts := s.pts ++ params i
    let r ← point b (params i) pts (value i)
    pure ⟨[], Function.update s.res i r⟩

/-- `SO_fspline` and its variants (`/repo/libs/shadervm/shaderexecenv/shadeops_deriv.cpp:129-180`).
`params i` are the control points at shading point `i`. -/
def splineList (b : Basis) (varying : Bool) (running : Nat → Bool) (count : Nat)
    (value : Nat → K) (params : Nat → List V) (res : Nat → V) : Option (Nat → V) :=
  (gridLoop varying running count (listBody b value params) (count + 1) 0 ⟨[], res⟩).map St.res

/-- The body for control points given as an array: they are pushed once before the loop when the
array does not vary, and afresh at each point when it does
(`/repo/libs/shadervm/shaderexecenv/shadeops_deriv.cpp:823-850`). -/
def arrayBody (b : Basis) (varyingA : Bool) (value : Nat → K) (params : Nat → List V) (i : Nat)
    (s : St V) : Option (St V) :=
  if 1 ≤ value i ∨ value i ≤ 0 then do
    let r ← point b (params i) s.pts (value i)
    pure ⟨s.pts, Function.update s.res i r⟩
  else do
    let pts := if varyingA then params i else s.pts
    let r ← point b (params i) pts (value i)
    pure ⟨pts, Function.update s.res i r⟩

/-- `SO_fsplinea` and its variants
(`/repo/libs/shadervm/shaderexecenv/shadeops_deriv.cpp:787-854`). -/
def splineArray (b : Basis) (varying varyingA : Bool) (running : Nat → Bool) (count : Nat)
    (value : Nat → K) (params : Nat → List V) (res : Nat → V) : Option (Nat → V) :=
  (gridLoop varying running count (arrayBody b varyingA value params) (count + 1) 0
    ⟨if varyingA then [] else params 0, res⟩).map St.res

end

end Verif.Math.Spline
