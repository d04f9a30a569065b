import Verif.Math.Matrix
import Mathlib.Data.Rat.Floor

/-!
# Bicubic patches

Model of `CqSurfacePatchBicubic`, libs/core/geometry/patch.cpp, and of the forward differences it is diced with,
libs/core/forwarddiff.h. A control net is a function of the row (`v`) and the column (`u`); entry `(iv, iu)` is the flat entry
`4 * iv + iu` of the code. Vectors and colours are handled by component. Numbers are elements of an ordered field; the casts to the
type of the parameter are a function.
-/

namespace Verif.Geom.Bicubic

open Verif.Math.Matrix4 (Mat)

variable {K : Type} [Field K] [LinearOrder K] [IsStrictOrderedRing K]

/-- The sixteen values of a parameter of class vertex, libs/core/geometry/patch.cpp:100-110, 220-223. -/
abbrev Net (T : Type) := Fin 4 → Fin 4 → T

/-! ## Splitting -/

/-- One row or column of `bicubicPatchNatSubdiv`, libs/core/geometry/patch.cpp:101-110, 117-126; `cast` is `static_cast<T>`. -/
def halve (cast : K → K) (p : Fin 4 → K) : (Fin 4 → K) × (Fin 4 → K) :=
  let a1 := cast ((p 0 + p 1) / 2)
  let a2 := cast (a1 / 2 + (p 1 + p 2) / 4)
  let b2 := cast ((p 2 + p 3) / 2)
  let b1 := cast (b2 / 2 + (p 1 + p 2) / 4)
  let m := cast ((a2 + b1) / 2)
  (![p 0, a1, a2, m], ![m, b1, b2, p 3])

/-- `bicubicPatchNatSubdiv`, libs/core/geometry/patch.cpp:87-129. -/
def natSubdiv (cast : K → K) (u : Bool) (p : Net K) : Net K × Net K :=
  if u then (fun iv => (halve cast (p iv)).1, fun iv => (halve cast (p iv)).2)
  else (fun iv iu => (halve cast fun k => p k iu).1 iv, fun iv iu => (halve cast fun k => p k iu).2 iv)

/-- `NaturalSubdivide`, libs/core/geometry/patch.cpp:133-165. Nothing is done with matrices; the results then are the clones of the
parent that `CqSurface::Split` has made, libs/core/geometry/surface.cpp:553-556. -/
def subdivide (isMatrix : Bool) (cast : K → K) (u : Bool) (p : Net K) : Net K × Net K :=
  if isMatrix then (p, p) else natSubdiv cast u p

/-! ## Dicing -/

/-- What forward differences need of the type of a parameter, libs/core/forwarddiff.h:73-91: sums, multiples and the cast. -/
structure Ops (K T : Type) where
  add : T → T → T
  scale : T → K → T
  cast : T → T

/-- Floats, and the components of vectors and colours. -/
def floatOps : Ops K K := ⟨(· + ·), (· * ·), id⟩

/-- Conversion of a float to an integer: towards zero. -/
def trunc (x : ℚ) : ℚ := if 0 ≤ x then ⌊x⌋ else ⌈x⌉

/-- Integers, as the whole numbers among the rationals. -/
def intOps : Ops ℚ ℚ := ⟨(· + ·), (· * ·), trunc⟩

/-- Matrices, with `operator*(const CqMatrix&, TqFloat)`, include/aqsis/math/matrix.h:680-685. -/
def matOps : Ops K (Mat K) := ⟨Verif.Math.Matrix4.add, Verif.Math.Matrix4.mulScalar, id⟩

/-- The value and the differences of `CqForwardDiffBezier`, libs/core/forwarddiff.h:102. -/
structure FD (T : Type) where
  f : T
  df : T
  ddf : T
  dddf : T

/-- `A * x + B * y + C * z + D * w`, libs/core/forwarddiff.h:76-78. -/
def comb {T : Type} (o : Ops K T) (p : Fin 4 → T) (x y z w : K) : T :=
  o.cast (o.add (o.add (o.add (o.scale (p 0) x) (o.scale (p 1) y)) (o.scale (p 2) z)) (o.scale (p 3) w))

/-- `InitPreCalcMatrix` and `CalcForwardDiff`, libs/core/forwarddiff.h:50-79. -/
def fdiff {T : Type} (o : Ops K T) (dt : K) (p : Fin 4 → T) : FD T :=
  let dt2 := dt * dt
  let dt3 := dt2 * dt
  ⟨p 0,
   comb o p (3 * dt2 - 3 * dt - dt3) (3 * dt3 - 6 * dt2 + 3 * dt) (3 * dt2 - 3 * dt3) dt3,
   comb o p (6 * dt2 - 6 * dt3) (18 * dt3 - 2 * (6 * dt2)) (6 * dt2 - 18 * dt3) (6 * dt3),
   comb o p (-(6 * dt3)) (18 * dt3) (-(18 * dt3)) (6 * dt3)⟩

/-- The step of `GetValue`, libs/core/forwarddiff.h:84-91. -/
def step {T : Type} (o : Ops K T) (s : FD T) : FD T := ⟨o.add s.f s.df, o.add s.df s.ddf, o.add s.ddf s.dddf, s.dddf⟩

/-- The inner loop, libs/core/geometry/patch.cpp:234-240. -/
def diceU {T : Type} (o : Ops K T) (s : FD T) : ℕ → List T
  | 0 => []
  | n + 1 => s.f :: diceU o (step o s) n

/-- The outer loop, libs/core/geometry/patch.cpp:226-241; `s` holds `vFD0` to `vFD3`. -/
def diceV {T : Type} (o : Ops K T) (uSize : ℕ) (s : Fin 4 → FD T) : ℕ → List T
  | 0 => []
  | n + 1 => diceU o (fdiff o (1 / (uSize : K)) fun k => (s k).f) (uSize + 1) ++ diceV o uSize (fun k => step o (s k)) n

/-- `bicubicPatchNatDice`, libs/core/geometry/patch.cpp:205-243, for one element of an array. The values are stored at
`igrid = iv * (uSize + 1) + iu`, which grows by one with each value: a list. -/
def dice {T : Type} (o : Ops K T) (uSize vSize : ℕ) (p : Net T) : List T :=
  diceV o uSize (fun k => fdiff o (1 / (vSize : K)) fun iv => p iv k) (vSize + 1)

/-! ## Bounds -/

/-- `vectorCast<CqVector3D>(CqVector4D)`, one component, include/aqsis/math/vectorcast.h:123-135. -/
def project (x h : K) : K := if h ≠ 1 then 1 / h * x else x

/-- One coordinate of `Bound`, libs/core/geometry/patch.cpp:172-195; `big` is `FLT_MAX`. The adjustment for moving transformations in
line 196 is left out. -/
def bound (big : K) (l : List K) : K × K :=
  l.foldl (fun b v => (if v < b.1 then v else b.1, if v > b.2 then v else b.2)) (big, -big)

/-- The values of the sixteen control points in the order of the loop, libs/core/geometry/patch.cpp:178-180. -/
def points (x h : Net K) : List K :=
  (List.finRange 4).flatMap fun iv => (List.finRange 4).map fun iu => project (x iv iu) (h iv iu)

/-- `Bound` of a patch with coordinates `x` and weights `h`, libs/core/geometry/patch.cpp:172-197. -/
def patchBound (big : K) (x h : Net K) : K × K := bound big (points x h)

/-! ## Bases -/

/-- `RiBezierBasis`, libs/riutil/risyms.cpp:147-150, as a matrix not marked as the identity, libs/core/geometry/patch.cpp:393-396. -/
def bezierBasis : Mat K :=
  ⟨![![-1, 3, -3, 1], ![3, -6, 3, 0], ![-3, 3, 0, 0], ![1, 0, 0, 0]], false⟩

/-- `ConvertToBezierBasis` for one component, libs/core/geometry/patch.cpp:386-404, 538-551 (and likewise 423-452, 462-492, 502-528).
`none`: the inverse does not exist. -/
def convert (uBasis vBasis : Mat K) (p : Net K) : Option (Net K) :=
  (Verif.Math.Matrix4.inverse (bezierBasis : Mat K)).map fun inv =>
    let uConv := Verif.Math.Matrix4.mul uBasis inv
    let vConv := Verif.Math.Matrix4.mul vBasis inv
    fun i j =>
      (Verif.Math.Matrix4.mul (Verif.Math.Matrix4.mul (Verif.Math.Matrix4.transpose uConv) ⟨Matrix.of p, false⟩) vConv).m i j

/-- The types of parameters `ConvertToBezierBasis` looks at, libs/core/geometry/patch.cpp:412-556. -/
inductive PType where
  | float | integer | point | vector | normal | hpoint | color | string | matrix
  deriving DecidableEq, Repr

/-- The cases of the switch, libs/core/geometry/patch.cpp:415-417, 456, 496, 532. -/
def converted : PType → Bool
  | .float | .point | .vector | .normal | .hpoint | .color => true
  | .integer | .string | .matrix => false

/-- `ConvertToBezierBasis` on a parameter of class vertex: one component of each of the `count` elements of an array,
libs/core/geometry/patch.cpp:410-556; only element 0 is read and written. -/
def convertParam (ty : PType) (uBasis vBasis : Mat K) (p : ℕ → Net K) : Option (ℕ → Net K) :=
  if converted ty then (convert uBasis vBasis (p 0)).map fun q => Function.update p 0 q else some p

end Verif.Geom.Bicubic
