import Verif.Geom.HPoint
import Mathlib.Analysis.Real.Sqrt

/-!
# Curves

Model of `RiCurves`: groups of linear and cubic curves (libs/core/geometry/curves.cpp, linearcurves.cpp, cubiccurves.cpp), the pieces
they are split into, and the ribbons that are made of the pieces. Coordinates are handled one by one where the code does; in ribbons a
point is its three coordinates after division by its weight, see `HP.proj`. Numbers are exact.
-/

namespace Verif.Geom.Curves

open Verif.Math.Matrix4 (Mat)
open Verif.Geom.Bicubic

/-! ## Groups of linear curves -/

/-- A piece of a linear curve: its two vertices (for varying variables as well), the index of uniform variables and the values of `v`,
libs/core/geometry/linearcurves.cpp:495-573. -/
structure LinSeg where
  a : Int
  b : Int
  uniform : Int
  v0 : ℚ
  v1 : ℚ
  deriving DecidableEq, Repr

/-- `lastSegment`, libs/core/geometry/linearcurves.cpp:468-476. -/
def lastSegment (periodic : Bool) (n : Int) : Int := if periodic then n else n - 1

/-- The loop over the pieces of one curve, libs/core/geometry/linearcurves.cpp:480-582: the pieces and `vertexI` after them. The first
number is how many are left. -/
def linCurve (n first uniform last : Int) : Nat → Int → Int → List LinSeg × Int
  | 0, _, vertexI => ([], vertexI)
  | k + 1, segI, vertexI =>
    let next := if segI = n - 1 then first else vertexI + 1
    let r := linCurve n first uniform last k (segI + 1) (vertexI + 1)
    (⟨vertexI, next, uniform, segI / last, (segI + 1) / last⟩ :: r.1, r.2)

/-- `CqLinearCurvesGroup::Split`, libs/core/geometry/linearcurves.cpp:455-594, from `vertexI` and `uniformI`. -/
def linGroup (periodic : Bool) : List Int → Int → Int → List LinSeg
  | [], _, _ => []
  | n :: ns, vertexI, uniformI =>
    let last := lastSegment periodic n
    let r := linCurve n vertexI uniformI last last.toNat 0 vertexI
    r.1 ++ linGroup periodic ns (if periodic then r.2 else r.2 + 1) (uniformI + 1)

/-! ## Groups of cubic curves -/

/-- `segmentsPerCurve`, libs/core/geometry/cubiccurves.cpp:598-604. The quotient is that of C++. -/
def segmentsPerCurve (numVerts step : Int) (periodic : Bool) : Int :=
  if periodic then numVerts.tdiv step else (numVerts - 4).tdiv step + 1

/-- `m_nVertsBezier`, libs/core/geometry/cubiccurves.cpp:634-638. -/
def nVertsBezier (step : Int) (periodic : Bool) (ns : List Int) : Int :=
  ns.foldl (fun s n => s + 4 * segmentsPerCurve n step periodic) 0

/-- `cVarying`, libs/core/geometry/cubiccurves.cpp:789-813. -/
def cVarying (step : Int) (periodic : Bool) (ns : List Int) : Int :=
  if periodic then ns.foldl (fun s n => s + n.tdiv step) 0 else ns.foldl (fun s n => s + ((n - 4).tdiv step + 1 + 1)) 0

variable {K : Type} [Field K] [LinearOrder K] [IsStrictOrderedRing K]

/-- `m_basisTrans`, libs/core/geometry/cubiccurves.cpp:623-625. -/
def basisTrans (basis : Mat K) : Option (Mat K) :=
  (Verif.Math.Matrix4.inverse (bezierBasis : Mat K)).map fun inv => Verif.Math.Matrix4.mul basis inv

/-- One row of the product, libs/core/geometry/cubiccurves.cpp:724-731. -/
def row (T : Mat K) (p0 p1 p2 p3 : K) (i : Fin 4) : K := T.m i 0 * p0 + T.m i 1 * p1 + T.m i 2 * p2 + T.m i 3 * p3

/-- See `row`, for points with a weight. -/
def rowH (T : Mat K) (p0 p1 p2 p3 : HP K) (i : Fin 4) : HP K :=
  (((p0.scale (T.m i 0)).add (p1.scale (T.m i 1))).add (p2.scale (T.m i 2))).add (p3.scale (T.m i 3))

/-- The loop over the pieces of one curve in `convertToBezierBasis`, libs/core/geometry/cubiccurves.cpp:699-735, for one component of one
element of an array; `p` are the values given. The results are stored one after the other: a list. -/
def convCurve (T : Mat K) (p : Int → K) (n start step : Int) : Nat → Int → List K
  | 0, _ => []
  | k + 1, idx =>
    let p0 := p (idx + start)
    let p1 := p ((idx + 1).tmod n + start)
    let p2 := p ((idx + 2).tmod n + start)
    let p3 := p ((idx + 3).tmod n + start)
    row T p0 p1 p2 p3 0 :: row T p0 p1 p2 p3 1 :: row T p0 p1 p2 p3 2 :: row T p0 p1 p2 p3 3 ::
      convCurve T p n start step k (idx + step)

/-- `convertToBezierBasis`, libs/core/geometry/cubiccurves.cpp:672-739. -/
def convGroup (T : Mat K) (p : Int → K) (step : Int) (periodic : Bool) : List Int → Int → List K
  | [], _ => []
  | n :: ns, start =>
    convCurve T p n start step (segmentsPerCurve n step periodic).toNat 0 ++ convGroup T p step periodic ns (start + n)

/-- A piece of a cubic curve: its four vertices, two indices of varying variables, the index of uniform variables and the values of `v`,
libs/core/geometry/cubiccurves.cpp:880-991. -/
structure CubSeg where
  a : Int
  b : Int
  c : Int
  d : Int
  va : Int
  vb : Int
  uniform : Int
  v0 : ℚ
  v1 : ℚ
  deriving DecidableEq, Repr

/-- The loop over the pieces of one curve, libs/core/geometry/cubiccurves.cpp:878-998. -/
def cubCurve (nSegs nVarying vertexStart varyingStart uniform : Int) : Nat → Int → Int → List CubSeg
  | 0, _, _ => []
  | k + 1, pcN, segVarying =>
    ⟨4 * pcN + vertexStart, 4 * pcN + 1 + vertexStart, 4 * pcN + 2 + vertexStart, 4 * pcN + 3 + vertexStart,
      (segVarying + 0).tmod nVarying + varyingStart, (segVarying + 1).tmod nVarying + varyingStart, uniform,
      pcN / nSegs, (pcN + 1) / nSegs⟩ :: cubCurve nSegs nVarying vertexStart varyingStart uniform k (pcN + 1) (segVarying + 1)

/-- `CqCubicCurvesGroup::Split`, libs/core/geometry/cubiccurves.cpp:842-1010. -/
def cubGroup (step : Int) (periodic : Bool) : List Int → Int → Int → Int → List CubSeg
  | [], _, _, _ => []
  | n :: ns, vertexStart, varyingStart, uniform =>
    let nSegs := segmentsPerCurve n step periodic
    let nVarying := if periodic then nSegs else nSegs + 1
    cubCurve nSegs nVarying vertexStart varyingStart uniform nSegs.toNat 0 0 ++
      cubGroup step periodic ns (vertexStart + 4 * nSegs) (varyingStart + nVarying) (uniform + 1)

/-! ## Splitting pieces -/

/-- `linCurveNatSubdiv` and `cubicCurveVaryingNatSubdiv`, libs/core/geometry/linearcurves.cpp:80-82,
libs/core/geometry/cubiccurves.cpp:170-172, on the flat values of a parameter; the results are clones of it before
(libs/core/geometry/linearcurves.cpp:201-202). `cast` is `static_cast<T>`. -/
def linHalves (cast : K → K) (p : Nat → K) : (Nat → K) × (Nat → K) :=
  let m := cast ((p 0 + p 1) * (1 / 2))
  (Function.update (β := fun _ => K) (Function.update (β := fun _ => K) p 0 (p 0)) 1 m,
   Function.update (β := fun _ => K) (Function.update (β := fun _ => K) p 0 m) 1 (p 1))

/-- `cubicCurveNatSubdiv`, libs/core/geometry/cubiccurves.cpp:101-110, on the flat values of a parameter; the results are clones of it
before (libs/core/geometry/cubiccurves.cpp:291-292). -/
def cubHalves (cast : K → K) (p : Nat → K) : (Nat → K) × (Nat → K) :=
  let h := halve cast fun i : Fin 4 => p i
  (fun i => if g : i < 4 then h.1 ⟨i, g⟩ else p i, fun i => if g : i < 4 then h.2 ⟨i, g⟩ else p i)

/-- `NaturalSubdivide` and `VaryingNaturalSubdivide`, libs/core/geometry/linearcurves.cpp:87-123,
libs/core/geometry/cubiccurves.cpp:115-151, 177-213: nothing is done with matrices. -/
def subdivided (isMatrix cubic : Bool) (cast : K → K) (p : Nat → K) : (Nat → K) × (Nat → K) :=
  if isMatrix then (p, p) else if cubic then cubHalves cast p else linHalves cast p

/-- `linCurveNatSubdiv` for points, libs/core/geometry/linearcurves.cpp:80-82, 107-109. -/
def linHalvesH (a b : HP K) : (HP K × HP K) × (HP K × HP K) :=
  let m := (a.add b).scale (1 / 2)
  ((a, m), (m, b))

/-! ## Ribbons -/

/-- A vector. -/
abbrev V3 := Fin 3 → ℝ

/-- The product of vectors. -/
def dot (a b : V3) : ℝ := a 0 * b 0 + a 1 * b 1 + a 2 * b 2

/-- `operator%` of vectors, include/aqsis/math/vector3d.h:609-616. -/
def cross (a b : V3) : V3 := ![a 1 * b 2 - a 2 * b 1, a 2 * b 0 - a 0 * b 2, a 0 * b 1 - a 1 * b 0]

/-- `Magnitude`. -/
noncomputable def len (a : V3) : ℝ := Real.sqrt (dot a a)

/-- `Unit`, include/aqsis/math/vector3d.h:355-365. -/
noncomputable def unit (a : V3) : V3 := fun j => if len a ≠ 0 then a j / len a else a j

/-- `chooseEndpointTangent`, libs/core/geometry/cubiccurves.cpp:334-352. -/
noncomputable def chooseTangent (t1 t2 t3 : V3) : V3 :=
  let small := 1 / 1000000 * max (max (dot t1 t1) (dot t2 t2)) (dot t3 t3)
  if dot t1 t1 > small then t1 else if dot t2 t2 > small then t2 else t3

/-- `CalculateTangent`, libs/core/geometry/cubiccurves.cpp:356-378. -/
noncomputable def tangent (P : Fin 4 → V3) (u : ℝ) : V3 :=
  if u = 0 then chooseTangent (fun j => P 1 j - P 0 j) (fun j => P 2 j - P 0 j) (fun j => P 3 j - P 0 j)
  else if u = 1 then chooseTangent (fun j => P 3 j - P 2 j) (fun j => P 3 j - P 1 j) (fun j => P 3 j - P 0 j)
  else fun j => (-(u * u) + 2 * u - 1) * P 0 j + (3 * (u * u) - 4 * u + 1) * P 1 j + (-3 * (u * u) + 2 * u) * P 2 j + u * u * P 3 j

/-- `GetNormal`, libs/core/geometry/curves.cpp:281-298: the values of `N` if there is one; `none`: there is no value of the index. -/
noncomputable def getNormal (N : Option (List V3)) (leftHanded orientation : Bool) (i : Nat) : Option V3 :=
  match N with
  | some l => l[i]?
  | none => some (if orientation = leftHanded then ![0, 0, -1] else ![0, 0, 1])

/-- A sixth of the width across the curve at control point `k` of four, libs/core/geometry/cubiccurves.cpp:403-428: `widthOffset02` to
`widthOffset32`. -/
noncomputable def sixth (P : Fin 4 → V3) (n0 n3 : V3) (w0 w3 : ℝ) : Fin 4 → V3 :=
  let n1 : V3 := fun j => (n3 j - n0 j) / 3 + n0 j
  let n2 : V3 := fun j => (n3 j - n0 j) / 3 * 2 + n0 j
  let w1 := (w3 - w0) / 3 + w0
  let w2 := (w3 - w0) / 3 * 2 + w0
  ![fun j => unit (cross n0 (tangent P 0)) j * (w0 / 6), fun j => unit (cross n1 (tangent P (333 / 1000))) j * (w1 / 6),
    fun j => unit (cross n2 (tangent P (666 / 1000))) j * (w2 / 6), fun j => unit (cross n3 (tangent P 1)) j * (w3 / 6)]

/-- The control points of the patch of a cubic piece, libs/core/geometry/cubiccurves.cpp:430-465: row `k`, column `l`. -/
noncomputable def ribbon (P : Fin 4 → V3) (n0 n3 : V3) (w0 w3 : ℝ) (k l : Fin 4) : V3 := fun j =>
  let s := sixth P n0 n3 w0 w3 k j
  ![P k j + s * 3, P k j + s, P k j - s, P k j - s * 3] l

/-- Half the width across a linear piece at one end, libs/core/geometry/linearcurves.cpp:251-262; `none`: the division by zero of a
product of length zero, which gives numbers that are none. -/
noncomputable def across (d n : V3) (w : ℝ) : Option V3 :=
  let o := cross (unit n) d
  if len o = 0 then none else some fun j => o j * (w / len o / 2)

/-- The corners of the patch of a linear piece, libs/core/geometry/linearcurves.cpp:276-279. -/
noncomputable def linRibbon (p0 p1 n0 n1 : V3) (w0 w1 : ℝ) : Option (Fin 4 → V3) :=
  let d : V3 := fun j => p1 j - p0 j
  (across d n0 w0).bind fun o0 => (across d n1 w1).map fun o1 =>
    ![fun j => p0 j + o0 j, fun j => p0 j - o0 j, fun j => p1 j + o1 j, fun j => p1 j - o1 j]

/-- `u` and `v` at the corners of a patch, and the ends that varying variables are taken from, libs/core/geometry/linearcurves.cpp:296-299,
342-345, libs/core/geometry/cubiccurves.cpp:484-487, 551-554. -/
def cornerU : Fin 4 → ℚ := ![0, 1, 0, 1]

/-- See `cornerU`. -/
def cornerV (v0 v1 : ℚ) : Fin 4 → ℚ := ![v0, v0, v1, v1]

/-- See `cornerU`. -/
def cornerEnd : Fin 4 → Fin 2 := ![0, 0, 1, 1]

/-- The control points that vertex variables of a cubic piece are taken from, libs/core/geometry/cubiccurves.cpp:522-537. -/
def netVertex : Fin 16 → Fin 4 := ![0, 0, 0, 0, 1, 1, 1, 1, 2, 2, 2, 2, 3, 3, 3, 3]

/-! ## Bounds and widths -/

/-- The largest width in `CqCurve::Bound`, libs/core/geometry/curves.cpp:102-131: of the first `nWidth` ones, and of no more than there are
points. -/
noncomputable def maxWidth (widths : List ℝ) (nWidth nPoints : Nat) : ℝ :=
  ((widths.take nWidth).take nPoints).foldl (fun m w => if w > m then w else m) 0

/-- One coordinate of `CqCurve::Bound`, libs/core/geometry/curves.cpp:96-141; `big` is `FLT_MAX`. The adjustment for motion in line 142 is
left out. -/
noncomputable def curveBound (big : ℝ) (xs widths : List ℝ) (nWidth : Nat) : ℝ × ℝ :=
  let b := bound big xs
  (b.1 - maxWidth widths nWidth xs.length / 2, b.2 + maxWidth widths nWidth xs.length / 2)

/-- One coordinate of `CqCubicCurvesGroup::Bound`, libs/core/geometry/cubiccurves.cpp:1021-1042. -/
noncomputable def groupBound (big : ℝ) (xs widths : List ℝ) : ℝ × ℝ :=
  let m := widths.foldl max 0
  (xs.foldl min big - m / 2, xs.foldl max (-big) + m / 2)

/-- `widthScale`, libs/core/geometry/curves.cpp:410-411, with the images of the first two axes. -/
noncomputable def widthScale (ex ey : V3) : ℝ := 2 / (len ex + len ey)

end Verif.Geom.Curves
