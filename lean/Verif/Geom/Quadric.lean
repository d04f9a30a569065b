import Mathlib.Analysis.SpecialFunctions.Trigonometric.Inverse
import Mathlib.Analysis.Real.Sqrt

/-!
# Quadrics

Model of libs/core/geometry/quadrics.cpp: the points and normals into which spheres, cones, cylinders, hyperboloids,
paraboloids, tori and disks are diced, how they are split, and their bounds in object space.

Simplifications.  Numbers are real.  The seven classes have the same code for the angles about the z axis; that code is written
once here (`Quad`).  Transformation of bounds is in `Verif.Core.Cull`.  Bounds for moving objects are left out.
-/

noncomputable section

namespace Verif.Geom.Quadric

open Real

/-- `CqVector3D`, include/aqsis/math/vector3d.h:55-66; the default is zero (lines 245-248). -/
@[ext] structure V where
  x : ℝ
  y : ℝ
  z : ℝ

/-- The sum of vectors, vector3d.h:547-551. -/
def add (a b : V) : V := ⟨a.x + b.x, a.y + b.y, a.z + b.z⟩
/-- The difference of vectors, vector3d.h:553-557. -/
def sub (a b : V) : V := ⟨a.x - b.x, a.y - b.y, a.z - b.z⟩
/-- The product of a number and a vector, vector3d.h:511-515. -/
def smul (k : ℝ) (a : V) : V := ⟨k * a.x, k * a.y, k * a.z⟩
/-- `operator*` of vectors, vector3d.h:602-606. -/
def dot (a b : V) : ℝ := a.x * b.x + a.y * b.y + a.z * b.z
/-- `operator%`, vector3d.h:608-616. -/
def cross (a b : V) : V :=
  ⟨a.y * b.z - a.z * b.y, a.z * b.x - a.x * b.z, a.x * b.y - a.y * b.x⟩
/-- The zero vector, vector3d.h:245-248. -/
def zero : V := ⟨0, 0, 0⟩
/-- `Magnitude`, vector3d.h:344-353. -/
def mag (a : V) : ℝ := √(dot a a)
/-- `Unit`, vector3d.h:354-365; the zero vector stays as it is (here `1 / 0 = 0`). -/
def unit (a : V) : V := smul (1 / mag a) a

/-- `degToRad`, include/aqsis/math/math.h:129-132. -/
def degToRad (a : ℝ) : ℝ := a / 180 * π

/-- Rotation about the z axis: `CqMatrix( angle, ( 0, 0, 1 ) )` applied to a vector, libs/math/matrix.cpp:96-135. -/
def rotZ (a : ℝ) (p : V) : V := ⟨p.x * cos a - p.y * sin a, p.x * sin a + p.y * cos a, p.z⟩

/-- What the classes have besides the angles about the z axis.  `sphere`: radius and angles in radians; `cone`: height,
radius, `vMin`, `vMax`; `cylinder`: radius, `zMin`, `zMax`; `hyperboloid`: two points; `paraboloid`: `rMax`, `zMin`, `zMax`;
`torus`: major and minor radius, angles in degrees; `disk`: height, major and minor radius (libs/core/geometry/quadrics.h:111-370). -/
inductive Shape where
  | sphere (r pmin pmax : ℝ)
  | cone (h r vmin vmax : ℝ)
  | cylinder (r zmin zmax : ℝ)
  | hyperboloid (p1 p2 : V)
  | paraboloid (r zmin zmax : ℝ)
  | torus (major minor pmin pmax : ℝ)
  | disk (h major minor : ℝ)

/-- A quadric: its shape, `m_ThetaMin` and `m_ThetaMax` in degrees (e.g. libs/core/geometry/quadrics.h:142-143). -/
structure Quad where
  shape : Shape
  tmin : ℝ
  tmax : ℝ

/-- The check of a value of z in the constructor of `CqSphere`, quadrics.cpp:360-361 and again 362-363: the comparison and the product bind
stronger than `?:`. -/
def sane (frad z : ℝ) : ℝ :=
  if |z| > frad then (if frad * (if z < 0 then 1 else 0) ≠ 0 then -1 else 1) else z

/-- `asin` in quadrics.cpp:365-366, with `none` for NaN. -/
def asin (x : ℝ) : Option ℝ := if |x| ≤ 1 then some (arcsin x) else none

/-- The constructor of `CqSphere`, quadrics.cpp:353-367: `zmin` is checked twice and `zmax` is not. -/
def newSphere (r zmin zmax tmin tmax : ℝ) : Option Quad :=
  match asin (sane |r| (sane |r| zmin) / r), asin (zmax / r) with
  | some a, some b => some ⟨.sphere r a b, tmin, tmax⟩
  | _, _ => none

/-! ## Dicing -/

/-- `sinCosGrid`, quadrics.cpp:1493-1518: cosine and sine of an element, from those of the one before. -/
def sinCos (t0 dt : ℝ) : Nat → ℝ × ℝ
  | 0 => (cos t0, sin t0)
  | i + 1 =>
    (cos dt * (sinCos t0 dt i).1 - sin dt * (sinCos t0 dt i).2,
      sin dt * (sinCos t0 dt i).1 + cos dt * (sinCos t0 dt i).2)

/-- An element of the tables which are built with `sinCosGrid( t0, t1, n + 1, … )`. -/
def grid (t0 t1 : ℝ) (n i : Nat) : ℝ × ℝ := sinCos t0 ((t1 - t0) / n) i

/-- A point and a normal of `DicePoints` for a grid of `n` times `m` elements, with `ct`, `st` from the table for theta:
spheres quadrics.cpp:457-492, cones 599-640, cylinders 741-772, hyperboloids 881-929, paraboloids 1033-1069, tori 1173-1214,
disks 1315-1344. -/
def dice (s : Shape) (tmax ct st : ℝ) (m v : Nat) : V × V :=
  match s with
  | .sphere r pmin pmax =>
    let p := grid pmin pmax m v
    let unitP : V := ⟨ct * p.1, st * p.1, p.2⟩
    (smul r unitP, unitP)
  | .cone h r vmin vmax =>
    let len := √(h * h + r * r)
    let zmin := vmin * h
    let zmax := vmax * h
    let z := zmin + v * (zmax - zmin) / m
    let vv := vmin + v * (vmax - vmin) / m
    let rr := r * (1 - vv)
    (⟨rr * ct, rr * st, z⟩, ⟨h / len * ct, h / len * st, r / len⟩)
  | .cylinder r zmin zmax =>
    let vz := zmin + v * (zmax - zmin) / m
    (⟨r * ct, r * st, vz⟩, ⟨r * ct, r * st, 0⟩)
  | .hyperboloid p1 p2 =>
    let vv := (v : ℝ) / m
    let p := add (smul (1 - vv) p1) (smul vv p2)
    let a : V := ⟨-p.x * tmax * st - p.y * tmax * ct, p.x * tmax * ct - p.y * tmax * st, 0⟩
    let p2p1 := sub p2 p1
    let b : V := ⟨p2p1.x * ct - p2p1.y * st, p2p1.x * st + p2p1.y * ct, p2p1.z⟩
    (⟨p.x * ct - p.y * st, p.x * st + p.y * ct, p.z⟩, cross a b)
  | .paraboloid rmax zmin zmax =>
    let z := zmin + v * (zmax - zmin) / m
    let r := rmax * √(z / zmax)
    (⟨r * ct, r * st, z⟩, ⟨ct, st, if r = 0 then -1 else -0.5 * rmax * rmax / zmax / r⟩)
  | .torus major minor pmin pmax =>
    let p := grid (degToRad pmin) (degToRad pmax) m v
    let r := minor * p.1
    let z := minor * p.2
    (⟨(major + r) * ct, (major + r) * st, z⟩, ⟨p.1 * ct, p.1 * st, p.2⟩)
  | .disk h major minor =>
    let vv := major - v * (major - minor) / m
    (⟨vv * ct, vv * st, h⟩, ⟨0, 0, if tmax > 0 then 1 else -1⟩)

/-- `DicePoints`: the element `u`, `v` of the grid of `n` times `m` elements; the tables for theta are made in the same way
for all (e.g. quadrics.cpp:468). -/
def dicePoint (q : Quad) (n m u v : Nat) : V × V :=
  dice q.shape q.tmax (grid (degToRad q.tmin) (degToRad q.tmax) n u).1
    (grid (degToRad q.tmin) (degToRad q.tmax) n u).2 m v

/-- The normal of the grid before it is transformed: `DiceAll`, quadrics.cpp:180-181 and 216-219. -/
def gridNormal (q : Quad) (flip : Bool) (n m u v : Nat) : V :=
  let N := (dicePoint q n m u v).2
  if flip then smul (-1) N else N

/-! ## Splitting -/

/-- `PreSubdivide` in the other direction: spheres quadrics.cpp:437-445, cones 579-587, cylinders 721-729, hyperboloids
861-869, paraboloids 1011-1021, tori 1153-1161, disks 1295-1303. -/
def splitShape : Shape → Shape × Shape
  | .sphere r pmin pmax =>
    let c := (pmin + pmax) * 0.5
    (.sphere r pmin c, .sphere r c pmax)
  | .cone h r vmin vmax =>
    let c := (vmin + vmax) * 0.5
    (.cone h r vmin c, .cone h r c vmax)
  | .cylinder r zmin zmax =>
    let c := (zmin + zmax) * 0.5
    (.cylinder r zmin c, .cylinder r c zmax)
  | .hyperboloid p1 p2 =>
    let c := smul (1 / 2) (add p1 p2)
    (.hyperboloid p1 c, .hyperboloid c p2)
  | .paraboloid r zmin zmax =>
    let c := (zmin + zmax) * 0.5
    let rc := r * √(c / zmax)
    (.paraboloid rc zmin c, .paraboloid r c zmax)
  | .torus major minor pmin pmax =>
    let c := (pmax + pmin) * 0.5
    (.torus major minor pmin c, .torus major minor c pmax)
  | .disk h major minor =>
    let c := (major + minor) * 0.5
    (.disk h major c, .disk h c minor)

/-- `PreSubdivide`, in the direction of the angle (e.g. quadrics.cpp:428-436) or the other one. -/
def split (q : Quad) (u : Bool) : Quad × Quad :=
  if u then
    let c := (q.tmin + q.tmax) * 0.5
    (⟨q.shape, q.tmin, c⟩, ⟨q.shape, c, q.tmax⟩)
  else (⟨(splitShape q.shape).1, q.tmin, q.tmax⟩, ⟨(splitShape q.shape).2, q.tmin, q.tmax⟩)

/-! ## Bounds -/

/-- `CqBound`, its least and greatest corner (libs/core/bound.cpp:134-143). -/
structure Box where
  lo : V
  hi : V

/-- `CqBound::Encapsulate`, libs/core/bound.cpp:134-143. -/
def encaps (b : Box) (p : V) : Box :=
  ⟨⟨min b.lo.x p.x, min b.lo.y p.y, min b.lo.z p.z⟩, ⟨max b.hi.x p.x, max b.hi.y p.y, max b.hi.z p.z⟩⟩

/-- `IntersectLine`, quadrics.cpp:1527-1541: `old` is what the result was before. -/
def intersect (p1 t1 p2 t2 old : V) : V :=
  let v := cross (cross t1 (sub p1 t2)) t1
  let vw := dot v t2
  if vw * vw < 1e-7 then old else add p2 (smul (dot (sub p1 p2) v / vw) t2)

/-- `ProjectToLine`, quadrics.cpp:1548-1556. -/
def project (s t p : V) : V :=
  let a := sub p s
  let denom := dot t t
  add (smul (if denom = 0 then 0 else dot t a / denom) t) s

/-- The loop of `Circle`, quadrics.cpp:1385-1399, `n` more times. -/
def circleLoop (O X Y : V) (r d : ℝ) : Nat → ℝ → V → V → V → List V
  | 0, _, _, _, _ => []
  | n + 1, angle, p0, t0, p1 =>
    let a := angle + d
    let p2 := add (add O (smul (r * cos a) X)) (smul (r * sin a) Y)
    let t2 := add (smul (-sin a) X) (smul (cos a) Y)
    let p1' := intersect p0 t0 p2 t2 p1
    p1' :: p2 :: circleLoop O X Y r d n a p2 t2 p1'

/-- `Circle`, quadrics.cpp:1360-1400.  All callers have `as ≤ ae`, so the loop in lines 1365-1366 is left out. -/
def circle (O X Y : V) (r as ae : ℝ) : List V :=
  let d := (ae - as) / 4
  let p0 := add (add O (smul (r * cos as) X)) (smul (r * sin as) Y)
  let t0 := add (smul (-sin as) X) (smul (cos as) Y)
  p0 :: circleLoop O X Y r d 4 as p0 t0 zero

/-- The loop over the arcs in `RevolveForBound`, quadrics.cpp:1462-1475, `n` more times; `i` is the number of the arc.  The
last point of intersection is kept. -/
def revolveLoop (O X Y : V) (r d : ℝ) : Nat → Nat → V → V → V → Box → Box × V
  | 0, _, _, _, p1, b => (b, p1)
  | n + 1, i, p0, t0, p1, b =>
    let a := d * (i : ℝ)
    let p2 := add (add O (smul (r * cos a) X)) (smul (r * sin a) Y)
    let t2 := add (smul (-sin a) X) (smul (cos a) Y)
    let p1' := intersect p0 t0 p2 t2 p1
    revolveLoop O X Y r d n (i + 1) p2 t2 p1' (encaps (encaps b p2) p1')

/-- The loop over the profile in `RevolveForBound`, quadrics.cpp:1437-1476. -/
def revolveAll (s t : V) (d : ℝ) : List V → V → Box → Box
  | [], _, b => b
  | p :: ps, p1, b =>
    let O := project s t p
    let X := sub p O
    let r := mag X
    if r < 1e-7 then revolveAll s t d ps p1 (encaps b O)
    else
      let X := unit X
      let Y := unit (cross t X)
      let o := revolveLoop O X Y r d 4 1 p Y p1 (encaps b p)
      revolveAll s t d ps o.2 o.1

/-- `RevolveForBound`, quadrics.cpp:1404-1478; `big` is `FLT_MAX`. -/
def revolve (big : ℝ) (profile : List V) (s t : V) (theta : ℝ) : Box :=
  let theta := if |theta| > 2 * π then (if theta < 0 then -(2 * π) else 2 * π) else theta
  revolveAll s t (theta / 4) profile zero ⟨⟨big, big, big⟩, ⟨-big, -big, -big⟩⟩

/-- The profile of which the bound is made: spheres quadrics.cpp:393-395, cones 535-540, cylinders 680-683, hyperboloids
821-823, tori 1112-1114, disks 1254-1257.  Paraboloids have none. -/
def profile : Shape → List V
  | .sphere r pmin pmax => circle zero ⟨1, 0, 0⟩ ⟨0, 0, 1⟩ r (min pmin pmax) (max pmin pmax)
  | .cone h r vmin vmax => [⟨r, 0, vmin * h⟩, ⟨0, 0, vmax * h⟩]
  | .cylinder r zmin zmax => [⟨r, 0, zmin⟩, ⟨r, 0, zmax⟩]
  | .hyperboloid p1 p2 => [p1, p2]
  | .paraboloid _ _ _ => []
  | .torus major minor pmin pmax =>
    circle ⟨major, 0, 0⟩ ⟨1, 0, 0⟩ ⟨0, 0, 1⟩ minor (degToRad (min pmin pmax)) (degToRad (max pmin pmax))
  | .disk h major minor => [⟨major, 0, h⟩, ⟨minor, 0, h⟩]

/-- `Bound` in object space: paraboloids quadrics.cpp:969-978, the others e.g. 391-401. -/
def bound (big : ℝ) (q : Quad) : Box :=
  match q.shape with
  | .paraboloid r zmin zmax =>
    let x1 := r * cos (degToRad 0)
    let x2 := r * cos (degToRad 180)
    let y1 := r * sin (degToRad 90)
    let y2 := r * sin (degToRad 270)
    ⟨⟨min x1 x2, min y1 y2, min zmin zmax⟩, ⟨max x1 x2, max y1 y2, max zmin zmax⟩⟩
  | s =>
    revolve big ((profile s).map (rotZ (degToRad q.tmin))) zero ⟨0, 0, 1⟩ (degToRad (q.tmax - q.tmin))

end Verif.Geom.Quadric
