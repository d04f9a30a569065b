import Verif.Geom.Quadric
import Mathlib.Analysis.SpecialFunctions.Trigonometric.Deriv
import Mathlib.Analysis.SpecialFunctions.Sqrt

/-!
# What quadrics are

The surfaces as the RenderMan interface defines them: a curve turned about the z axis.  Nothing here uses the functions which
dice, split or bound.
-/

noncomputable section

namespace Verif.Geom.Quadric

open Real

/-- From `a` to `b`. -/
def mix (a b t : ℝ) : ℝ := a + t * (b - a)

/-- The curve which is turned. -/
def curve : Shape → ℝ → V
  | .sphere r pmin pmax, t => ⟨r * cos (mix pmin pmax t), 0, r * sin (mix pmin pmax t)⟩
  | .cone h r vmin vmax, t => ⟨r * (1 - mix vmin vmax t), 0, h * mix vmin vmax t⟩
  | .cylinder r zmin zmax, t => ⟨r, 0, mix zmin zmax t⟩
  | .hyperboloid p1 p2, t => ⟨mix p1.x p2.x t, mix p1.y p2.y t, mix p1.z p2.z t⟩
  | .paraboloid r zmin zmax, t => ⟨r * √(mix zmin zmax t / zmax), 0, mix zmin zmax t⟩
  | .torus major minor pmin pmax, t =>
    ⟨major + minor * cos (mix pmin pmax t * π / 180), 0, minor * sin (mix pmin pmax t * π / 180)⟩
  | .disk h major minor, t => ⟨mix major minor t, 0, h⟩

/-- The point of the surface at `s` about the axis and `t` along the curve, both from 0 to 1. -/
def surf (q : Quad) (s t : ℝ) : V :=
  let p := curve q.shape t
  let a := mix q.tmin q.tmax s * π / 180
  ⟨p.x * cos a - p.y * sin a, p.x * sin a + p.y * cos a, p.z⟩

/-- The point is in the box, up to `e` on each side. -/
def Within (e : ℝ) (b : Box) (p : V) : Prop :=
  (b.lo.x - e ≤ p.x ∧ p.x ≤ b.hi.x + e) ∧ (b.lo.y - e ≤ p.y ∧ p.y ≤ b.hi.y + e) ∧
    (b.lo.z - e ≤ p.z ∧ p.z ≤ b.hi.z + e)

/-- A paraboloid whose profile goes up from a height that is not negative. -/
def Upward : Shape → Prop
  | .paraboloid _ zmin zmax => 0 ≤ zmin ∧ zmin ≤ zmax ∧ 0 < zmax
  | _ => True

/-- What the bound needs of the shape: positive spheres of at most half a turn; cones within 0 and 1; paraboloids which go
up; tori for which the tangents at the ends of each of four arcs are found to intersect. -/
def Fit : Shape → Prop
  | .sphere r pmin pmax => 0 < r ∧ |pmax - pmin| ≤ π
  | .cone _ _ vmin vmax => (0 ≤ vmin ∧ vmin ≤ 1) ∧ (0 ≤ vmax ∧ vmax ≤ 1) ∧ vmin ≤ vmax
  | .paraboloid r zmin zmax => 0 ≤ r ∧ 0 ≤ zmin ∧ zmin ≤ zmax ∧ 0 < zmax
  | .torus major minor pmin pmax =>
    |pmax - pmin| < 720 ∧ ∀ i : ℕ, i < 4 →
      1e-7 ≤ ((major * cos ((min pmin pmax + i * (|pmax - pmin| / 4)) * π / 180) + minor +
        sin (|pmax - pmin| / 4 * π / 180)) * sin (|pmax - pmin| / 4 * π / 180)) ^ 2
  | _ => True

/-- The derivative of a curve in space. -/
def HasDerivV (f : ℝ → V) (d : V) (x : ℝ) : Prop :=
  HasDerivAt (fun a => (f a).x) d.x x ∧ HasDerivAt (fun a => (f a).y) d.y x ∧ HasDerivAt (fun a => (f a).z) d.z x

/-- The place on the curve is not the apex of a paraboloid. -/
def Smooth : Shape → ℝ → Prop
  | .paraboloid r zmin zmax, t => r ≠ 0 ∧ 0 < zmax ∧ 0 < mix zmin zmax t
  | _, _ => True

/-- Shapes described in the usual order: radii that are not negative, limits that go up. -/
def Usual : Shape → Prop
  | .sphere r pmin pmax => 0 < r ∧ -(π / 2) ≤ pmin ∧ pmin ≤ pmax ∧ pmax ≤ π / 2
  | .cone h r vmin vmax => 0 ≤ h ∧ 0 ≤ r ∧ 0 ≤ vmin ∧ vmin ≤ vmax ∧ vmax ≤ 1
  | .cylinder _ zmin zmax => zmin ≤ zmax
  | .hyperboloid _ _ => True
  | .paraboloid r zmin zmax => 0 < r ∧ 0 ≤ zmin ∧ zmin ≤ zmax
  | .torus major minor pmin pmax => 0 ≤ minor ∧ minor ≤ major ∧ pmin ≤ pmax
  | .disk _ major minor => 0 ≤ minor ∧ minor ≤ major

end Verif.Geom.Quadric
