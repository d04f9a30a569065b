import Verif.Tex.Ewa

/-!
What the theorems on elliptical filters speak of.
-/

namespace Verif.Tex.Ewa.Spec
open Verif.Tex.Ewa

/-- The inner product. -/
def dot (u w : V2) : ℝ := u.x * w.x + u.y * w.y

/-- The value of a quadratic form at a vector. -/
def val (m : M2) (w : V2) : ℝ := m.a * w.x ^ 2 + (m.b + m.c) * (w.x * w.y) + m.d * w.y ^ 2

/-- A covariance: symmetric, and no variance is negative. -/
def IsCov (m : M2) : Prop := m.b = m.c ∧ ∀ w, 0 ≤ val m w

/-- The vector in pixels of the base texture. -/
def px (resS resT : ℝ) (w : V2) : V2 := ⟨resS * w.x, resT * w.y⟩

/-- The variance of the Gaussian that stands for a square of side 1, libs/tex/filtering/ewafilter.cpp:
98-109. -/
noncomputable def unitVar : ℝ := 13 / (20 * Real.pi)

/-- The variance along `w`, in pixels, of the filter before its aspect is limited: that of a pixel of
the image, which is the parallelogram, of the blur and of the reconstruction. -/
noncomputable def variance (p : Pllgram) (resS resT : ℝ) (blur : M2) (w : V2) : ℝ :=
  unitVar * (dot (px resS resT p.s1) w ^ 2 + dot (px resS resT p.s2) w ^ 2) +
    val blur (px resS resT w) + unitVar * dot w w

/-- The variances along two directions differ by a factor of at most `k` squared. -/
def AspectWithin (k : ℝ) (f : V2 → ℝ) : Prop :=
  ∀ u w, dot u u = 1 → dot w w = 1 → f u ≤ k ^ 2 * f w

end Verif.Tex.Ewa.Spec
