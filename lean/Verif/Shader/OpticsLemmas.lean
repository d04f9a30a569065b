import Verif.Shader.Optics
import Verif.Shader.ArithLemmas
import Mathlib.Tactic.FieldSimp
import Mathlib.Tactic.Linarith
import Mathlib.Tactic.LinearCombination
import Mathlib.Tactic.NormNum
import Mathlib.Tactic.Positivity

/-!
Lemmas about reflection, refraction and Fresnel's factors
-/

namespace Verif.Shader.Optics

open Verif.Shader.Arith (dot unit)

namespace Spec

/-- A vector of length one. -/
def Unit1 (v : Vec) : Prop := dot v v = 1

/-- Fresnel's factor of reflection for the cosines on both sides and the ratio of the indices, as in books: the mean of the squares
of the two amplitudes. -/
noncomputable def fresnelBook (ci ct eta : ℝ) : ℝ :=
  (((eta * ci - ct) / (eta * ci + ct)) ^ 2 + ((ci - eta * ct) / (ci + eta * ct)) ^ 2) / 2

/-- The part of a vector along a surface. -/
noncomputable def along (v n : Vec) : Vec := fun k => v k - dot v n * n k

end Spec

open Spec

theorem dot_sq_le (i n : Vec) (hi : Unit1 i) (hn : Unit1 n) : dot i n * dot i n ≤ 1 := by
  unfold Unit1 dot at *
  nlinarith [sq_nonneg (i 0 * n 1 - i 1 * n 0), sq_nonneg (i 0 * n 2 - i 2 * n 0), sq_nonneg (i 1 * n 2 - i 2 * n 1),
    mul_self_nonneg (i 0)]

theorem refract_pos (i n : Vec) (eta : ℝ) (hk : 0 ≤ 1 - eta * eta * (1 - dot i n * dot i n)) :
    refract i n eta = fun j => eta * i j - (eta * dot i n + Real.sqrt (1 - eta * eta * (1 - dot i n * dot i n))) * n j := by
  unfold refract
  simp only []
  rw [if_neg (not_lt.mpr hk)]

theorem dot_lin (a b : ℝ) (i n m : Vec) : dot (fun j => a * i j - b * n j) m = a * dot i m - b * dot n m := by
  unfold dot; ring

theorem dot_lin' (a b : ℝ) (i n m : Vec) : dot m (fun j => a * i j - b * n j) = a * dot m i - b * dot m n := by
  unfold dot; ring

theorem dot_comm' (i n : Vec) : dot i n = dot n i := by unfold dot; ring

theorem along_sq (i n : Vec) (hi : Unit1 i) (hn : Unit1 n) : dot (along i n) (along i n) = 1 - dot i n * dot i n := by
  have e : along i n = fun j => 1 * i j - dot i n * n j := by unfold along; funext j; ring
  rw [e, dot_lin, dot_lin', dot_lin', hi, hn, dot_comm' n i]; ring

theorem refract_main (i n : Vec) (eta : ℝ) (hi : Unit1 i) (hn : Unit1 n) (h : eta ^ 2 * (1 - dot i n * dot i n) ≤ 1) :
    Unit1 (refract i n eta) ∧ dot (refract i n eta) n = -Real.sqrt (1 - eta * eta * (1 - dot i n * dot i n)) := by
  have hk : 0 ≤ 1 - eta * eta * (1 - dot i n * dot i n) := by nlinarith
  have hs := Real.mul_self_sqrt hk
  rw [refract_pos i n eta hk]
  generalize Real.sqrt (1 - eta * eta * (1 - dot i n * dot i n)) = s at hs
  refine ⟨?_, ?_⟩
  · unfold Unit1
    rw [dot_lin, dot_lin', dot_lin', hi, hn, dot_comm' n i]
    linear_combination hs
  · rw [dot_lin, hn]; ring

theorem refract_zero (i n : Vec) (eta : ℝ) (hi : Unit1 i) (hn : Unit1 n) :
    refract i n eta = 0 ↔ 1 < eta ^ 2 * dot (along i n) (along i n) := by
  rw [along_sq i n hi hn]
  constructor
  · intro h
    by_contra hc
    have := (refract_main i n eta hi hn (not_lt.mp hc)).1
    rw [h] at this
    unfold Unit1 dot at this
    simp at this
  · intro h
    unfold refract
    simp only []
    rw [if_pos (by nlinarith)]

/-- The factor of Fresnel with the auxiliary numbers named. -/
theorem fresnel_total (i n : Vec) (eta : ℝ) (he : 0 < eta) (hc : 0 < -dot i n)
    (ha : 1 / eta * (1 / eta) - (1 - dot i n * dot i n) < 0) : fresnel i n eta = some (1, 0) := by
  have hd : dot (fun k => -i k) n = -dot i n := by unfold dot; ring
  unfold fresnel
  rw [if_neg he.ne', hd]
  have e : 1 / eta * (1 / eta) - (1 - -dot i n * -dot i n) = 1 / eta * (1 / eta) - (1 - dot i n * dot i n) := by ring
  simp only [e]
  have hq : 0 < 1 / eta * (1 / eta) := by positivity
  generalize 1 / eta * (1 / eta) - (1 - dot i n * dot i n) = a at ha
  generalize 1 / eta * (1 / eta) = q at hq
  generalize -dot i n = c at hc
  have hab : |a| = -a := abs_of_neg ha
  have e1 : (a + |a|) / 2 = 0 := by rw [hab]; ring
  have e2 : (-a + |a|) / 2 = -a := by rw [hab]; ring
  have na : -a ≠ 0 := by linarith
  simp only [e1, e2, if_true, if_neg na]
  have hv : Real.sqrt |-a| * Real.sqrt |-a| = -a := by rw [Real.mul_self_sqrt (abs_nonneg _), abs_neg, hab]
  have hv' : -Real.sqrt |-a| * -Real.sqrt |-a| = -a := by rw [neg_mul_neg, hv]
  rw [hv, hv']
  have p1 : 0 < (c + 0) * (c + 0) + -a := by nlinarith
  have p2 : 0 < (q * c + 0) * (q * c + 0) + -a := by nlinarith [mul_pos hq hc]
  rw [if_neg (by rintro (h | h) <;> linarith)]
  have f1 : (c - 0) * (c - 0) + -a = (c + 0) * (c + 0) + -a := by ring
  have f2 : (q * c - 0) * (q * c - 0) + -a = (q * c + 0) * (q * c + 0) + -a := by ring
  rw [f1, f2, div_self p1.ne', div_self p2.ne']
  norm_num

theorem fresnel_book (i n : Vec) (eta : ℝ) (he : 0 < eta) (hc : 0 < -dot i n)
    (ha : 0 ≤ 1 / eta * (1 / eta) - (1 - dot i n * dot i n)) :
    let kr := fresnelBook (-dot i n) (Real.sqrt (1 - eta ^ 2 * (1 - dot i n * dot i n))) eta
    fresnel i n eta = some (kr, 1 - kr) := by
  have hd : dot (fun k => -i k) n = -dot i n := by unfold dot; ring
  unfold fresnel
  rw [if_neg he.ne', hd]
  have e : 1 / eta * (1 / eta) - (1 - -dot i n * -dot i n) = 1 / eta * (1 / eta) - (1 - dot i n * dot i n) := by ring
  simp only [e]
  have ek : 1 - eta ^ 2 * (1 - dot i n * dot i n) = eta ^ 2 * (1 / eta * (1 / eta) - (1 - dot i n * dot i n)) := by field_simp
  rw [ek, Real.sqrt_mul (by positivity), Real.sqrt_sq he.le]
  generalize 1 / eta * (1 / eta) - (1 - dot i n * dot i n) = a at ha
  generalize -dot i n = c at hc
  have hab : |a| = a := abs_of_nonneg ha
  have e1 : (a + |a|) / 2 = a := by rw [hab]; ring
  have e2 : (-a + |a|) / 2 = 0 := by rw [hab]; ring
  rw [e1, e2, if_pos rfl]
  have hu : (if a = 0 then 0 else Real.sqrt |a|) = Real.sqrt a := by
    split_ifs with h
    · rw [h, Real.sqrt_zero]
    · rw [hab]
  rw [hu]
  have hs : 0 ≤ Real.sqrt a := Real.sqrt_nonneg a
  generalize Real.sqrt a = u at hs
  have hq : 0 < 1 / eta * (1 / eta) := by positivity
  have p1 : 0 < c + u := by linarith
  have p2 : 0 < 1 / eta * (1 / eta) * c + u := by nlinarith [mul_pos hq hc]
  have p3 : 0 < eta * c + eta * u := by nlinarith
  have p4 : 0 < c + eta * (eta * u) := by nlinarith [mul_nonneg (mul_nonneg he.le he.le) hs]
  rw [if_neg (by rintro (h | h) <;> nlinarith)]
  have : 1 / 2 * (((c - u) * (c - u) + 0) / ((c + u) * (c + u) + 0) +
      ((1 / eta * (1 / eta) * c - u) * (1 / eta * (1 / eta) * c - u) + -0 * -0) /
      ((1 / eta * (1 / eta) * c + u) * (1 / eta * (1 / eta) * c + u) + 0 * 0)) = fresnelBook c (eta * u) eta := by
    unfold fresnelBook
    have g1 : (eta * c - eta * u) / (eta * c + eta * u) = (c - u) / (c + u) := by
      rw [← mul_sub, ← mul_add, mul_div_mul_left _ _ he.ne']
    have g2 : (c - eta * (eta * u)) / (c + eta * (eta * u)) =
        (1 / eta * (1 / eta) * c - u) / (1 / eta * (1 / eta) * c + u) := by
      rw [div_eq_div_iff p4.ne' p2.ne']
      field_simp
    rw [g1, g2, div_pow, div_pow]
    ring
  rw [this]

theorem sq_le_one (x y : ℝ) (hx : 0 ≤ x) (hy : 0 ≤ y) : ((x - y) / (x + y)) ^ 2 ≤ 1 := by
  rcases eq_or_lt_of_le (add_nonneg hx hy) with h | h
  · rw [← h, div_zero]; norm_num
  · rw [div_pow, div_le_one (by positivity)]; nlinarith [mul_nonneg hx hy]

theorem cauchy (a b : Vec) : dot a b * dot a b ≤ dot a a * dot b b := by
  unfold dot
  nlinarith [sq_nonneg (a 0 * b 1 - a 1 * b 0), sq_nonneg (a 0 * b 2 - a 2 * b 0), sq_nonneg (a 1 * b 2 - a 2 * b 1)]

end Verif.Shader.Optics
