import Verif.Core.PixelFiltersLemmas

/-!
C110: The filters of pixels
-/

namespace Verif.Core.PixelFilters

open Spec

/-- All filters are even. -/
theorem C110_even (j1 : ℝ → ℝ) : Both gaussian ∧ Both mitchell ∧ Both box ∧ Both triangle ∧ Both catmullRom ∧ Both sinc ∧ Both disk ∧
    Both (bessel j1) := by
  refine ⟨?_, ?_, ?_, ?_, ?_, ?_, ?_, ?_⟩ <;> intro x y xw yw
  · unfold gaussian
    constructor <;> simp only [neg_div, neg_mul_neg]
  · unfold mitchell
    constructor <;> simp only [neg_mul, mitchell1_even]
  · unfold box
    constructor <;> simp only [abs_neg]
  · unfold triangle
    constructor <;> simp only [abs_neg]
  · unfold catmullRom
    constructor <;> simp only [neg_mul_neg]
  · unfold sinc
    constructor <;> rw [sinc1_even]
  · unfold disk
    constructor <;> simp only [neg_mul_neg]
  · unfold bessel
    constructor <;> simp only [neg_mul_neg]

/-- All filters treat the axes alike. -/
theorem C110_alike (j1 : ℝ → ℝ) : Alike gaussian ∧ Alike mitchell ∧ Alike box ∧ Alike triangle ∧ Alike catmullRom ∧ Alike sinc ∧
    Alike disk ∧ Alike (bessel j1) := by
  refine ⟨?_, ?_, ?_, ?_, ?_, ?_, ?_, ?_⟩ <;> intro x y xw yw
  · unfold gaussian; simp only; rw [add_comm]
  · unfold mitchell; simp only; rw [mul_comm]
  · unfold box; rw [min_comm]
  · unfold triangle; simp only; rw [min_comm]
  · unfold catmullRom; simp only; rw [add_comm]
  · unfold sinc; rw [mul_comm]
  · unfold disk; simp only; rw [add_comm]
  · unfold bessel; simp only; rw [add_comm (y * y / _), add_comm (y * y) (x * x)]

/-- The Gaussian filter is positive, one in the middle, falls off outwards, and is `exp (-2)` of the middle at the edge. -/
theorem C110_gaussian (xw yw : ℝ) (hx : 0 < xw) (hy : 0 < yw) :
    gaussian 0 0 xw yw = 1 ∧ (∀ x y, 0 < gaussian x y xw yw) ∧
    (∀ x y x' y', gaussian x y xw yw ≤ gaussian x' y' xw yw ↔ rel x' xw ^ 2 + rel y' yw ^ 2 ≤ rel x xw ^ 2 + rel y yw ^ 2) ∧
    ∀ x y, rel x xw ^ 2 + rel y yw ^ 2 = 1 → gaussian x y xw yw = Real.exp (-2) := by
  have e : ∀ x y, gaussian x y xw yw = Real.exp (-2 * (rel x xw ^ 2 + rel y yw ^ 2)) := by
    intro x y
    unfold gaussian rel
    apply congrArg Real.exp
    ring
  refine ⟨by simp [gaussian], fun x y => Real.exp_pos _, ?_, ?_⟩
  · intro x y x' y'
    rw [e, e, Real.exp_le_exp]
    constructor <;> intro h <;> linarith
  · intro x y h
    rw [e, h, mul_one]

/-- The box filter is one in the window and zero outside. -/
theorem C110_box (x y xw yw : ℝ) : (Within x y xw yw → box x y xw yw = 1) ∧ (¬ Within x y xw yw → box x y xw yw = 0) := by
  unfold box Within
  rw [← and_assoc, ← abs_in, ← abs_in]
  constructor
  · rintro ⟨h1, h2⟩
    rw [if_pos h1, if_pos h2, min_self]
  · intro h
    by_cases h1 : |x| ≤ xw / 2
    · rw [if_neg fun h2 => h ⟨h1, h2⟩]
      split_ifs <;> norm_num
    · rw [if_neg h1]
      split_ifs <;> norm_num

/-- The triangle filter is the distance to the nearest edge of the window, as a part of that of the middle; zero outside. -/
theorem C110_triangle (x y xw yw : ℝ) (hx : 0 < xw) (hy : 0 < yw) :
    triangle x y xw yw = max 0 (min (1 - |rel x xw|) (1 - |rel y yw|)) := by
  have one : ∀ (z w : ℝ), 0 < w → (if |z| ≤ w / 2 then (w / 2 - |z|) / (w / 2) else 0) = max 0 (1 - |rel z w|) := by
    intro z w hw
    have er : |rel z w| = 2 * |z| / w := by
      unfold rel
      rw [abs_div, abs_mul, abs_of_pos hw, abs_of_pos (by norm_num : (0 : ℝ) < 2)]
    rw [er]
    by_cases h : |z| ≤ w / 2
    · have h1 : 2 * |z| / w ≤ 1 := by rw [div_le_one hw]; linarith
      rw [if_pos h, max_eq_right (by linarith)]
      field_simp
    · have h1 : 1 ≤ 2 * |z| / w := by rw [le_div_iff₀ hw]; linarith [not_le.mp h]
      rw [if_neg h, max_eq_left (by linarith)]
  unfold triangle
  simp only
  rw [one x xw hx, one y yw hy, ← max_min_distrib_left]

/-- The disk filter is one in the ellipse and zero outside. -/
theorem C110_disk (x y xw yw : ℝ) : (InEllipse x y xw yw → disk x y xw yw = 1) ∧ (¬ InEllipse x y xw yw → disk x y xw yw = 0) := by
  have e : x * x / (xw * 0.5 * (xw * 0.5)) + y * y / (yw * 0.5 * (yw * 0.5)) = rel x xw ^ 2 + rel y yw ^ 2 := by
    have one : ∀ z w : ℝ, z * z / (w * 0.5 * (w * 0.5)) = rel z w ^ 2 := by
      intro z w
      unfold rel
      by_cases h : w = 0
      · simp [h]
      · field_simp
        ring
    rw [one, one]
  unfold disk InEllipse
  simp only
  rw [e]
  exact ⟨fun h => if_pos h, fun h => if_neg h⟩

/-- The filter of Catmull and Rom is twice the cubic of the distance. -/
theorem C110_catmull (x y xw yw : ℝ) : catmullRom x y xw yw = 2 * catmull (Real.sqrt (x ^ 2 + y ^ 2)) := by
  have e : x * x + y * y = x ^ 2 + y ^ 2 := by ring
  have h2 : Real.sqrt (x ^ 2 + y ^ 2) ^ 2 = x ^ 2 + y ^ 2 := Real.sq_sqrt (by positivity)
  unfold catmullRom catmull
  simp only
  rw [e]
  generalize Real.sqrt (x ^ 2 + y ^ 2) = r at *
  rw [← h2]
  by_cases h : r < 1
  · rw [if_neg (by linarith), if_pos h, if_pos h]; ring
  · by_cases h' : r < 2
    · rw [if_neg (by linarith), if_neg h, if_neg h, if_pos h']; ring
    · rw [if_pos (by linarith), if_neg h, if_neg h']; ring

/-- The filter of Mitchell is the product of the cubics, with the middle part of the cubic over the window; partial: the window has only
the middle part. -/
theorem C110_mitchell_partial (x y xw yw : ℝ) (hx : |rel x xw| ≤ 2) (hy : |rel y yw| ≤ 2) :
    mitchell x y xw yw = cubic (rel x xw) * cubic (rel y yw) := by
  unfold mitchell
  simp only
  rw [mitchell1_cubic x xw hx, mitchell1_cubic y yw hy]

/-- At the edge of the window the filter of Mitchell is not zero, but a sixteenth of the middle; it has no negative part within. -/
theorem C110_mitchell_violated (xw yw : ℝ) (hx : 0 < xw) (hy : 0 < yw) :
    mitchell (xw / 2) 0 xw yw = mitchell 0 0 xw yw / 16 ∧ ∀ x y, Within x y xw yw → 0 < mitchell x y xw yw := by
  have e : xw / 2 * (1 / xw) = 1 / 2 := by field_simp
  have pos : ∀ z w : ℝ, 0 < w → -w / 2 ≤ z → z ≤ w / 2 → |rel z w| ≤ 2 ∧ 0 < cubic (rel z w) := by
    intro z w hw h1 h2
    have hd : |rel z w| ≤ 1 := by
      unfold rel
      rw [abs_le, le_div_iff₀ hw, div_le_iff₀ hw]
      constructor <;> linarith
    refine ⟨by linarith, ?_⟩
    have h0 := abs_nonneg (rel z w)
    unfold cubic
    generalize |rel z w| = d at *
    by_cases h : d < 1
    · rw [if_pos h]
      have h3 : 7 * d ^ 2 - 5 * d - 5 ≤ 0 := by nlinarith
      nlinarith [mul_nonneg (sub_nonneg.mpr hd) (neg_nonneg.mpr h3)]
    · have : d = 1 := le_antisymm hd (not_lt.mp h)
      subst this
      norm_num
  constructor
  · unfold mitchell
    simp only
    rw [e]
    norm_num [mitchell1]
  · rintro x y ⟨h1, h2, h3, h4⟩
    obtain ⟨a1, a2⟩ := pos x xw hx h1 h2
    obtain ⟨b1, b2⟩ := pos y yw hy h3 h4
    rw [C110_mitchell_partial x y xw yw a1 b1]
    exact mul_pos a2 b2

/-- The sinc filter is one in the middle, never more, and zero at the middles of all other pixels. -/
theorem C110_sinc (xw yw : ℝ) :
    sinc 0 0 xw yw = 1 ∧ (∀ x y, |sinc x y xw yw| ≤ 1) ∧ ∀ m n : ℤ, (m ≠ 0 ∨ n ≠ 0) → sinc m n xw yw = 0 := by
  have bound : ∀ x w, |sinc1 x w| ≤ 1 := by
    intro x w
    unfold sinc1
    by_cases h : x = 0
    · simp [h]
    · rw [if_pos h]
      simp only
      have hx : x * Real.pi ≠ 0 := mul_ne_zero h Real.pi_pos.ne'
      rw [abs_div, abs_mul, div_le_one (abs_pos.mpr hx)]
      have h1 := Real.abs_cos_le_one (0.5 * (x * Real.pi) / w)
      have h2 : |Real.sin (x * Real.pi)| ≤ |x * Real.pi| := Real.abs_sin_le_abs
      have h3 := abs_nonneg (Real.sin (x * Real.pi))
      nlinarith
  have zero : ∀ (m : ℤ) (w : ℝ), m ≠ 0 → sinc1 m w = 0 := by
    intro m w hm
    unfold sinc1
    rw [if_pos (by exact_mod_cast hm)]
    simp only
    rw [Real.sin_int_mul_pi]
    simp
  refine ⟨by simp [sinc, sinc1], ?_, ?_⟩
  · intro x y
    unfold sinc
    rw [abs_mul]
    have h1 := bound x xw
    have h2 := bound y yw
    have h3 := abs_nonneg (sinc1 x xw)
    have h4 := abs_nonneg (sinc1 y yw)
    nlinarith
  · rintro m n (h | h)
    · unfold sinc; rw [zero m xw h, zero_mul]
    · unfold sinc; rw [zero n yw h, mul_zero]

/-- The cosine window of the sinc filter is not zero at the edge of the window, but only at twice the distance. -/
theorem C110_sinc_violated (yw : ℝ) : sinc (1 / 2) 0 1 yw ≠ 0 ∧ sinc 1.5 0 3 yw ≠ 0 ∧ (∀ xw, 0 < xw → sinc xw 0 xw yw = 0) := by
  have h4 : Real.cos (Real.pi / 4) ≠ 0 := by
    rw [Real.cos_pi_div_four]
    positivity
  refine ⟨?_, ?_, ?_⟩
  · unfold sinc sinc1
    rw [if_pos (by norm_num), if_neg (by simp)]
    simp only
    rw [show 0.5 * (1 / 2 * Real.pi) / 1 = Real.pi / 4 by ring, show 1 / 2 * Real.pi = Real.pi / 2 by ring, Real.sin_pi_div_two]
    have := Real.pi_pos
    positivity
  · unfold sinc sinc1
    rw [if_pos (by norm_num), if_neg (by simp)]
    simp only
    have hs : Real.sin (1.5 * Real.pi) = -1 := by
      rw [show 1.5 * Real.pi = Real.pi / 2 + Real.pi by ring, Real.sin_add_pi, Real.sin_pi_div_two]
    rw [show 0.5 * (1.5 * Real.pi) / 3 = Real.pi / 4 by ring, hs]
    have hp : (1.5 * Real.pi : ℝ) ≠ 0 := mul_ne_zero (by norm_num) Real.pi_pos.ne'
    simp only [mul_one]
    exact div_ne_zero (mul_ne_zero h4 (by norm_num)) hp
  · intro xw hw
    unfold sinc sinc1
    rw [if_pos hw.ne']
    simp only
    rw [show 0.5 * (xw * Real.pi) / xw = Real.pi / 2 by field_simp; norm_num, Real.cos_pi_div_two]
    simp

/-- The Bessel filter is zero outside the ellipse, has its greatest weight in the middle set to pi, and in between is windowed by a cosine
that is one in the middle and zero at the edge. -/
theorem C110_bessel (j1 : ℝ → ℝ) (xw yw : ℝ) :
    bessel j1 0 0 xw yw = Real.pi ∧ (∀ x y, ¬ InEllipse x y xw yw → bessel j1 x y xw yw = 0) ∧
    ∀ x y, InEllipse x y xw yw → (x ≠ 0 ∨ y ≠ 0) → bessel j1 x y xw yw =
      Real.cos (Real.pi / 2 * Real.sqrt (rel x xw ^ 2 + rel y yw ^ 2)) * (2 * j1 (Real.pi * Real.sqrt (x ^ 2 + y ^ 2)) / Real.sqrt (x ^ 2 + y ^ 2)) := by
  have e : ∀ x y, x * x / (xw * 0.5 * (xw * 0.5)) + y * y / (yw * 0.5 * (yw * 0.5)) = rel x xw ^ 2 + rel y yw ^ 2 := by
    have one : ∀ z w : ℝ, z * z / (w * 0.5 * (w * 0.5)) = rel z w ^ 2 := by
      intro z w
      unfold rel
      by_cases h : w = 0
      · simp [h]
      · field_simp
        ring
    intro x y
    rw [one, one]
  refine ⟨by simp [bessel], ?_, ?_⟩
  · intro x y h
    unfold bessel InEllipse at *
    simp only
    rw [e, if_neg h]
  · intro x y h hxy
    have hpos : 0 < x ^ 2 + y ^ 2 := by
      rcases hxy with h | h <;> positivity
    have hd : Real.sqrt (x ^ 2 + y ^ 2) ≠ 0 := (Real.sqrt_pos.mpr hpos).ne'
    unfold bessel InEllipse at *
    simp only
    rw [e, if_pos h, show x * x + y * y = x ^ 2 + y ^ 2 by ring, if_pos hd, show (0.5 * Real.pi : ℝ) = Real.pi / 2 by ring]
    ring

/-- Non-vacuity. -/
example : triangle 0.5 0 2 2 = 1 / 2 := by
  rw [C110_triangle _ _ _ _ (by norm_num) (by norm_num)]
  norm_num [rel]

end Verif.Core.PixelFilters
