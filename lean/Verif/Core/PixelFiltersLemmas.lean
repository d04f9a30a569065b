import Verif.Core.PixelFilters
import Mathlib.Tactic.Linarith
import Mathlib.Tactic.FieldSimp

/-!
Lemmas about The filters of pixels
-/

namespace Verif.Core.PixelFilters

namespace Spec

/-- A filter is the same on both sides of each axis. -/
def Both (f : ℝ → ℝ → ℝ → ℝ → ℝ) : Prop := ∀ x y xw yw, f (-x) y xw yw = f x y xw yw ∧ f x (-y) xw yw = f x y xw yw

/-- A filter treats both axes alike. -/
def Alike (f : ℝ → ℝ → ℝ → ℝ → ℝ) : Prop := ∀ x y xw yw, f y x yw xw = f x y xw yw

/-- The place in the window: from −1 to 1. -/
noncomputable def rel (x w : ℝ) : ℝ := 2 * x / w

/-- The cubic of Mitchell and Netravali, with B = C = 1/3. -/
noncomputable def cubic (d : ℝ) : ℝ :=
  if |d| < 1 then (7 * |d| ^ 3 - 12 * |d| ^ 2 + 16 / 3) / 6
  else if |d| < 2 then (-7 / 3 * |d| ^ 3 + 12 * |d| ^ 2 - 20 * |d| + 32 / 3) / 6
  else 0

/-- The cubic of Catmull and Rom, as in the comment. -/
noncomputable def catmull (d : ℝ) : ℝ :=
  if d < 1 then 3 / 2 * d ^ 3 - 5 / 2 * d ^ 2 + 1
  else if d < 2 then -1 / 2 * d ^ 3 + 5 / 2 * d ^ 2 - 4 * d + 2
  else 0

/-- In the window. -/
def Within (x y xw yw : ℝ) : Prop := -xw / 2 ≤ x ∧ x ≤ xw / 2 ∧ -yw / 2 ≤ y ∧ y ≤ yw / 2

/-- In the ellipse in the window. -/
def InEllipse (x y xw yw : ℝ) : Prop := rel x xw ^ 2 + rel y yw ^ 2 < 1

end Spec

open Spec

theorem sinc1_even (x w : ℝ) : sinc1 (-x) w = sinc1 x w := by
  unfold sinc1
  by_cases h : x = 0
  · simp [h]
  · have h' : -x ≠ 0 := neg_ne_zero.mpr h
    rw [if_pos h, if_pos h']
    simp only
    rw [show -x * Real.pi = -(x * Real.pi) by ring, show 0.5 * -(x * Real.pi) / w = -(0.5 * (x * Real.pi) / w) by ring, Real.cos_neg,
      Real.sin_neg]
    rw [mul_neg, neg_div_neg_eq]

theorem mitchell1_even (B C x : ℝ) : mitchell1 B C (-x) = mitchell1 B C x := by
  unfold mitchell1
  rw [show 2 * -x = -(2 * x) by ring, abs_neg]

theorem abs_in (x w : ℝ) : |x| ≤ w / 2 ↔ -w / 2 ≤ x ∧ x ≤ w / 2 := by
  rw [abs_le, neg_div]

theorem mitchell1_cubic (x w : ℝ) (h : |rel x w| ≤ 2) : mitchell1 (1 / 3) (1 / 3) (x * (1 / w)) = cubic (rel x w) := by
  have e : 2 * (x * (1 / w)) = rel x w := by unfold rel; ring
  unfold mitchell1 cubic
  simp only
  rw [e]
  generalize |rel x w| = d at *
  by_cases h1 : d < 1
  · rw [if_neg (by linarith), if_pos h1]; ring
  · rw [if_neg h1]
    by_cases h2 : d < 2
    · rw [if_pos h2]
      by_cases h3 : d = 1
      · subst h3; norm_num
      · rw [if_pos (lt_of_le_of_ne (not_lt.mp h1) (Ne.symm h3))]; ring
    · have : d = 2 := le_antisymm h (not_lt.mp h2)
      subst this
      norm_num

end Verif.Core.PixelFilters
