import Verif.Math.Color
import Mathlib.Tactic.Linarith
import Mathlib.Tactic.FieldSimp
import Mathlib.Tactic.Ring
import Mathlib.Tactic.LinearCombination
import Mathlib.Tactic.IntervalCases

/-!
# The colour wheel, for C91
-/

namespace Verif.Math.Color

variable {K : Type} [Field K] [LinearOrder K] [FloorRing K] [IsStrictOrderedRing K]

set_option linter.unusedSectionVars false

namespace Spec

/-- A trapezoid: 0 at 0, 1 from 1 to 3, 0 from 4 to 6. -/
def trap (k : K) : K := max 0 (min (min k (4 - k)) 1)

/-- How much of the saturation is taken from a component at a hue: hues are turns of the wheel, and
red, green and blue begin at 5, 3 and 1 sixths of it. -/
def wheel (n h : K) : K := trap (6 * Int.fract (h + n / 6))

/-- The colour of the wheel with the brightest component `top`, all of them at most `d` darker. -/
def onWheel (top d h : K) : Col K := ⟨top - d * wheel 5 h, top - d * wheel 3 h, top - d * wheel 1 h⟩

end Spec

open Spec

theorem lfloor_eq (x : K) : lfloor x = ⌊x⌋ := by
  unfold lfloor
  simp only
  by_cases h : 0 ≤ x
  · rw [if_pos h, if_neg (fun h' => absurd h'.1 (not_lt.mpr h)), sub_zero]
  · rw [if_neg h]
    by_cases he : x = (⌈x⌉ : K)
    · rw [if_neg (fun h' => h'.2 he), sub_zero, eq_comm, Int.floor_eq_iff]
      constructor
      · exact he.ge
      · linarith
    · rw [if_pos ⟨not_le.mp h, he⟩, eq_comm, Int.floor_eq_iff]
      have h1 := Int.ceil_lt_add_one x
      have h2 := lt_of_le_of_ne (Int.le_ceil x) he
      push_cast
      constructor <;> linarith

theorem trap_zero_low : trap (0 : K) = 0 := by unfold trap; norm_num

theorem trap_up {k : K} (h0 : 0 ≤ k) (h1 : k ≤ 1) : trap k = k := by
  unfold trap
  rw [min_eq_left (show k ≤ 4 - k by linarith), min_eq_left h1, max_eq_right h0]

theorem trap_top {k : K} (h0 : 1 ≤ k) (h1 : k ≤ 3) : trap k = 1 := by
  unfold trap
  rw [min_eq_right (le_min h0 (by linarith)), max_eq_right zero_le_one]

theorem trap_down {k : K} (h0 : 3 ≤ k) (h1 : k ≤ 4) : trap k = 4 - k := by
  unfold trap
  rw [min_eq_right (show 4 - k ≤ k by linarith), min_eq_left (show 4 - k ≤ 1 by linarith),
    max_eq_right (by linarith)]

theorem trap_far {k : K} (h0 : 4 ≤ k) : trap k = 0 := by
  unfold trap
  rw [max_eq_left]
  exact (min_le_left _ _).trans ((min_le_right _ _).trans (by linarith))

theorem wheel_trap (n h : K) (j : ℤ) (h0 : 0 ≤ 6 * h + n - 6 * j) (h1 : 6 * h + n - 6 * j ≤ 6) :
    wheel n h = trap (6 * h + n - 6 * j) := by
  unfold wheel
  rcases lt_or_eq_of_le h1 with h1 | h1
  · have hf : ⌊h + n / 6⌋ = j := by
      rw [Int.floor_eq_iff]
      constructor <;> linarith
    congr 1
    unfold Int.fract
    rw [hf]
    ring
  · have hf : ⌊h + n / 6⌋ = j + 1 := by
      rw [Int.floor_eq_iff]
      push_cast
      constructor <;> linarith
    have e : 6 * Int.fract (h + n / 6) = 0 := by
      unfold Int.fract
      rw [hf]
      push_cast
      linarith
    rw [e, h1, trap_zero_low, trap_far (by norm_num)]

/-- The wheel at `x` sixths. -/
theorem onWheel_0 (top d x : K) (h0 : 0 ≤ x) (h1 : x ≤ 1) :
    onWheel top d (x / 6) = ⟨top, top - d * (1 - x), top - d⟩ := by
  unfold onWheel
  rw [wheel_trap 5 (x / 6) 0 (by push_cast; linarith) (by push_cast; linarith),
    wheel_trap 3 (x / 6) 0 (by push_cast; linarith) (by push_cast; linarith),
    wheel_trap 1 (x / 6) 0 (by push_cast; linarith) (by push_cast; linarith)]
  rw [trap_far (by push_cast; linarith), trap_down (by push_cast; linarith) (by push_cast; linarith),
    trap_top (by push_cast; linarith) (by push_cast; linarith)]
  congr 1
  · ring
  · push_cast; ring
  · ring

theorem onWheel_1 (top d x : K) (h0 : 0 ≤ x) (h1 : x ≤ 1) :
    onWheel top d ((1 + x) / 6) = ⟨top - d * x, top, top - d⟩ := by
  unfold onWheel
  rw [wheel_trap 5 _ 1 (by push_cast; linarith) (by push_cast; linarith),
    wheel_trap 3 _ 0 (by push_cast; linarith) (by push_cast; linarith),
    wheel_trap 1 _ 0 (by push_cast; linarith) (by push_cast; linarith)]
  rw [trap_up (by push_cast; linarith) (by push_cast; linarith), trap_far (by push_cast; linarith),
    trap_top (by push_cast; linarith) (by push_cast; linarith)]
  congr 1
  · push_cast; ring
  · ring
  · ring

theorem onWheel_2 (top d x : K) (h0 : 0 ≤ x) (h1 : x ≤ 1) :
    onWheel top d ((2 + x) / 6) = ⟨top - d, top, top - d * (1 - x)⟩ := by
  unfold onWheel
  rw [wheel_trap 5 _ 1 (by push_cast; linarith) (by push_cast; linarith),
    wheel_trap 3 _ 0 (by push_cast; linarith) (by push_cast; linarith),
    wheel_trap 1 _ 0 (by push_cast; linarith) (by push_cast; linarith)]
  rw [trap_top (by push_cast; linarith) (by push_cast; linarith), trap_far (by push_cast; linarith),
    trap_down (by push_cast; linarith) (by push_cast; linarith)]
  congr 1
  · ring
  · ring
  · push_cast; ring

theorem onWheel_3 (top d x : K) (h0 : 0 ≤ x) (h1 : x ≤ 1) :
    onWheel top d ((3 + x) / 6) = ⟨top - d, top - d * x, top⟩ := by
  unfold onWheel
  rw [wheel_trap 5 _ 1 (by push_cast; linarith) (by push_cast; linarith),
    wheel_trap 3 _ 1 (by push_cast; linarith) (by push_cast; linarith),
    wheel_trap 1 _ 0 (by push_cast; linarith) (by push_cast; linarith)]
  rw [trap_top (by push_cast; linarith) (by push_cast; linarith),
    trap_up (by push_cast; linarith) (by push_cast; linarith), trap_far (by push_cast; linarith)]
  congr 1
  · ring
  · push_cast; ring
  · ring

theorem onWheel_4 (top d x : K) (h0 : 0 ≤ x) (h1 : x ≤ 1) :
    onWheel top d ((4 + x) / 6) = ⟨top - d * (1 - x), top - d, top⟩ := by
  unfold onWheel
  rw [wheel_trap 5 _ 1 (by push_cast; linarith) (by push_cast; linarith),
    wheel_trap 3 _ 1 (by push_cast; linarith) (by push_cast; linarith),
    wheel_trap 1 _ 0 (by push_cast; linarith) (by push_cast; linarith)]
  rw [trap_down (by push_cast; linarith) (by push_cast; linarith),
    trap_top (by push_cast; linarith) (by push_cast; linarith), trap_far (by push_cast; linarith)]
  congr 1
  · push_cast; ring
  · ring
  · ring

theorem onWheel_5 (top d x : K) (h0 : 0 ≤ x) (h1 : x ≤ 1) :
    onWheel top d ((5 + x) / 6) = ⟨top, top - d, top - d * x⟩ := by
  unfold onWheel
  rw [wheel_trap 5 _ 1 (by push_cast; linarith) (by push_cast; linarith),
    wheel_trap 3 _ 1 (by push_cast; linarith) (by push_cast; linarith),
    wheel_trap 1 _ 1 (by push_cast; linarith) (by push_cast; linarith)]
  rw [trap_far (by push_cast; linarith), trap_top (by push_cast; linarith) (by push_cast; linarith),
    trap_up (by push_cast; linarith) (by push_cast; linarith)]
  congr 1
  · ring
  · ring
  · push_cast; ring

theorem wheel_one (n : K) : wheel n 1 = wheel n 0 := by
  unfold wheel
  rw [show (1 : K) + n / 6 = (0 + n / 6) + 1 by ring, Int.fract_add_one]

/-- Hues within a turn, by sixths. -/
theorem sixths (h : K) (h0 : 0 ≤ h) (h1 : h < 1) : ∃ (i : ℤ) (x : K), (i = 0 ∨ i = 1 ∨ i = 2 ∨ i = 3 ∨ i = 4 ∨ i = 5) ∧
    0 ≤ x ∧ x < 1 ∧ h = (i + x) / 6 := by
  have a := Int.floor_le (6 * h)
  have b := Int.lt_floor_add_one (6 * h)
  have c : 0 ≤ ⌊6 * h⌋ := Int.floor_nonneg.mpr (by linarith)
  have d : ⌊6 * h⌋ < 6 := Int.floor_lt.mpr (by push_cast; linarith)
  exact ⟨⌊6 * h⌋, 6 * h - ⌊6 * h⌋, by omega, by linarith, by linarith, by ring⟩

/-- Conversion to rgb by sixths. -/
theorem hsv_sector (i : ℤ) (x s v : K) (hi : 0 ≤ i) (hi' : i ≤ 5) (h0 : 0 ≤ x) (h1 : x < 1)
    (hs : s ≠ 0) : hsvToRgb ⟨(i + x) / 6, s, v⟩ =
      .ok (sector i v (v * (1 - s)) (v * (1 - s * x)) (v * (1 - s * (1 - x)))) := by
  unfold hsvToRgb
  simp only
  have hc : (0 : K) ≤ i := by exact_mod_cast hi
  have hc' : (i : K) ≤ 5 := by exact_mod_cast hi'
  rw [if_neg hs, if_neg (show ¬ ((i + x) / 6 * 360 : K) = 360 by intro h; linarith)]
  have e : ((i + x) / 6 * 360 / 60 : K) = i + x := by ring
  have hf : lfloor ((i : K) + x) = i := by
    rw [lfloor_eq, Int.floor_eq_iff]
    constructor <;> linarith
  rw [e, hf, add_sub_cancel_left]

theorem hsv_one (s v : K) (hs : s ≠ 0) : hsvToRgb ⟨1, s, v⟩ = hsvToRgb ⟨0, s, v⟩ := by
  unfold hsvToRgb
  simp only
  rw [if_neg hs, if_neg hs, if_pos (by ring), if_neg (by norm_num), zero_mul]

theorem hsv_wheel (h s v : K) (h0 : 0 ≤ h) (h1 : h ≤ 1) (hs : s ≠ 0) :
    hsvToRgb ⟨h, s, v⟩ = .ok (onWheel v (v * s) h) := by
  have key : ∀ h : K, 0 ≤ h → h < 1 → hsvToRgb ⟨h, s, v⟩ = .ok (onWheel v (v * s) h) := by
    intro h h0 h1
    obtain ⟨i, x, hi, x0, x1, rfl⟩ := sixths h h0 h1
    rw [hsv_sector i x s v (by omega) (by omega) x0 x1 hs]
    rcases hi with rfl | rfl | rfl | rfl | rfl | rfl
    · rw [Int.cast_zero, zero_add, onWheel_0 _ _ _ x0 x1.le]
      simp only [sector, ↓reduceIte, Res.ok.injEq, Col.mk.injEq]
      exact ⟨trivial, by ring, by ring⟩
    · rw [Int.cast_one, onWheel_1 _ _ _ x0 x1.le]
      simp only [sector, ↓reduceIte, Res.ok.injEq, Col.mk.injEq, one_ne_zero]
      exact ⟨by ring, trivial, by ring⟩
    · rw [Int.cast_ofNat, onWheel_2 _ _ _ x0 x1.le]
      have : sector 2 v (v * (1 - s)) (v * (1 - s * x)) (v * (1 - s * (1 - x))) =
        ⟨v * (1 - s), v, v * (1 - s * (1 - x))⟩ := rfl
      rw [this, Res.ok.injEq, Col.mk.injEq]
      exact ⟨by ring, rfl, by ring⟩
    · rw [Int.cast_ofNat, onWheel_3 _ _ _ x0 x1.le]
      have : sector 3 v (v * (1 - s)) (v * (1 - s * x)) (v * (1 - s * (1 - x))) =
        ⟨v * (1 - s), v * (1 - s * x), v⟩ := rfl
      rw [this, Res.ok.injEq, Col.mk.injEq]
      exact ⟨by ring, by ring, rfl⟩
    · rw [Int.cast_ofNat, onWheel_4 _ _ _ x0 x1.le]
      have : sector 4 v (v * (1 - s)) (v * (1 - s * x)) (v * (1 - s * (1 - x))) =
        ⟨v * (1 - s * (1 - x)), v * (1 - s), v⟩ := rfl
      rw [this, Res.ok.injEq, Col.mk.injEq]
      exact ⟨by ring, by ring, rfl⟩
    · rw [Int.cast_ofNat, onWheel_5 _ _ _ x0 x1.le]
      have : sector 5 v (v * (1 - s)) (v * (1 - s * x)) (v * (1 - s * (1 - x))) =
        ⟨v, v * (1 - s), v * (1 - s * x)⟩ := rfl
      rw [this, Res.ok.injEq, Col.mk.injEq]
      exact ⟨rfl, by ring, by ring⟩
  rcases lt_or_eq_of_le h1 with h1 | rfl
  · exact key h h0 h1
  · rw [hsv_one s v hs, key 0 (le_refl _) zero_lt_one]
    unfold onWheel
    simp only [wheel_one]

/-- `HSLValue` within a turn. -/
theorem hsl_turn (m1 m2 n h u : K) (j : ℤ) (he : 6 * h + n = u / 60 + 3 + 6 * j) (h0 : 0 ≤ u)
    (h1 : u ≤ 360) :
    (if u < 60 then m1 + (m2 - m1) * u / 60
      else if u < 180 then m2
      else if u < 240 then m1 + (m2 - m1) * (240 - u) / 60
      else m1) = m2 - (m2 - m1) * wheel n h := by
  by_cases a : u < 60
  · rw [if_pos a, wheel_trap n h j (by linarith) (by linarith),
      trap_down (by linarith) (by linarith), he]
    ring
  rw [if_neg a]
  by_cases b : u < 180
  · rw [if_pos b, wheel_trap n h j (by linarith) (by linarith), trap_far (by linarith)]
    ring
  rw [if_neg b]
  have e : 6 * h + n - 6 * ((j + 1 : ℤ) : K) = u / 60 - 3 := by push_cast; linarith
  by_cases c : u < 240
  · rw [if_pos c, wheel_trap n h (j + 1) (by linarith) (by linarith), e,
      trap_up (by linarith) (by linarith)]
    ring
  rw [if_neg c, wheel_trap n h (j + 1) (by linarith) (by linarith), e,
    trap_top (by linarith) (by linarith)]
  ring

/-- `HSLValue` is the wheel. -/
theorem hsl_wheel (m1 m2 n h hue : K) (he : hue = 60 * (6 * h + n) - 180) (h0 : -120 ≤ hue)
    (h1 : hue ≤ 480) : hslValue m1 m2 hue = m2 - (m2 - m1) * wheel n h := by
  unfold hslValue
  simp only
  by_cases a : hue > 360
  · rw [if_pos a]
    exact hsl_turn m1 m2 n h _ 1 (by push_cast; linarith) (by linarith) (by linarith)
  rw [if_neg a]
  by_cases b : hue < 0
  · rw [if_pos b]
    exact hsl_turn m1 m2 n h _ (-1) (by push_cast; linarith) (by linarith) (by linarith)
  rw [if_neg b]
  exact hsl_turn m1 m2 n h _ 0 (by push_cast; linarith) (by linarith) (by linarith)

/-- The hue of a colour that is not grey puts it on the wheel. -/
theorem hue_wheel (c : Col K) (M m : K) (hM : M = max (max c.r c.g) c.b)
    (hm : m = min (min c.r c.g) c.b) (hd : m < M) :
    onWheel M (M - m) (hue c M (M - m) / 360) = c ∧ 0 ≤ hue c M (M - m) / 360 ∧
      hue c M (M - m) / 360 < 1 := by
  obtain ⟨r, g, b⟩ := c
  simp only at hM hm
  have d0 : 0 < M - m := by linarith
  have rM : r ≤ M := hM ▸ (le_max_left _ _).trans (le_max_left _ _)
  have gM : g ≤ M := hM ▸ (le_max_right _ _).trans (le_max_left _ _)
  have bM : b ≤ M := hM ▸ le_max_right _ _
  have mr : m ≤ r := hm ▸ (min_le_left _ _).trans (min_le_left _ _)
  have mg : m ≤ g := hm ▸ (min_le_left _ _).trans (min_le_right _ _)
  have mb : m ≤ b := hm ▸ min_le_right _ _
  have hMc : M = r ∨ M = g ∨ M = b := by
    rcases max_choice (max r g) b with h | h
    · rcases max_choice r g with h' | h' <;> rw [h, h'] at hM <;> simp [hM]
    · rw [h] at hM; simp [hM]
  have hmc : m = r ∨ m = g ∨ m = b := by
    rcases min_choice (min r g) b with h | h
    · rcases min_choice r g with h' | h' <;> rw [h, h'] at hm <;> simp [hm]
    · rw [h] at hm; simp [hm]
  clear hM hm
  generalize hD : M - m = D at d0
  have dn : D ≠ 0 := d0.ne'
  have q : ∀ a b : K, (M - a) / D - (M - b) / D = (b - a) / D := fun a b => by field_simp; ring
  -- a component between the least and the greatest, as a part of a sixth
  have q0 : ∀ a b : K, a ≤ b → 0 ≤ (b - a) / D := fun a b h => div_nonneg (by linarith) d0.le
  have q1 : ∀ a b : K, b - a ≤ D → (b - a) / D ≤ 1 := fun a b h => (div_le_one d0).mpr h
  have qlt : ∀ a b : K, b - a < D → (b - a) / D < 1 := fun a b h => (div_lt_one d0).mpr h
  have qe : ∀ a b : K, D * ((b - a) / D) = b - a := fun a b => by field_simp
  unfold hue
  simp only
  by_cases hr : r = M
  · rw [if_pos hr, q]
    by_cases hgb : b ≤ g
    · have hmb : m = b := by
        rcases hmc with h | h | h
        · linarith
        · exact le_antisymm mb (by linarith)
        · exact h
      have t0 := q0 b g hgb
      have t1 := q1 b g (by linarith)
      rw [if_neg (by linarith)]
      refine ⟨?_, by linarith, by linarith⟩
      rw [show (g - b) / D * 60 / 360 = ((g - b) / D) / 6 by ring, onWheel_0 _ _ _ t0 t1]
      rw [Col.mk.injEq]
      refine ⟨hr.symm, ?_, by linarith⟩
      have := qe b g
      rw [mul_sub, mul_one, this]
      linarith
    · have hlt : g < b := not_le.mp hgb
      have hmg : m = g := by
        rcases hmc with h | h | h
        · linarith
        · exact h
        · linarith
      have t0 : 0 < (b - g) / D := div_pos (by linarith) d0
      have t1 := q1 g b (by linarith)
      have e : (g - b) / D = -((b - g) / D) := by rw [← neg_div, neg_sub]
      rw [e, if_pos (by linarith)]
      refine ⟨?_, by linarith, by linarith⟩
      rw [show (-((b - g) / D) * 60 + 360) / 360 = (5 + (1 - (b - g) / D)) / 6 by ring,
        onWheel_5 _ _ _ (by linarith) (by linarith), Col.mk.injEq]
      refine ⟨hr.symm, by linarith, ?_⟩
      have := qe g b
      rw [mul_sub, mul_one, this]
      linarith
  rw [if_neg hr]
  have hr' : r < M := lt_of_le_of_ne rM hr
  by_cases hg : g = M
  · rw [if_pos hg]
    have e : (2 + (M - r) / D - (M - b) / D) = 2 + (b - r) / D := by rw [← q]; ring
    rw [e]
    by_cases hgb : r ≤ b
    · have hmr : m = r := by
        rcases hmc with h | h | h
        · exact h
        · linarith
        · exact le_antisymm mr (by linarith)
      have t0 := q0 r b hgb
      have t1 := q1 r b (by linarith)
      rw [if_neg (by linarith)]
      refine ⟨?_, by linarith, by linarith⟩
      rw [show (2 + (b - r) / D) * 60 / 360 = (2 + (b - r) / D) / 6 by ring,
        onWheel_2 _ _ _ t0 t1, Col.mk.injEq]
      refine ⟨by linarith, hg.symm, ?_⟩
      have := qe r b
      rw [mul_sub, mul_one, this]
      linarith
    · have hlt : b < r := not_le.mp hgb
      have hmb : m = b := by
        rcases hmc with h | h | h
        · linarith
        · linarith
        · exact h
      have t0 := q0 b r hlt.le
      have t1 := q1 b r (by linarith)
      have e : (b - r) / D = -((r - b) / D) := by rw [← neg_div, neg_sub]
      rw [e, if_neg (by linarith)]
      refine ⟨?_, by linarith, by linarith⟩
      rw [show (2 + -((r - b) / D)) * 60 / 360 = (1 + (1 - (r - b) / D)) / 6 by ring,
        onWheel_1 _ _ _ (by linarith) (by linarith), Col.mk.injEq]
      refine ⟨?_, hg.symm, by linarith⟩
      have := qe b r
      rw [mul_sub, mul_one, this]
      linarith
  rw [if_neg hg]
  have hg' : g < M := lt_of_le_of_ne gM hg
  have hb : M = b := by
    rcases hMc with h | h | h
    · exact absurd h.symm hr
    · exact absurd h.symm hg
    · exact h
  have e : (4 + (M - g) / D - (M - r) / D) = 4 + (r - g) / D := by rw [← q]; ring
  rw [e]
  by_cases hrg : g ≤ r
  · have hmg : m = g := by
      rcases hmc with h | h | h
      · exact le_antisymm mg (by linarith)
      · exact h
      · linarith
    have t0 := q0 g r hrg
    have t1 := q1 g r (by linarith)
    rw [if_neg (by linarith)]
    refine ⟨?_, by linarith, by linarith⟩
    rw [show (4 + (r - g) / D) * 60 / 360 = (4 + (r - g) / D) / 6 by ring,
      onWheel_4 _ _ _ t0 t1, Col.mk.injEq]
    refine ⟨?_, by linarith, hb⟩
    have := qe g r
    rw [mul_sub, mul_one, this]
    linarith
  · have hlt : r < g := not_le.mp hrg
    have hmr : m = r := by
      rcases hmc with h | h | h
      · exact h
      · linarith
      · linarith
    have t0 := q0 r g hlt.le
    have t1 := q1 r g (by linarith)
    have e : (r - g) / D = -((g - r) / D) := by rw [← neg_div, neg_sub]
    rw [e, if_neg (by linarith)]
    refine ⟨?_, by linarith, by linarith⟩
    rw [show (4 + -((g - r) / D)) * 60 / 360 = (3 + (1 - (g - r) / D)) / 6 by ring,
      onWheel_3 _ _ _ (by linarith) (by linarith), Col.mk.injEq]
    refine ⟨by linarith, ?_, hb⟩
    have := qe r g
    rw [mul_sub, mul_one, this]
    linarith

end Verif.Math.Color
