import Verif.Math.ColorLemmas

/-!
C91: colour spaces.
-/

namespace Verif.Math.Color

open Spec

set_option linter.unusedSectionVars false

section

variable {K : Type} [Field K] [LinearOrder K] [FloorRing K] [IsStrictOrderedRing K]

/-- C91: hue, saturation and value are the colour of the wheel at the hue, with the value as its
brightest component and darker components by the saturation. -/
theorem C91_hsv (h s v : K) (h0 : 0 ≤ h) (h1 : h ≤ 1) (hs : s ≠ 0) :
    hsvToRgb ⟨h, s, v⟩ = .ok (onWheel v (v * s) h) := hsv_wheel h s v h0 h1 hs

/-- C91: hue, saturation and lightness are the colour of the wheel at the hue, whose brightest and
darkest components have the lightness as their mean. -/
theorem C91_hsl (h s l : K) (h0 : 0 ≤ h) (h1 : h ≤ 1) (hs : s ≠ 0) :
    hslToRgb ⟨h, s, l⟩ = .ok (onWheel (l + s * min l (1 - l)) (2 * s * min l (1 - l)) h) := by
  unfold hslToRgb
  simp only
  have hm : (if l ≤ 1 / 2 then l * (1 + s) else l + s - l * s) = l + s * min l (1 - l) := by
    by_cases h : l ≤ 1 / 2
    · rw [if_pos h, min_eq_left (by linarith)]; ring
    · rw [if_neg h, min_eq_right (by linarith)]; ring
  rw [if_neg hs, hm, hsl_wheel _ _ 5 h _ (by ring) (by linarith) (by linarith),
    hsl_wheel _ _ 3 h _ (by ring) (by linarith) (by linarith),
    hsl_wheel _ _ 1 h _ (by ring) (by linarith) (by linarith)]
  unfold onWheel
  rw [Res.ok.injEq, Col.mk.injEq]
  refine ⟨?_, ?_, ?_⟩ <;> ring

/-- C91: from rgb to hsv and back is no change, exactly if the greatest component is not 0 or all are
0. -/
theorem C91_hsv_round (c : Col K) : hsvToRgb (rgbToHsv c) = .ok c ↔
    max (max c.r c.g) c.b ≠ 0 ∨ (c.r = 0 ∧ c.g = 0 ∧ c.b = 0) := by
  unfold rgbToHsv
  simp only
  generalize hM : max (max c.r c.g) c.b = M
  generalize hm : min (min c.r c.g) c.b = m
  have rM : c.r ≤ M := hM ▸ (le_max_left _ _).trans (le_max_left _ _)
  have gM : c.g ≤ M := hM ▸ (le_max_right _ _).trans (le_max_left _ _)
  have bM : c.b ≤ M := hM ▸ le_max_right _ _
  have mr : m ≤ c.r := hm ▸ (min_le_left _ _).trans (min_le_left _ _)
  have mg : m ≤ c.g := hm ▸ (min_le_left _ _).trans (min_le_right _ _)
  have mb : m ≤ c.b := hm ▸ min_le_right _ _
  have undef : ∀ v : K, hsvToRgb ⟨-1 / 360, 0, v⟩ = .ok ⟨v, v, v⟩ := by
    intro v
    unfold hsvToRgb
    simp only
    rw [if_pos trivial, if_pos (by norm_num)]
  by_cases h0 : M = 0
  · rw [if_neg (not_not.mpr h0), if_pos rfl, undef, h0]
    obtain ⟨r, g, b⟩ := c
    simp only [Res.ok.injEq, Col.mk.injEq, ne_eq, not_true_eq_false, false_or]
    constructor
    · rintro ⟨a, b, c⟩; exact ⟨a.symm, b.symm, c.symm⟩
    · rintro ⟨a, b, c⟩; exact ⟨a.symm, b.symm, c.symm⟩
  · simp only [h0, ne_eq, not_false_eq_true, true_or, iff_true, if_true]
    by_cases hd : M - m = 0
    · rw [hd, zero_div, if_pos rfl, undef]
      obtain ⟨r, g, b⟩ := c
      rw [Res.ok.injEq, Col.mk.injEq]
      simp only at *
      refine ⟨?_, ?_, ?_⟩ <;> linarith
    · have hs : (M - m) / M ≠ 0 := div_ne_zero hd h0
      have hlt : m < M := lt_of_le_of_ne (mr.trans rM) (fun e => hd (by rw [e, sub_self]))
      obtain ⟨w, a, b⟩ := hue_wheel c M m hM.symm hm.symm hlt
      rw [if_neg hs, hsv_wheel _ _ _ a b.le hs, mul_div_cancel₀ _ h0, w]

/-- The greatest and least components, when they are known. -/
theorem span (c : Col K) (a b : K) (h : c.r ≤ a ∧ c.g ≤ a ∧ c.b ≤ a) (h' : b ≤ c.r ∧ b ≤ c.g ∧ b ≤ c.b)
    (ha : c.r = a ∨ c.g = a ∨ c.b = a) (hb : c.r = b ∨ c.g = b ∨ c.b = b) :
    max (max c.r c.g) c.b = a ∧ min (min c.r c.g) c.b = b := by
  constructor
  · apply le_antisymm (max_le (max_le h.1 h.2.1) h.2.2)
    rcases ha with e | e | e
    · rw [← e]; exact (le_max_left _ _).trans (le_max_left _ _)
    · rw [← e]; exact (le_max_right _ _).trans (le_max_left _ _)
    · rw [← e]; exact le_max_right _ _
  · apply le_antisymm _ (le_min (le_min h'.1 h'.2.1) h'.2.2)
    rcases hb with e | e | e
    · rw [← e]; exact (min_le_left _ _).trans (min_le_left _ _)
    · rw [← e]; exact (min_le_left _ _).trans (min_le_right _ _)
    · rw [← e]; exact min_le_right _ _

theorem wheel_hue (v d h : K) (hd : 0 < d) (h0 : 0 ≤ h) (h1 : h < 1) :
    max (max (onWheel v d h).r (onWheel v d h).g) (onWheel v d h).b = v ∧
    min (min (onWheel v d h).r (onWheel v d h).g) (onWheel v d h).b = v - d ∧
    hue (onWheel v d h) v d = 360 * h := by
  have dn : d ≠ 0 := hd.ne'
  obtain ⟨i, x, hi, x0, x1, rfl⟩ := sixths h h0 h1
  have p0 : 0 ≤ d * x := mul_nonneg hd.le x0
  have p1 : d * x < d := by nlinarith
  have a1 : ∀ y : K, (v - (v - d * y)) / d = y := fun y => by field_simp; ring
  have a2 : (v - v) / d = 0 := by rw [sub_self, zero_div]
  have a3 : (v - (v - d)) / d = 1 := by field_simp; ring
  rcases hi with rfl | rfl | rfl | rfl | rfl | rfl
  · rw [Int.cast_zero, zero_add, onWheel_0 _ _ _ x0 x1.le]
    obtain ⟨e1, e2⟩ := span ⟨v, v - d * (1 - x), v - d⟩ v (v - d)
      ⟨le_refl _, by show v - d * (1 - x) ≤ v; nlinarith, by show v - d ≤ v; linarith⟩
      ⟨by show v - d ≤ v; linarith, by show v - d ≤ v - d * (1 - x); nlinarith, le_refl _⟩
      (Or.inl rfl) (Or.inr (Or.inr rfl))
    refine ⟨e1, e2, ?_⟩
    unfold hue
    simp only [a1, a2, a3, if_true]
    rw [if_neg (by linarith)]
    ring
  · rw [Int.cast_one, onWheel_1 _ _ _ x0 x1.le]
    obtain ⟨e1, e2⟩ := span ⟨v - d * x, v, v - d⟩ v (v - d)
      ⟨by show v - d * x ≤ v; linarith, le_refl _, by show v - d ≤ v; linarith⟩
      ⟨by show v - d ≤ v - d * x; linarith, by show v - d ≤ v; linarith, le_refl _⟩
      (Or.inr (Or.inl rfl)) (Or.inr (Or.inr rfl))
    refine ⟨e1, e2, ?_⟩
    unfold hue
    simp only [a1, a2, a3, if_true]
    by_cases hx : v - d * x = v
    · have hx0 : x = 0 := by
        have : d * x = 0 := by linarith
        exact (mul_eq_zero.mp this).resolve_left dn
      rw [if_pos hx, if_neg (by norm_num), hx0]
      norm_num
    · rw [if_neg hx, if_neg (by linarith)]
      ring
  · rw [Int.cast_ofNat, onWheel_2 _ _ _ x0 x1.le]
    obtain ⟨e1, e2⟩ := span ⟨v - d, v, v - d * (1 - x)⟩ v (v - d)
      ⟨by show v - d ≤ v; linarith, le_refl _, by show v - d * (1 - x) ≤ v; nlinarith⟩
      ⟨le_refl _, by show v - d ≤ v; linarith, by show v - d ≤ v - d * (1 - x); nlinarith⟩
      (Or.inr (Or.inl rfl)) (Or.inl rfl)
    refine ⟨e1, e2, ?_⟩
    unfold hue
    simp only [a1, a2, a3, if_true]
    rw [if_neg (show ¬ v - d = v by intro h; linarith), if_neg (by linarith)]
    ring
  · rw [Int.cast_ofNat, onWheel_3 _ _ _ x0 x1.le]
    obtain ⟨e1, e2⟩ := span ⟨v - d, v - d * x, v⟩ v (v - d)
      ⟨by show v - d ≤ v; linarith, by show v - d * x ≤ v; linarith, le_refl _⟩
      ⟨le_refl _, by show v - d ≤ v - d * x; linarith, by show v - d ≤ v; linarith⟩
      (Or.inr (Or.inr rfl)) (Or.inl rfl)
    refine ⟨e1, e2, ?_⟩
    unfold hue
    simp only [a1, a2, a3]
    rw [if_neg (show ¬ v - d = v by intro h; linarith)]
    by_cases hx : v - d * x = v
    · have hx0 : x = 0 := by
        have : d * x = 0 := by linarith
        exact (mul_eq_zero.mp this).resolve_left dn
      rw [if_pos hx, if_neg (by norm_num), hx0]
      norm_num
    · rw [if_neg hx, if_neg (by linarith)]
      ring
  · rw [Int.cast_ofNat, onWheel_4 _ _ _ x0 x1.le]
    obtain ⟨e1, e2⟩ := span ⟨v - d * (1 - x), v - d, v⟩ v (v - d)
      ⟨by show v - d * (1 - x) ≤ v; nlinarith, by show v - d ≤ v; linarith, le_refl _⟩
      ⟨by show v - d ≤ v - d * (1 - x); nlinarith, le_refl _, by show v - d ≤ v; linarith⟩
      (Or.inr (Or.inr rfl)) (Or.inr (Or.inl rfl))
    refine ⟨e1, e2, ?_⟩
    unfold hue
    simp only [a1, a2, a3]
    rw [if_neg (show ¬ v - d * (1 - x) = v by intro h; nlinarith),
      if_neg (show ¬ v - d = v by intro h; linarith), if_neg (by linarith)]
    ring
  · rw [Int.cast_ofNat, onWheel_5 _ _ _ x0 x1.le]
    obtain ⟨e1, e2⟩ := span ⟨v, v - d, v - d * x⟩ v (v - d)
      ⟨le_refl _, by show v - d ≤ v; linarith, by show v - d * x ≤ v; linarith⟩
      ⟨by show v - d ≤ v; linarith, le_refl _, by show v - d ≤ v - d * x; linarith⟩
      (Or.inl rfl) (Or.inr (Or.inl rfl))
    refine ⟨e1, e2, ?_⟩
    unfold hue
    simp only [a1, a2, a3, if_true]
    rw [if_pos (by linarith)]
    ring

/-- C91: from hsv to rgb and back is no change for colours that are not grey. -/
theorem C91_hsv_back (h s v : K) (h0 : 0 ≤ h) (h1 : h < 1) (hs : 0 < s) (hv : 0 < v) :
    ∃ c, hsvToRgb ⟨h, s, v⟩ = .ok c ∧ rgbToHsv c = ⟨h, s, v⟩ := by
  refine ⟨_, hsv_wheel h s v h0 h1.le hs.ne', ?_⟩
  have hd : 0 < v * s := mul_pos hv hs
  obtain ⟨e1, e2, e3⟩ := wheel_hue v (v * s) h hd h0 h1
  unfold rgbToHsv
  simp only
  rw [e1, e2, sub_sub_cancel, if_pos hv.ne', mul_div_cancel_left₀ _ hv.ne', if_neg hs.ne', e3,
    mul_div_cancel_left₀ _ (by norm_num)]

/-- C91: from rgb to hsl and back is no change for colours of the unit cube that are not nearly grey. -/
theorem C91_hsl_round_partial (c : Col K) (h : 0 ≤ c.r ∧ 0 ≤ c.g ∧ 0 ≤ c.b)
    (h' : c.r ≤ 1 ∧ c.g ≤ 1 ∧ c.b ≤ 1)
    (hg : 1 / 10000000 < max (max c.r c.g) c.b - min (min c.r c.g) c.b) :
    hslToRgb (rgbToHsl c) = .ok c := by
  unfold rgbToHsl
  simp only
  have hM1 : max (max c.r c.g) c.b ≤ 1 := max_le (max_le h'.1 h'.2.1) h'.2.2
  have hm0 : 0 ≤ min (min c.r c.g) c.b := le_min (le_min h.1 h.2.1) h.2.2
  generalize hM : max (max c.r c.g) c.b = M at *
  generalize hm : min (min c.r c.g) c.b = m at *
  have hd : 0 < M - m := lt_trans (by norm_num) hg
  rw [if_neg (by rw [abs_of_pos hd]; exact not_le.mpr hg)]
  obtain ⟨w, a, b⟩ := hue_wheel c M m hM.symm hm.symm (by linarith)
  generalize hue c M (M - m) / 360 = x at *
  by_cases hl : (M + m) / 2 < 1 / 2
  · rw [if_pos hl]
    have hp : 0 < M + m := by linarith
    rw [C91_hsl _ _ _ a b.le (div_pos hd hp).ne', min_eq_left (by linarith)]
    have e : (M - m) / (M + m) * ((M + m) / 2) = (M - m) / 2 := by field_simp
    rw [mul_assoc 2, e, ← w]
    congr 2 <;> ring
  · rw [if_neg hl]
    have hp : 0 < 2 - M - m := by linarith
    rw [C91_hsl _ _ _ a b.le (div_pos hd hp).ne', min_eq_right (by linarith)]
    have e : (M - m) / (2 - M - m) * (1 - (M + m) / 2) = (M - m) / 2 := by field_simp; ring
    rw [mul_assoc 2, e, ← w]
    congr 2 <;> ring

/-- C91: from hsl to rgb and back is no change for colours that are not nearly grey. -/
theorem C91_hsl_back_partial (h s l : K) (h0 : 0 ≤ h) (h1 : h < 1) (hs : 0 < s)
    (hl : 1 / 10000000 < 2 * s * min l (1 - l)) :
    ∃ c, hslToRgb ⟨h, s, l⟩ = .ok c ∧ rgbToHsl c = ⟨h, s, l⟩ := by
  refine ⟨_, C91_hsl h s l h0 h1.le hs.ne', ?_⟩
  have hd : 0 < 2 * s * min l (1 - l) := lt_trans (by norm_num) hl
  obtain ⟨e1, e2, e3⟩ := wheel_hue (l + s * min l (1 - l)) (2 * s * min l (1 - l)) h hd h0 h1
  unfold rgbToHsl
  simp only
  rw [e1, e2, sub_sub_cancel, if_neg (by rw [abs_of_pos hd]; exact not_le.mpr hl), e3,
    mul_div_cancel_left₀ _ (by norm_num)]
  have hp : 0 < min l (1 - l) := by
    rcases lt_or_ge 0 (min l (1 - l)) with h | h
    · exact h
    · nlinarith
  have hl0 : 0 < l := lt_of_lt_of_le hp (min_le_left _ _)
  have hl1 : 0 < 1 - l := lt_of_lt_of_le hp (min_le_right _ _)
  have e : (l + s * min l (1 - l) + (l + s * min l (1 - l) - 2 * s * min l (1 - l))) = 2 * l := by ring
  rw [e, sub_sub, e, mul_div_cancel_left₀ _ (by norm_num)]
  congr 1
  by_cases hh : l < 1 / 2
  · rw [if_pos hh, min_eq_left (by linarith)]
    field_simp
  · rw [if_neg hh, min_eq_right (by linarith), show 2 - 2 * l = 2 * (1 - l) by ring]
    field_simp

/-- C91: greys have no hue: of all the triples without saturation, hsv and hsl take those with a
negative hue, and give the value or lightness. -/
theorem C91_grey (h v : K) : hsvToRgb ⟨h, 0, v⟩ = (if h < 0 then .ok ⟨v, v, v⟩ else .assertion) ∧
    hslToRgb ⟨h, 0, v⟩ = (if h < 0 then .ok ⟨v, v, v⟩ else .assertion) := by
  unfold hsvToRgb hslToRgb
  simp only [if_true]
  refine ⟨?_, trivial⟩
  by_cases hh : h < 0
  · rw [if_pos hh, if_pos (by linarith)]
  · rw [if_neg hh, if_neg (by linarith)]

/-- C91 fails for greys: each of them is black after a way through hsl. -/
theorem C91_hsl_grey_violated (g : K) : hslToRgb (rgbToHsl ⟨g, g, g⟩) = .ok ⟨0, 0, 0⟩ := by
  unfold rgbToHsl
  simp only [max_self, min_self, sub_self, abs_zero]
  rw [if_pos (by norm_num)]
  exact ((C91_grey _ _).2).trans (if_pos (by norm_num))

/-- C91 fails for hues outside of one turn: they are black in hsv. -/
theorem C91_hue_violated (h s v : K) (hh : h < 0 ∨ 1 < h) (hs : s ≠ 0) :
    hsvToRgb ⟨h, s, v⟩ = .ok ⟨0, 0, 0⟩ := by
  unfold hsvToRgb
  simp only
  rw [if_neg hs, if_neg (show ¬ h * 360 = 360 by intro e; rcases hh with h | h <;> linarith), lfloor_eq]
  have e : h * 360 / 60 = 6 * h := by ring
  rw [e]
  have hi : ⌊6 * h⌋ < 0 ∨ 6 ≤ ⌊6 * h⌋ := by
    rcases hh with h | h
    · left; rw [Int.floor_lt]; push_cast; linarith
    · right; rw [Int.le_floor]; push_cast; linarith
  generalize ⌊6 * h⌋ = i at *
  unfold sector
  rw [if_neg (by omega), if_neg (by omega), if_neg (by omega), if_neg (by omega), if_neg (by omega),
    if_neg (by omega)]

/-! ### YIQ -/

/-- C91: what the matrix of the conversion does: its columns are the coefficients, not its rows. -/
theorem C91_yiq (c : Col K) :
    rgbToYiq c = .ok ⟨299 / 1000 * c.r + 596 / 1000 * c.g + 212 / 1000 * c.b,
      587 / 1000 * c.r - 274 / 1000 * c.g - 523 / 1000 * c.b,
      114 / 1000 * c.r - 322 / 1000 * c.g + 311 / 1000 * c.b⟩ ∧
    yiqToRgb c = .ok ⟨c.r + c.g + c.b, 956 / 1000 * c.r - 272 / 1000 * c.g - 1105 / 1000 * c.b,
      621 / 1000 * c.r - 647 / 1000 * c.g + 1702 / 1000 * c.b⟩ := by
  unfold rgbToYiq yiqToRgb times Matrix4.apply3 matRgbToYiq matYiqToRgb
  simp only [Bool.false_eq_true, if_false]
  constructor
  · simp
    refine ⟨?_, ?_⟩ <;> ring
  · simp
    refine ⟨?_, ?_⟩ <;> ring

/-- C91: from rgb to YIQ and back changes colours of the unit cube by less than 1/400. -/
theorem C91_yiq_round (c : Col K) (h : 0 ≤ c.r ∧ 0 ≤ c.g ∧ 0 ≤ c.b)
    (h' : c.r ≤ 1 ∧ c.g ≤ 1 ∧ c.b ≤ 1) :
    ∃ y d, rgbToYiq c = .ok y ∧ yiqToRgb y = .ok d ∧ |d.r - c.r| ≤ 1 / 400 ∧ |d.g - c.g| ≤ 1 / 400 ∧
      |d.b - c.b| ≤ 1 / 400 := by
  refine ⟨_, _, (C91_yiq c).1, (C91_yiq _).2, ?_, ?_, ?_⟩ <;>
  · rw [abs_le]
    simp only
    constructor <;> linarith [h.1, h.2.1, h.2.2, h'.1, h'.2.1, h'.2.2]

/-! ### `ctransform` -/

/-- C91: names that are no space are left as they are, on both sides, and so is the name that is not
given. -/
theorem C91_other (a b : String) (c : Col K)
    (ha : a ∉ ["hsv", "hsl", "XYZ", "xyY", "YIQ"]) (hb : b ∉ ["hsv", "hsl", "XYZ", "xyY", "YIQ"]) :
    ctransform (some a) b c = .ok c ∧ ctransform none b c = .ok c := by
  simp only [List.mem_cons, List.not_mem_nil, or_false, not_or] at ha hb
  unfold ctransform fromSpace toSpace
  simp [ha, hb, Res.bind]

/-- C91: between two spaces the way is through rgb. -/
theorem C91_through (a b : String) (c : Col K) :
    ctransform (some a) b c = (ctransform (some a) "rgb" c).bind (fun d => ctransform none b d) := by
  unfold ctransform
  have h1 : ∀ d : Col K, toSpace "rgb" d = .ok d := by intro d; unfold toSpace; simp
  have h2 : ∀ d : Col K, fromSpace "rgb" d = .ok d := by intro d; unfold fromSpace; simp
  simp only [Option.getD_some, Option.getD_none, h2]
  cases fromSpace a c with
  | ok d => simp [Res.bind, h1]
  | assertion => rfl

/-- C91: the names of the spaces. -/
theorem C91_names (c : Col K) : ctransform none "hsv" c = .ok (rgbToHsv c) ∧
    ctransform none "hsl" c = .ok (rgbToHsl c) ∧ ctransform none "YIQ" c = rgbToYiq c ∧
    ctransform (some "hsv") "rgb" c = hsvToRgb c ∧ ctransform (some "hsl") "rgb" c = hslToRgb c ∧
    ctransform (some "YIQ") "rgb" c = yiqToRgb c := by
  unfold ctransform
  have h1 : ∀ d : Res (Col K), d.bind (toSpace "rgb") = d := by
    intro d
    cases d with
    | ok d => simp [Res.bind, toSpace]
    | assertion => rfl
  simp only [h1, Option.getD_some, Option.getD_none]
  refine ⟨?_, ?_, ?_, ?_, ?_, ?_⟩ <;> simp [fromSpace, toSpace, Res.bind]

/-- C91 fails for the spaces of the specification XYZ and xyY: an assertion fails for each colour. -/
theorem C91_cie_violated (c : Col K) : ctransform none "XYZ" c = .assertion ∧
    ctransform none "xyY" c = .assertion ∧ ctransform (some "XYZ") "rgb" c = .assertion ∧
    ctransform (some "xyY") "rgb" c = .assertion := by
  unfold ctransform fromSpace toSpace notImplemented
  simp [Res.bind]

end

/-- C91 fails for YIQ: white has a luminance above 1 and chrominance, and the first component is not
the luminance. -/
theorem C91_yiq_violated : rgbToYiq (⟨1, 1, 1⟩ : Col ℚ) = .ok ⟨1107 / 1000, -21 / 100, 103 / 1000⟩ ∧
    yiqToRgb (⟨1, 0, 0⟩ : Col ℚ) = .ok ⟨1, 956 / 1000, 621 / 1000⟩ := by
  rw [(C91_yiq _).1, (C91_yiq _).2]
  norm_num

/-- C91 fails for colours with maximum 0 and a negative component. -/
theorem C91_hsv_violated : hsvToRgb (rgbToHsv (⟨0, -1, 0⟩ : Col ℚ)) = .ok ⟨0, 0, 0⟩ := by
  decide +kernel

/-- Non-vacuity. -/
example : hsvToRgb (⟨1 / 12, 1 / 2, 1⟩ : Col ℚ) = .ok ⟨1, 3 / 4, 1 / 2⟩ ∧
    hslToRgb (rgbToHsl (⟨1 / 4, 1 / 2, 3 / 4⟩ : Col ℚ)) = .ok ⟨1 / 4, 1 / 2, 3 / 4⟩ := by
  decide +kernel

end Verif.Math.Color
