import Verif.Tex.Level
import Mathlib.Analysis.SpecialFunctions.Log.Base
import Mathlib.Topology.Algebra.Monoid
import Mathlib.Algebra.BigOperators.Intervals

/-!
C88: the choice of the level of a mipmap.
-/

namespace Verif.Tex.Level

/-- The number of pixels the filter has to cover, in terms of the widest blur in pixels. -/
theorem C88_width (o : Opts) (minor w0 h0 : ℝ) (hm : 0 < minor) :
    (o.lerp ≠ .auto → minFilterWidth o minor w0 h0 = o.minWidth) ∧
    (o.sBlur = 0 → o.tBlur = 0 → minFilterWidth o minor w0 h0 = o.minWidth) ∧
    (o.lerp = .auto → ∀ b, IsGreatest {o.sBlur * w0, o.tBlur * h0} b → 0 < b →
      (2 * b ≤ minor → minFilterWidth o minor w0 h0 = o.minWidth + 4 * b / minor) ∧
      (minor ≤ 2 * b → minFilterWidth o minor w0 h0 = o.minWidth + 2)) := by
  refine ⟨?_, ?_, ?_⟩
  · intro h
    unfold minFilterWidth
    rw [if_neg (fun hc => h hc.1)]
  · intro h1 h2
    unfold minFilterWidth
    rw [if_neg]
    rintro ⟨_, h | h⟩
    · exact h h1
    · exact h h2
  · intro ha b hb hb0
    have hmax : max (o.sBlur * w0) (o.tBlur * h0) = b := by
      apply le_antisymm
      · exact max_le (hb.2 (by simp)) (hb.2 (by simp))
      · rcases hb.1 with h | h
        · rw [h]; exact le_max_left _ _
        · rw [Set.mem_singleton_iff] at h
          rw [h]; exact le_max_right _ _
    have hc : o.lerp = .auto ∧ (o.sBlur ≠ 0 ∨ o.tBlur ≠ 0) := by
      refine ⟨ha, ?_⟩
      by_contra hn
      rw [not_or, not_not, not_not] at hn
      rw [hn.1, hn.2] at hmax
      simp at hmax
      linarith
    unfold minFilterWidth blurRatio
    rw [if_pos hc, if_pos hc, hmax]
    unfold clampR
    have hp : 0 < 2 * b / minor := by positivity
    rw [if_neg (not_lt.mpr hp.le)]
    constructor
    · intro hle
      rw [if_neg (not_lt.mpr ((div_le_one hm).mpr hle))]
      ring
    · intro hle
      have h1 : 1 ≤ 2 * b / minor := (one_le_div hm).mpr hle
      by_cases he : 2 * b / minor > 1
      · rw [if_pos he]; ring
      · rw [if_neg he, le_antisymm (not_lt.mp he) h1]; ring

example : minFilterWidth ⟨2, 1, 1, .auto⟩ 1 8 4 = 4 := by
  have := ((C88_width ⟨2, 1, 1, .auto⟩ 1 8 4 (by norm_num)).2.2 rfl 8
    ⟨by norm_num, by rintro x (h | h) <;> norm_num at h <;> linarith⟩ (by norm_num)).2 (by norm_num)
  rw [this]; norm_num

theorem choose_some (o : Opts) (minor w0 h0 : ℝ) (n : ℤ) (hm : 0 < minor)
    (hw : 0 < minFilterWidth o minor w0 h0) :
    choose o minor w0 h0 n = .ok (clampZ ⌊Real.logb 2 (minor / minFilterWidth o minor w0 h0)⌋ 0 (n - 1))
      (if (o.lerp = .always ∨ (o.lerp = .auto ∧ blurRatio o minor w0 h0 > 0.2)) ∧
          clampZ ⌊Real.logb 2 (minor / minFilterWidth o minor w0 h0)⌋ 0 (n - 1) < n - 1 ∧
          Real.logb 2 (minor / minFilterWidth o minor w0 h0) > 0 then
        some ((Real.logb 2 (minor / minFilterWidth o minor w0 h0) -
          clampZ ⌊Real.logb 2 (minor / minFilterWidth o minor w0 h0)⌋ 0 (n - 1)) ^ 2)
      else none) := by
  unfold choose
  rw [if_neg (by rintro (h | h) <;> linarith)]
  simp only
  split_ifs with h
  · rw [sq]
  · rfl

/-- C88: the level chosen is the smallest on which the filter still covers enough pixels. -/
theorem C88_level (o : Opts) (minor w0 h0 : ℝ) (n : ℤ) (hn : 1 ≤ n) (hm : 0 < minor)
    (hw : 0 < minFilterWidth o minor w0 h0) :
    ∃ (l : ℤ) (mix : Option ℝ), choose o minor w0 h0 n = .ok l mix ∧ 0 ≤ l ∧ l < n ∧
      (0 < l → minFilterWidth o minor w0 h0 ≤ minor / 2 ^ l) ∧
      (l < n - 1 → minor / 2 ^ (l + 1) < minFilterWidth o minor w0 h0) := by
  rw [choose_some o minor w0 h0 n hm hw]
  set W := minFilterWidth o minor w0 h0 with hW
  set c := Real.logb 2 (minor / W) with hc
  refine ⟨_, _, rfl, ?_, ?_, ?_, ?_⟩
  · unfold clampZ; split_ifs <;> omega
  · unfold clampZ; split_ifs <;> omega
  · intro hl
    have h1 : clampZ ⌊c⌋ 0 (n - 1) ≤ ⌊c⌋ := by
      unfold clampZ at hl ⊢; split_ifs at hl ⊢ <;> omega
    have h2 : ((clampZ ⌊c⌋ 0 (n - 1) : ℤ) : ℝ) ≤ c := Int.le_floor.mp h1
    rw [hc, Real.le_logb_iff_rpow_le (by norm_num) (by positivity), Real.rpow_intCast] at h2
    rw [le_div_iff₀ hw] at h2
    rw [le_div_iff₀ (by positivity)]
    linarith
  · intro hl
    have h1 : ⌊c⌋ < clampZ ⌊c⌋ 0 (n - 1) + 1 := by
      unfold clampZ at hl ⊢; split_ifs at hl ⊢ <;> omega
    have h2 : c < ((clampZ ⌊c⌋ 0 (n - 1) + 1 : ℤ) : ℝ) := Int.floor_lt.mp h1
    rw [hc, Real.logb_lt_iff_lt_rpow (by norm_num) (by positivity), Real.rpow_intCast] at h2
    rw [div_lt_iff₀ hw] at h2
    rw [div_lt_iff₀ (by positivity)]
    linarith

/-- C88: levels are mixed if asked for, or if it is left to the renderer and there is much blur,
between the level and the next one only, and the nearer the filter is to the next level the more of it. -/
theorem C88_mix (o : Opts) (minor w0 h0 : ℝ) (n : ℤ) (hm : 0 < minor)
    (hw : 0 < minFilterWidth o minor w0 h0) (l : ℤ) (mix : Option ℝ)
    (h : choose o minor w0 h0 n = .ok l mix) :
    (o.lerp = .never → mix = none) ∧ (l = n - 1 → mix = none) ∧
    (o.lerp = .auto → blurRatio o minor w0 h0 ≤ 1 / 5 → mix = none) ∧
    (o.lerp = .always ∨ (o.lerp = .auto ∧ 1 / 5 < blurRatio o minor w0 h0) → l < n - 1 →
      minFilterWidth o minor w0 h0 < minor → mix ≠ none) ∧
    (∀ t, mix = some t → ∃ x, 0 ≤ x ∧ x < 1 ∧ t = x ^ 2 ∧
      minor = minFilterWidth o minor w0 h0 * 2 ^ ((l : ℝ) + x)) := by
  rw [choose_some o minor w0 h0 n hm hw] at h
  set W := minFilterWidth o minor w0 h0 with hW
  set c := Real.logb 2 (minor / W) with hc
  injection h with hl hmix
  refine ⟨?_, ?_, ?_, ?_, ?_⟩
  · intro hn
    rw [← hmix, if_neg]
    rintro ⟨h1 | h1, _⟩
    · rw [hn] at h1; exact absurd h1 (by decide)
    · rw [hn] at h1; exact absurd h1.1 (by decide)
  · intro hn
    rw [← hmix, if_neg]
    rintro ⟨_, h1, _⟩
    omega
  · intro ha hb
    rw [← hmix, if_neg]
    rintro ⟨h1 | h1, _⟩
    · rw [ha] at h1; exact absurd h1 (by decide)
    · have := h1.2
      norm_num at this
      linarith
  · intro hl1 hl2 hl3
    rw [← hmix, if_pos]
    · simp
    · refine ⟨?_, by rw [hl]; exact hl2, ?_⟩
      · rcases hl1 with h1 | h1
        · exact Or.inl h1
        · refine Or.inr ⟨h1.1, ?_⟩
          have := h1.2
          norm_num
          linarith
      · rw [hc, gt_iff_lt]
        exact Real.logb_pos (by norm_num) ((one_lt_div hw).mpr hl3)
  · intro t ht
    rw [← hmix] at ht
    split_ifs at ht with hcond
    obtain ⟨_, hlt, hpos⟩ := hcond
    injection ht with ht
    have hf0 : 0 ≤ ⌊c⌋ := Int.floor_nonneg.mpr hpos.le
    have hf : clampZ ⌊c⌋ 0 (n - 1) = ⌊c⌋ := by
      unfold clampZ at hlt ⊢; split_ifs at hlt ⊢ <;> omega
    refine ⟨c - l, ?_, ?_, ?_, ?_⟩
    · rw [← hl, hf]; linarith [Int.floor_le c]
    · rw [← hl, hf]; linarith [Int.lt_floor_add_one c]
    · rw [← ht, hl]
    · have : ((l : ℝ) + (c - l)) = c := by ring
      rw [this, hc, Real.rpow_logb (by norm_num) (by norm_num) (by positivity)]
      field_simp

/-- C88: what is filtered lies between the results of the two levels. -/
theorem C88_between (o : Opts) (minor w0 h0 : ℝ) (n : ℤ) (hn : 1 ≤ n) (hm : 0 < minor)
    (hw : 0 < minFilterWidth o minor w0 h0) (f : ℤ → ℝ) :
    ∃ (l : ℤ) (mix : Option ℝ) (r : ℝ), choose o minor w0 h0 n = .ok l mix ∧
      applyFilter o minor w0 h0 n f = some r ∧
      (mix = none → r = f l) ∧
      (mix ≠ none → min (f l) (f (l + 1)) ≤ r ∧ r ≤ max (f l) (f (l + 1)) ∧ l + 1 < n) := by
  obtain ⟨l, mix, hch, h0l, hln, -, -⟩ := C88_level o minor w0 h0 n hn hm hw
  obtain ⟨-, hlast, -, -, hx⟩ := C88_mix o minor w0 h0 n hm hw l mix hch
  unfold applyFilter
  rw [hch]
  cases mix with
  | none => exact ⟨l, none, f l, rfl, rfl, fun _ => rfl, fun h => absurd rfl h⟩
  | some t =>
    refine ⟨l, some t, _, rfl, rfl, fun h => by simp at h, fun _ => ?_⟩
    obtain ⟨x, hx0, hx1, rfl, _⟩ := hx t rfl
    have ht0 : 0 ≤ x ^ 2 := sq_nonneg x
    have ht1 : x ^ 2 ≤ 1 := by nlinarith
    have a1 := min_le_left (f l) (f (l + 1))
    have a2 := min_le_right (f l) (f (l + 1))
    have a3 := le_max_left (f l) (f (l + 1))
    have a4 := le_max_right (f l) (f (l + 1))
    refine ⟨by nlinarith, by nlinarith, ?_⟩
    have : l ≠ n - 1 := fun h => by simpa using hlast h
    omega

/-- The sum that an interpolation between levels amounts to. -/
theorem sum_levels (f : ℕ → ℝ) (c : ℝ) (m : ℕ) (h1 : (m : ℝ) ≤ c) (h2 : c < m + 1) (N : ℕ) :
    (f 0 + ∑ k ∈ Finset.range N, (max 0 (min 1 (c - k))) ^ 2 * (f (k + 1) - f k)) =
      if m < N then (1 - (c - m) ^ 2) * f m + (c - m) ^ 2 * f (m + 1) else f N := by
  induction N with
  | zero => simp
  | succ N ih =>
    rw [Finset.sum_range_succ, ← add_assoc, ih]
    by_cases hc : m < N
    · have hN : (m : ℝ) + 1 ≤ N := by exact_mod_cast hc
      rw [if_pos hc, if_pos (by omega)]
      have : max 0 (min 1 (c - (N : ℝ))) = 0 := by
        apply max_eq_left
        exact le_trans (min_le_right _ _) (by linarith)
      rw [this]
      ring
    · rw [if_neg hc]
      by_cases he : m = N
      · subst he
        rw [if_pos (by omega)]
        have : max 0 (min 1 (c - (m : ℝ))) = c - m := by
          rw [min_eq_right (by linarith), max_eq_right (by linarith)]
        rw [this]
        ring
      · have hlt : N + 1 ≤ m := by omega
        have hN : (N : ℝ) + 1 ≤ m := by exact_mod_cast hlt
        rw [if_neg (by omega)]
        have : max 0 (min 1 (c - (N : ℝ))) = 1 := by
          rw [min_eq_left (by linarith), max_eq_right (by norm_num)]
        rw [this]
        ring

theorem always_sum (o : Opts) (ho : o.lerp = .always) (minor w0 h0 : ℝ) (N : ℕ) (hm : 0 < minor)
    (hw : 0 < o.minWidth) (f : ℤ → ℝ) :
    applyFilter o minor w0 h0 (N + 1) f = some (f 0 + ∑ k ∈ Finset.range N,
      (max 0 (min 1 (Real.logb 2 (minor / o.minWidth) - k))) ^ 2 * (f (k + 1) - f k)) := by
  have hW : minFilterWidth o minor w0 h0 = o.minWidth :=
    (C88_width o minor w0 h0 hm).1 (by rw [ho]; decide)
  unfold applyFilter
  rw [choose_some o minor w0 h0 _ hm (by rw [hW]; exact hw), hW]
  generalize Real.logb 2 (minor / o.minWidth) = c
  simp only [ho, true_or, true_and, add_sub_cancel_right]
  by_cases hc : c > 0
  · have hf0 : 0 ≤ ⌊c⌋ := Int.floor_nonneg.mpr hc.le
    obtain ⟨m, hmf⟩ := Int.eq_ofNat_of_zero_le hf0
    have h1 : (m : ℝ) ≤ c := by
      have := Int.floor_le c
      rw [hmf] at this
      exact_mod_cast this
    have h2 : c < m + 1 := by
      have := Int.lt_floor_add_one c
      rw [hmf] at this
      exact_mod_cast this
    have key := sum_levels (fun k => f k) c m h1 h2 N
    simp only [Nat.cast_zero, Nat.cast_add, Nat.cast_one] at key
    rw [key, hmf]
    by_cases hlt : m < N
    · have hcl : clampZ (m : ℤ) 0 N = m := by
        unfold clampZ
        rw [if_neg (by omega), if_neg (by omega)]
      rw [if_pos hlt, hcl, if_pos ⟨by exact_mod_cast hlt, hc⟩]
      simp
    · have hcl : clampZ (m : ℤ) 0 N = N := by
        unfold clampZ
        split_ifs <;> omega
      rw [if_neg hlt, hcl, if_neg (by simp)]
  · have hcl : clampZ ⌊c⌋ 0 N = 0 := by
      have : ⌊c⌋ ≤ 0 := by
        have := Int.floor_le_floor (not_lt.mp hc)
        simpa using this
      unfold clampZ
      split_ifs <;> omega
    rw [hcl, if_neg (fun h => hc h.2)]
    have : ∑ k ∈ Finset.range N, (max 0 (min 1 (c - (k : ℝ)))) ^ 2 * (f (k + 1) - f k) = 0 := by
      apply Finset.sum_eq_zero
      intro k _
      have hk : (0 : ℝ) ≤ k := Nat.cast_nonneg k
      have : max 0 (min 1 (c - (k : ℝ))) = 0 := by
        apply max_eq_left
        exact le_trans (min_le_right _ _) (by linarith [not_lt.mp hc])
      rw [this]; ring
    rw [this, add_zero]

/-- C88: with mixtures asked for there are no seams: if the results of the levels change
continuously, so does the result, also where another level is chosen. -/
theorem C88_smooth (o : Opts) (ho : o.lerp = .always) (hw : 0 < o.minWidth) (w0 h0 : ℝ) (n : ℤ)
    (hn : 1 ≤ n) (f : ℝ → ℤ → ℝ) (hf : ∀ k, ContinuousOn (fun m => f m k) (Set.Ioi 0)) :
    ∃ r : ℝ → ℝ, ContinuousOn r (Set.Ioi 0) ∧
      ∀ minor > 0, applyFilter o minor w0 h0 n (f minor) = some (r minor) := by
  obtain ⟨N, rfl⟩ : ∃ N : ℕ, n = N + 1 := ⟨(n - 1).toNat, by omega⟩
  refine ⟨fun minor => f minor 0 + ∑ k ∈ Finset.range N,
      (max 0 (min 1 (Real.logb 2 (minor / o.minWidth) - k))) ^ 2 * (f minor (k + 1) - f minor k), ?_,
    fun minor hm => always_sum o ho minor w0 h0 N hm hw (f minor)⟩
  apply ContinuousOn.add (hf 0)
  apply continuousOn_finsetSum
  intro k _
  apply ContinuousOn.mul _ ((hf (k + 1)).sub (hf k))
  apply ContinuousOn.pow
  apply ContinuousOn.sup continuousOn_const
  apply ContinuousOn.inf continuousOn_const
  apply ContinuousOn.sub _ continuousOn_const
  unfold Real.logb
  apply ContinuousOn.div_const
  apply ContinuousOn.log
  · exact continuousOn_id.div_const _
  · intro x hx
    have : 0 < x := hx
    exact ne_of_gt (by positivity)

/-- C88 fails for widths of 0, which the options allow: an infinite number is converted to an
integer. -/
theorem C88_zero_violated :
    ∃ o : Opts, o.minWidth ≥ 0 ∧ o.sBlur ≥ 0 ∧ o.tBlur ≥ 0 ∧
      ∀ minor w0 h0 n, choose o minor w0 h0 n = .undefined := by
  refine ⟨⟨0, 0, 0, .auto⟩, by norm_num, by norm_num, by norm_num, ?_⟩
  intro minor w0 h0 n
  unfold choose minFilterWidth
  rw [if_pos]
  right
  rw [if_neg (by simp)]

/-! ### The last level -/

/-- C88: on the last level no more than 21 pixels along each axis are used, all of them of the
support, around its middle; supports of no more than 20 pixels are used as they are. -/
theorem C88_last_partial (s e : ℤ) (h : s < e) :
    (lastSupport s e).2 - (lastSupport s e).1 ≤ 21 ∧
    s ≤ (lastSupport s e).1 ∧ (lastSupport s e).1 < (lastSupport s e).2 ∧ (lastSupport s e).2 ≤ e ∧
    (e - s ≤ 20 → lastSupport s e = (s, e)) ∧
    (20 < e - s → 20 ≤ (lastSupport s e).2 - (lastSupport s e).1 ∧
      |(lastSupport s e).1 + (lastSupport s e).2 - (s + e)| ≤ 2) := by
  have hc : 2 * (s + e).tdiv 2 = s + e ∨ 2 * (s + e).tdiv 2 = s + e - 1 ∨
      2 * (s + e).tdiv 2 = s + e + 1 := by
    have := Int.mul_tdiv_add_tmod (s + e) 2
    have h1 := Int.tmod_two_eq (s + e)
    omega
  simp only [lastSupport]
  generalize (s + e).tdiv 2 = c at hc
  refine ⟨by omega, by omega, by omega, by omega, ?_, ?_⟩
  · intro hs
    rw [max_eq_left (by omega), min_eq_left (by omega)]
  · intro hs
    refine ⟨by omega, ?_⟩
    rw [abs_le]
    omega

/-- C88 fails for the size: 21 pixels are used where the comment has it that 20 are the most, and
whether they are depends on where the support is. -/
theorem C88_last_violated :
    (∃ s e : ℤ, (lastSupport s e).2 - (lastSupport s e).1 = 21) ∧
    ∃ s e k : ℤ, lastSupport (s + k) (e + k) ≠ ((lastSupport s e).1 + k, (lastSupport s e).2 + k) :=
  ⟨⟨0, 100, by decide⟩, 0, 21, -21, by decide⟩

end Verif.Tex.Level
