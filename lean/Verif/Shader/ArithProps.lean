import Verif.Shader.ArithLemmas

/-!
C101: functions of the shading language
-/

namespace Verif.Shader.Arith

open Spec

variable {K : Type} [Field K] [LinearOrder K] [IsStrictOrderedRing K] [FloorRing K]

/-- **C101.** `step` is zero below its edge and one from it on. `smoothstep` never decreases, stays between zero and one, is zero up
to the first and one from the second number on, follows 3v² − 2v³ between them, and is symmetric about the middle. If the first
number is not below the second it is a `step`. -/
theorem C101_steps (mn mx v w : K) (hvw : v ≤ w) :
    (step mn v = 0 ↔ v < mn) ∧ (step mn v = 1 ↔ mn ≤ v) ∧
    0 ≤ smoothstep mn mx v ∧ smoothstep mn mx v ≤ 1 ∧ smoothstep mn mx v ≤ smoothstep mn mx w ∧
    (mx ≤ mn → smoothstep mn mx v = step mn v) ∧
    (mn < mx → (v ≤ mn → smoothstep mn mx v = 0) ∧ (mx ≤ v → smoothstep mn mx v = 1) ∧
      (mn ≤ v → v ≤ mx → smoothstep mn mx v = ease ((v - mn) / (mx - mn))) ∧
      smoothstep mn mx v + smoothstep mn mx (mn + mx - v) = 1) := by
  have z0 : ease (0 : K) = 0 := by unfold ease; ring
  have z1 : ease (1 : K) = 1 := by unfold ease; ring
  have low : ∀ v, v < mn → smoothstep mn mx v = 0 := fun v h => by unfold smoothstep; rw [if_pos h]
  have high : ∀ v, mn ≤ v → mx ≤ v → smoothstep mn mx v = 1 := fun v h h' => by
    unfold smoothstep; rw [if_neg (not_lt.mpr h), if_pos h']
  have range : ∀ v, 0 ≤ smoothstep mn mx v ∧ smoothstep mn mx v ≤ 1 := by
    intro v
    rcases lt_or_ge v mn with h | h
    · rw [low v h]; exact ⟨le_rfl, zero_le_one⟩
    rcases lt_or_ge v mx with h' | h'
    · rw [smooth_in mn mx v h h']
      have := part_range mn mx v h h'
      exact ease_range _ this.1 this.2.le
    · rw [high v h h']; exact ⟨zero_le_one, le_rfl⟩
  refine ⟨?_, ?_, (range v).1, (range v).2, ?_, ?_, ?_⟩
  · unfold step; split_ifs with h <;> simp [h]
  · unfold step; split_ifs with h <;> simp [not_lt.mp, h]
  · rcases lt_or_ge v mn with h | h
    · rw [low v h]; exact (range w).1
    rcases lt_or_ge w mx with h' | h'
    · rw [smooth_in mn mx v h (hvw.trans_lt h'), smooth_in mn mx w (h.trans hvw) h']
      have h1 := part_range mn mx v h (hvw.trans_lt h')
      have h2 := part_range mn mx w (h.trans hvw) h'
      apply ease_mono _ _ h1.1 _ h2.2.le
      have : 0 < mx - mn := sub_pos.mpr ((h.trans hvw).trans_lt h')
      rw [div_le_div_iff_of_pos_right this]; linarith
    · rw [high w (h.trans hvw) h']; exact (range v).2
  · intro hm
    unfold step
    split_ifs with h
    · exact low v h
    · exact high v (not_lt.mp h) (hm.trans (not_lt.mp h))
  · intro hm
    have hd : 0 < mx - mn := sub_pos.mpr hm
    have mid : ∀ v, mn ≤ v → v ≤ mx → smoothstep mn mx v = ease ((v - mn) / (mx - mn)) := by
      intro v h h'
      rcases lt_or_eq_of_le h' with h2 | h2
      · exact smooth_in mn mx v h h2
      · rw [high v h h2.ge, h2, div_self hd.ne', z1]
    have lo : ∀ v, v ≤ mn → smoothstep mn mx v = 0 := by
      intro v h
      rcases lt_or_eq_of_le h with h2 | h2
      · exact low v h2
      · rw [mid v h2.ge (h.trans hm.le), h2, sub_self, zero_div, z0]
    have hi : ∀ v, mx ≤ v → smoothstep mn mx v = 1 := fun v h => high v (hm.le.trans h) h
    refine ⟨lo v, hi v, mid v, ?_⟩
    rcases le_total v mn with h | h
    · rw [lo v h, hi _ (by linarith), zero_add]
    rcases le_total mx v with h' | h'
    · rw [hi v h', lo _ (by linarith), add_zero]
    · rw [mid v h h', mid _ (by linarith) (by linarith)]
      unfold ease
      have : (mn + mx - v - mn) / (mx - mn) = 1 - (v - mn) / (mx - mn) := by field_simp; ring
      rw [this]; ring

example : smoothstep (1 : ℚ) 3 2 = 1 / 2 ∧ smoothstep (3 : ℚ) 1 2 = 0 := by decide +kernel

/-- **C101.** `clamp` is the nearest number of the interval. -/
theorem C101_clamp (x mn mx : K) (h : mn ≤ mx) : Nearest x mn mx (clamp x mn mx) := by
  unfold Nearest clamp
  split_ifs with h1 h2
  · refine ⟨le_rfl, h, fun y hy _ => ?_⟩
    rw [abs_of_pos (by linarith), abs_of_pos (by linarith)]; linarith
  · refine ⟨h, le_rfl, fun y _ hy => ?_⟩
    rw [abs_of_neg (by linarith), abs_of_neg (by linarith)]; linarith
  · refine ⟨not_lt.mp h1, not_lt.mp h2, fun y _ _ => ?_⟩
    rw [sub_self, abs_zero]; exact abs_nonneg _

example : clamp (5 : ℚ) 1 3 = 3 ∧ clamp (0 : ℚ) 1 3 = 1 ∧ clamp (2 : ℚ) 1 3 = 2 := by decide +kernel

/-- **C101**, what holds: a filtered step is the part of an interval around the value that is not below the edge. The interval is as
wide as the value changes, or as the second value is above the first, times `width`. (Missing: with two values the interval should
be the one between them, see the violation.) -/
theorem C101_filterstep_partial (edge s s' du dv width : K) :
    (0 < (|du| + |dv|) * width → filterstep edge s du dv width =
      some (partAbove edge (s - (|du| + |dv|) * width / 2) (s + (|du| + |dv|) * width / 2))) ∧
    (0 < (s' - s) * width → filterstep2 edge s s' width =
      some (partAbove edge (s - (s' - s) * width / 2) (s + (s' - s) * width / 2))) ∧
    (filterstep edge s 0 0 width = none ∧ filterstep2 edge s s width = none) := by
  refine ⟨fun h => ?_, fun h => ?_, ?_, ?_⟩
  · unfold filterstep
    simp only []
    rw [if_neg h.ne', clamp_part _ _ _ h]
  · unfold filterstep2
    simp only []
    rw [if_neg h.ne', clamp_part _ _ _ h]
  · simp [filterstep]
  · simp [filterstep2]

example : filterstep (2 : ℚ) 2 1 (-1) 1 = some (1 / 2) := by decide +kernel

/-- **C101 is violated**: "`filterstep` with two values is the part of the interval between them that is not below the edge, in
whichever order they are". For the values 0 and 1 and the edge 1/2 it is zero instead of one half, and for the values 1 and 0 and the edge 1/4 it is zero
instead of three quarters. Where the value
does not change the result is zero divided by zero or a number divided by zero. -/
theorem C101_filterstep_violated :
    filterstep2 (1 / 2 : ℚ) 0 1 1 = some 0 ∧ partAbove (1 / 2 : ℚ) 0 1 = 1 / 2 ∧ filterstep2 (1 / 4 : ℚ) 1 0 1 = some 0 ∧
    partAbove (1 / 4 : ℚ) 0 1 = 3 / 4 := by decide +kernel

/-- **C101**, what holds: `mod` by a positive number is the rest from zero up to it, if the quotient fits into a `TqInt`. (Missing:
negative numbers, see the violation.) -/
theorem C101_mod_partial (a b : K) (hb : 0 < b) :
    (mod a b ≠ none ↔ -2 ^ 31 - 1 < a / b ∧ a / b < 2 ^ 31) ∧
    ∀ r, mod a b = some r → 0 ≤ r ∧ r < b ∧ ∃ k : Int, a = k * b + r := by
  constructor
  · unfold mod toInt
    rw [if_neg hb.ne']
    simp only [ne_eq, Option.map_eq_none_iff]
    have c1 : ((-2 ^ 31 : Int) : K) = -2 ^ 31 := by push_cast; ring
    have c2 : ((2 ^ 31 : Int) : K) = 2 ^ 31 := by push_cast; ring
    have c3 : ((-2 ^ 31 - 1 : Int) : K) = -2 ^ 31 - 1 := by push_cast; ring
    by_cases h : 0 ≤ a / b
    · rw [if_pos h]
      have f1 : (-2 ^ 31 : Int) ≤ ⌊a / b⌋ := le_trans (by norm_num) (Int.floor_nonneg.mpr h)
      have f2 : (-2 ^ 31 - 1 : K) < a / b := lt_of_lt_of_le (by norm_num) h
      have f3 : ⌊a / b⌋ < (2 ^ 31 : Int) ↔ a / b < 2 ^ 31 := by rw [Int.floor_lt, c2]
      simp only [f1, f2, true_and, f3]
      split_ifs with g <;> simp [g]
    · rw [if_neg h]
      have f1 : ⌈a / b⌉ < (2 ^ 31 : Int) := lt_of_le_of_lt (Int.ceil_le.mpr (by push_cast; exact (not_le.mp h).le)) (by norm_num : (0:Int) < 2^31)
      have f2 : a / b < (2 ^ 31 : K) := lt_of_lt_of_le (not_le.mp h) (by norm_num)
      have f3 : (-2 ^ 31 : Int) ≤ ⌈a / b⌉ ↔ -2 ^ 31 - 1 < a / b := by
        rw [← c3, ← Int.lt_ceil]; omega
      simp only [f1, f2, and_true, f3]
      split_ifs with g <;> simp [g]
  · intro r hr
    have hr' : (toInt (a / b)).map (fun n : Int => if a - (n : K) * b < 0 then a - (n : K) * b + b else a - (n : K) * b) = some r := by
      unfold mod at hr
      rw [if_neg hb.ne'] at hr
      exact hr
    rw [Option.map_eq_some_iff] at hr'
    obtain ⟨n, hn, hr⟩ := hr'
    obtain ⟨p1, p2⟩ := toInt_spec _ _ hn
    have ha : a = a / b * b := by field_simp
    by_cases h : 0 ≤ a / b
    · obtain ⟨q1, q2⟩ := p1 h
      have r0 : 0 ≤ a - n * b := by nlinarith
      rw [if_neg (not_lt.mpr r0)] at hr
      refine ⟨by rw [← hr]; exact r0, ?_, n, by rw [← hr]; ring⟩
      rw [← hr]; nlinarith
    · obtain ⟨q1, q2⟩ := p2 (not_le.mp h)
      by_cases r0 : a - n * b < 0
      · rw [if_pos r0] at hr
        refine ⟨?_, ?_, n - 1, by rw [← hr]; push_cast; ring⟩
        · rw [← hr]; nlinarith
        · rw [← hr]; linarith
      · rw [if_neg r0] at hr
        refine ⟨by rw [← hr]; exact not_lt.mp r0, ?_, n, by rw [← hr]; ring⟩
        rw [← hr]
        nlinarith

example : mod (-7 : ℚ) 3 = some 2 := by decide +kernel

/-- **C101 is violated**: "the rest is smaller than the divisor". −1 mod −3 is −4. -/
theorem C101_mod_violated : mod (-1 : ℚ) (-3) = some (-4) ∧ ¬ |(-4 : ℚ)| < |(-3 : ℚ)| := by
  constructor <;> decide +kernel

/-- **C101.** `round` gives a nearest integer, the upper one in the middle; the absolute value times `sign` is the number. -/
theorem C101_round (x : K) :
    (∃ n : Int, round x = n ∧ (n : K) - 1 / 2 ≤ x ∧ x < n + 1 / 2) ∧ |x| * sign x = x ∧ (sign x = 1 ∨ sign x = -1) := by
  refine ⟨⟨⌊x - 1 / 2⌋ + 1, by unfold round; push_cast; rfl, ?_, ?_⟩, ?_, ?_⟩
  · have := Int.floor_le (x - 1 / 2)
    push_cast; linarith
  · have := Int.lt_floor_add_one (x - 1 / 2)
    push_cast; linarith
  · unfold sign
    split_ifs with h
    · rw [abs_of_neg h]; ring
    · rw [abs_of_nonneg (not_lt.mp h), mul_one]
  · unfold sign; split_ifs <;> simp

example : round (5 / 2 : ℚ) = 3 ∧ round (-5 / 2 : ℚ) = -2 ∧ sign (-3 : ℚ) = -1 := by decide +kernel

/-- **C101.** `min` and `max` of any number of values are the least and the greatest of them; of points and colours, component by
component. -/
theorem C101_minmax (a b : K) (more : List K) (p q : Fin 3 → K) (others : List (Fin 3 → K)) :
    IsLeast {x | x ∈ a :: b :: more} (minOf a b more) ∧ IsGreatest {x | x ∈ a :: b :: more} (maxOf a b more) ∧
    (∀ i, IsLeast {x | x ∈ (p :: q :: others).map (· i)} (pminOf p q others i)) ∧
    (∀ i, IsGreatest {x | x ∈ (p :: q :: others).map (· i)} (pmaxOf p q others i)) := by
  have h1 : ∀ (a b : K) (more : List K), IsLeast {x | x ∈ a :: b :: more} (minOf a b more) := fun a b more => by
    have := minFold (b :: more) a
    exact ⟨this.1, fun x hx => this.2 x hx⟩
  have h2 : ∀ (a b : K) (more : List K), IsGreatest {x | x ∈ a :: b :: more} (maxOf a b more) := fun a b more => by
    have := maxFold (b :: more) a
    exact ⟨this.1, fun x hx => this.2 x hx⟩
  refine ⟨h1 a b more, h2 a b more, fun i => ?_, fun i => ?_⟩
  · have := h1 (p i) (q i) (others.map (· i))
    unfold pminOf
    rw [minComp]
    exact this
  · have := h2 (p i) (q i) (others.map (· i))
    unfold pmaxOf
    rw [maxComp]
    exact this

example : minOf (3 : ℚ) 2 [5, 1] = 1 ∧ maxOf (3 : ℚ) 2 [5, 1] = 5 := by decide +kernel

/-- **C101**, what holds: roots, logarithms and powers have their value where they are defined; where a root or a logarithm is not
defined, and for powers of negative numbers that are not whole, the result is zero. (Missing: see the violation.) -/
theorem C101_domain_partial (x y : ℝ) :
    (0 ≤ x → sqrt x = Real.sqrt x ∧ sqrt x * sqrt x = x) ∧ (x < 0 → sqrt x = 0) ∧
    (0 < x → inversesqrt x * Real.sqrt x = 1) ∧ (x ≤ 0 → inversesqrt x = 0) ∧
    (0 < x → Real.exp (log x) = x) ∧ (x ≤ 0 → log x = 0) ∧
    (0 < x → 0 < y → y ≠ 1 → ∃ l, logBase x y = some l ∧ y ^ l = x) ∧ (x ≤ 0 ∨ y ≤ 0 → logBase x y = some 0) ∧
    (0 < x ∨ x = 0 ∧ 0 ≤ y → pow x y = some (x ^ y)) ∧
    (∀ n : Int, x < 0 → -2 ^ 31 ≤ n → n < 2 ^ 31 → pow x n = some (x ^ n)) ∧
    (x < 0 → (∀ n : Int, (n : ℝ) ≠ y) → pow x y = some 0) := by
  refine ⟨fun h => ?_, fun h => ?_, fun h => ?_, fun h => ?_, fun h => ?_, fun h => ?_, fun hx hy h1 => ?_, fun h => ?_,
    fun h => ?_, fun n h h1 h2 => ?_, fun h h1 => ?_⟩
  · unfold sqrt; rw [if_neg (not_lt.mpr h)]; exact ⟨rfl, Real.mul_self_sqrt h⟩
  · unfold sqrt; rw [if_pos h]
  · unfold inversesqrt; rw [if_neg (not_le.mpr h), one_div, inv_mul_cancel₀ (Real.sqrt_pos.mpr h).ne']
  · unfold inversesqrt; rw [if_pos h]
  · unfold log; rw [if_neg (not_le.mpr h), Real.exp_log h]
  · unfold log; rw [if_pos h]
  · have hl : Real.log y ≠ 0 := Real.log_ne_zero_of_pos_of_ne_one hy h1
    refine ⟨Real.log x / Real.log y, ?_, ?_⟩
    · unfold logBase
      rw [if_neg (by rintro (h | h) <;> linarith), if_neg hl]
    · rw [Real.rpow_def_of_pos hy, mul_div_cancel₀ _ hl, Real.exp_log hx]
  · unfold logBase; rw [if_pos h]
  · unfold pow
    rcases h with h | ⟨h, h'⟩
    · rw [if_neg (not_lt.mpr h.le), if_neg (fun g => h.ne' g.1)]
    · rw [if_neg (by rw [h]; exact lt_irrefl 0), if_neg (fun g => absurd g.2 (not_lt.mpr h'))]
  · unfold pow
    rw [if_pos h]
    have : wrap ⌊(n : ℝ)⌋ = n := by rw [Int.floor_intCast]; unfold wrap; omega
    simp only [this]
    simp
  · unfold pow
    rw [if_pos h]
    simp only []
    rw [if_pos (h1 _)]

/-- **C101 is violated**: "every function has a value everywhere, and the powers of negative numbers to whole numbers are not zero".
The logarithm to the base one and the powers of zero to negative numbers are divisions by zero; (−1) to the power 2³¹ is zero. -/
theorem C101_domain_violated : logBase 2 1 = none ∧ pow 0 (-1) = none ∧ pow (-1) (2 ^ 31) = some 0 ∧ (-1 : ℝ) ^ (2 ^ 31 : Nat) = 1 := by
  refine ⟨?_, ?_, ?_, ?_⟩
  · unfold logBase; norm_num
  · unfold pow; norm_num
  · unfold pow
    rw [if_pos (by norm_num)]
    have e : ⌊(2 ^ 31 : ℝ)⌋ = 2 ^ 31 := by
      rw [Int.floor_eq_iff]; push_cast; norm_num
    rw [e]
    have : wrap (2 ^ 31) = -2 ^ 31 := by decide
    rw [this]
    simp only []
    rw [if_pos (by norm_num)]
  · exact Even.neg_one_pow ⟨2 ^ 30, by norm_num⟩

/-- **C101.** `faceforward` with three arguments gives the vector or its opposite, according to the side of the reference that is
seen; with two arguments it gives the one of them on the side of the surface that is seen. -/
theorem C101_faceforward (n i nref ng : Fin 3 → K) :
    (dot i nref ≤ 0 → faceforward2 n i nref = n) ∧ (0 < dot i nref → faceforward2 n i nref = fun k => -n k) ∧
    (faceforward ng n i = n ∨ faceforward ng n i = fun k => -n k) ∧
    (dot i ng ≤ 0 → 0 ≤ dot (faceforward ng n i) ng) ∧ (0 < dot i ng → dot (faceforward ng n i) ng ≤ 0) := by
  have hd : ∀ w : Fin 3 → K, dot (fun k => -i k) w = -dot i w := fun w => by unfold dot; ring
  have hs : ∀ (c : K), dot (fun k => c * n k) ng = c * dot n ng := fun c => by unfold dot; ring
  refine ⟨fun h => ?_, fun h => ?_, ?_, fun h => ?_, fun h => ?_⟩
  · unfold faceforward2
    rw [hd, if_neg (by linarith)]
    funext k; exact mul_one _
  · unfold faceforward2
    rw [hd, if_pos (by linarith)]
    funext k; ring
  · unfold faceforward
    split_ifs
    · left; funext k; ring
    · right; funext k; ring
    · right; funext k; ring
    · left; funext k; ring
  · have e : faceforward ng n i = fun k => (if dot n ng < 0 then (-1 : K) else 1) * n k := by
      unfold faceforward
      rw [hd, if_neg (by linarith)]
      funext k; rw [one_mul]
    rw [e, hs]
    split_ifs with g <;> linarith
  · have e : faceforward ng n i = fun k => (-1 * (if dot n ng < 0 then (-1 : K) else 1)) * n k := by
      unfold faceforward
      rw [hd, if_pos (by linarith)]
    rw [e, hs]
    split_ifs with g <;> linarith

example : faceforward2 (![0, 1, 2] : Fin 3 → ℚ) ![0, 0, 1] ![0, 0, 1] = ![0, -1, -2] := by decide +kernel

/-- **C101**, what holds: with two arguments `faceforward` is the form with three for the normal of the surface, if the vector is on
its side. (Missing: see the violation.) -/
theorem C101_faceforward_partial (n i ng : Fin 3 → K) (h : 0 ≤ dot n ng) : faceforward ng n i = faceforward2 n i ng := by
  unfold faceforward faceforward2
  rw [if_neg (not_lt.mpr h)]
  funext k; ring

/-- **C101 is violated**: "`faceforward(N, I)` is `faceforward(N, I, Ng)`". They are opposite for a vector on the other side. -/
theorem C101_faceforward_violated :
    faceforward (![0, 0, 1] : Fin 3 → ℚ) ![0, 0, -1] ![0, 0, -1] 2 = 1 ∧
    faceforward2 (![0, 0, -1] : Fin 3 → ℚ) ![0, 0, -1] ![0, 0, 1] 2 = -1 := by decide +kernel

/-- **C101.** `normalize` gives every running point the unit vector of its own vector, although it keeps the last one it has
computed, and leaves the other points as they are; if nothing varies it does so for the first point only. -/
theorem C101_normalize (rs : Nat → Bool) (n : Nat) (hn : 0 < n) (v res : Nat → Fin 3 → ℝ) :
    (∀ g, g < n → rs g = true → v g ≠ 0 →
      dot (normalize true rs n v res g) (normalize true rs n v res g) = 1 ∧ ∃ c > 0, v g = fun k => c * normalize true rs n v res g k) ∧
    (∀ g, g < n → rs g = true → v g = 0 → normalize true rs n v res g = 0) ∧
    (∀ g, n ≤ g ∨ rs g = false → normalize true rs n v res g = res g) ∧
    normalize false rs n v res 0 = unit (v 0) ∧ (∀ g, 0 < g → normalize false rs n v res g = res g) := by
  have ht : normalize true rs n v res = fun i => if i < n ∧ rs i = true then unit (v i) else res i := by
    have := (normFold true rs v res (max n 1)).2
    unfold normalize
    rw [if_pos rfl, this, Nat.max_eq_left hn]
    funext i; simp
  have hf : normalize false rs n v res = fun i => if i < 1 then unit (v i) else res i := by
    have := (normFold false rs v res 1).2
    unfold normalize
    rw [if_neg (by decide), this]
    funext i; simp
  rw [ht, hf]
  refine ⟨fun g h1 h2 h3 => ?_, fun g h1 h2 h3 => ?_, fun g h => ?_, ?_, fun g h => ?_⟩
  · simp only [h1, h2, and_self, if_true]
    exact unit_sq _ h3
  · simp only [h1, h2, and_self, if_true, h3]
    unfold unit dot
    funext k; simp
  · simp only []
    rw [if_neg]
    rintro ⟨a, b⟩
    rcases h with h | h
    · omega
    · rw [h] at b; cases b
  · simp
  · simp only []
    rw [if_neg (by omega)]

end Verif.Shader.Arith
