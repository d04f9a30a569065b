import Verif.Tex.MixedProps
import Mathlib.Tactic.IntervalCases

/-!
# Layout of pixels and conversions of values
-/

namespace Verif.Tex.Mixed

/-! ### Layout -/

theorem loop_packed (js : List Info) : ∀ (is : List Info),
    offsetLoop is ((List.range js.length).map (before js)) (whole js) =
      ((List.range (js ++ is).length).map (before (js ++ is)), whole (js ++ is)) := by
  intro is
  induction is generalizing js with
  | nil => simp [offsetLoop]
  | cons c cs ih =>
    have h1 : (List.range (js ++ [c]).length).map (before (js ++ [c])) =
        (List.range js.length).map (before js) ++ [whole js] := by
      rw [List.length_append, List.length_singleton, List.range_succ, List.map_append]
      congr 1
      · apply List.map_congr_left
        intro i hi
        have := List.mem_range.mp hi
        unfold before
        rw [List.take_append_of_le_length (by omega)]
      · simp [before, whole]
    have h2 : whole (js ++ [c]) = whole js + size c.ty := by simp [whole]
    rw [offsetLoop, ← h1, ← h2, ih (js ++ [c])]
    simp

theorem recompute_packed (l : CList) : Packed l.recompute ∧ l.recompute.chans = l.chans := by
  have := loop_packed [] l.chans
  simp only [List.length_nil, List.range_zero, List.map_nil, List.nil_append] at this
  have hw : whole [] = 0 := rfl
  rw [hw] at this
  unfold CList.recompute Packed
  simp only
  rw [this]
  exact ⟨⟨rfl, rfl⟩, trivial⟩

theorem add_packed {l : CList} (h : Packed l) (i : Info) : Packed (l.add i) := by
  unfold CList.add Packed
  simp only
  constructor
  · rw [List.length_append, List.length_singleton, List.range_succ, List.map_append, h.1]
    congr 1
    · apply List.map_congr_left
      intro j hj
      have := List.mem_range.mp hj
      unfold before
      rw [List.take_append_of_le_length (by omega)]
    · rw [h.2]
      simp [before, whole]
  · rw [h.2]
    simp [whole]

theorem unnamed_packed {l : CList} (h : Packed l) (t : Ty) : ∀ n, Packed (l.addUnnamed t n)
  | 0 => h
  | n + 1 => add_packed (unnamed_packed h t n) _

theorem takeName_perm {n : List Char} : ∀ {is : List Info} {i : Info} {rest : List Info},
    takeName n is = some (i, rest) → (i :: rest).Perm is ∧ i.name = n ∧
      rest.filter (fun c => c.name ≠ n) = is.filter (fun c => c.name ≠ n)
  | [], _, _, h => by cases h
  | c :: cs, i, rest, h => by
    unfold takeName at h
    by_cases hc : c.name = n
    · rw [if_pos hc] at h
      cases h
      refine ⟨List.Perm.refl _, hc, ?_⟩
      rw [List.filter_cons_of_neg (by simpa using hc)]
    · rw [if_neg hc] at h
      cases ht : takeName n cs with
      | none => rw [ht] at h; cases h
      | some p =>
        obtain ⟨j, js⟩ := p
        rw [ht] at h
        cases h
        obtain ⟨h1, h2, h3⟩ := takeName_perm ht
        refine ⟨?_, h2, ?_⟩
        · exact (List.Perm.swap _ _ _).trans (List.Perm.cons _ h1)
        · rw [List.filter_cons_of_pos (by simpa using hc),
            List.filter_cons_of_pos (by simpa using hc), h3]

theorem reorderLoop_perm : ∀ (ns : List (List Char)) (new old : List Info),
    (reorderLoop ns new old).Perm (new ++ old)
  | [], new, old => List.Perm.refl _
  | n :: ns, new, old => by
    rw [reorderLoop]
    cases ht : takeName n old with
    | none => exact reorderLoop_perm ns new old
    | some p =>
      obtain ⟨i, rest⟩ := p
      refine (reorderLoop_perm ns _ _).trans ?_
      rw [List.append_assoc]
      exact List.Perm.append_left _ (takeName_perm ht).1

/-- C82.  However a list of channels is made, the offsets of its channels are those of channels
packed one after the other, and a pixel has the bytes of its channels; reordering keeps the channels
that are there. -/
theorem C82_layout (l : CList) (hl : Packed l) (i : Info) (t : Ty) (n : Nat) :
    Packed .empty ∧ Packed (l.add i) ∧ (l.add i).chans = l.chans ++ [i] ∧
      Packed (l.addUnnamed t n) ∧ Packed l.clear ∧ l.clear.chans = [] ∧
      Packed l.reorder ∧ l.reorder.chans.Perm l.chans := by
  refine ⟨⟨rfl, rfl⟩, add_packed hl i, rfl, unnamed_packed hl t n, (recompute_packed _).1, rfl,
    ?_, ?_⟩
  · unfold CList.reorder
    split
    · exact hl
    · exact (recompute_packed _).1
  · unfold CList.reorder
    split
    · exact List.Perm.refl _
    · rw [(recompute_packed _).2]
      exact reorderLoop_perm _ _ _

theorem takeName_none {n : List Char} : ∀ {is : List Info}, takeName n is = none ↔
    ∀ c ∈ is, c.name ≠ n
  | [] => by simp [takeName]
  | c :: cs => by
    have ih := takeName_none (n := n) (is := cs)
    unfold takeName
    by_cases hc : c.name = n
    · simp [hc]
    · rw [if_neg hc]
      cases ht : takeName n cs with
      | none =>
        rw [ht] at ih
        simp [hc]
        exact ih.mp rfl
      | some p =>
        rw [ht] at ih
        simp [hc]
        by_contra hno
        have := ih.mpr (by
          intro c' hc' e
          exact hno ⟨c', hc', e⟩)
        cases this

/-- Names in the order that is wanted: `r`, `g`, `b` and `a` are the first ones, as far as they are
there, and in this order, and the others follow. -/
def Ordered (is : List Info) : Prop :=
  ∃ s : List Info, ∃ rest : List Info, is = s ++ rest ∧
    (s.map Info.name).Sublist [['r'], ['g'], ['b'], ['a']] ∧
    ∀ n ∈ [['r'], ['g'], ['b'], ['a']], (∃ c ∈ is, c.name = n) → ∃ c ∈ s, c.name = n

theorem reorderLoop_ordered : ∀ (ns : List (List Char)) (new old : List Info),
    ∃ s rest : List Info, reorderLoop ns new old = new ++ s ++ rest ∧
      (s.map Info.name).Sublist ns ∧
      ∀ n ∈ ns, (∃ c ∈ old, c.name = n) → ns.Nodup → ∃ c ∈ s, c.name = n
  | [], new, old => ⟨[], old, by simp [reorderLoop], List.Sublist.refl _, by simp⟩
  | n :: ns, new, old => by
    rw [reorderLoop]
    cases ht : takeName n old with
    | none =>
      obtain ⟨s, rest, h1, h2, h3⟩ := reorderLoop_ordered ns new old
      refine ⟨s, rest, h1, List.Sublist.cons _ h2, ?_⟩
      intro m hm hc hnd
      rcases List.mem_cons.mp hm with rfl | hm
      · obtain ⟨c, hc, e⟩ := hc
        exact absurd e (takeName_none.mp ht c hc)
      · exact h3 m hm hc (List.nodup_cons.mp hnd).2
    | some p =>
      obtain ⟨i, rs⟩ := p
      obtain ⟨hp, hi, _⟩ := takeName_perm ht
      obtain ⟨s, rest, h1, h2, h3⟩ := reorderLoop_ordered ns (new ++ [i]) rs
      refine ⟨i :: s, rest, by simpa using h1, ?_, ?_⟩
      · rw [List.map_cons, hi]
        exact List.Sublist.cons_cons _ h2
      · intro m hm hc hnd
        rcases List.mem_cons.mp hm with rfl | hm
        · exact ⟨i, by simp, hi⟩
        · obtain ⟨c, hc, e⟩ := hc
          have hne : m ≠ n := fun e' => (List.nodup_cons.mp hnd).1 (e' ▸ hm)
          have hcr : c ∈ rs := by
            have := hp.mem_iff.mpr hc
            rcases List.mem_cons.mp this with rfl | h
            · exact absurd (e.symm.trans hi) hne
            · exact h
          obtain ⟨c', hc', e'⟩ := h3 m hm ⟨c, hcr, e⟩ (List.nodup_cons.mp hnd).2
          exact ⟨c', by simp [hc'], e'⟩

theorem inOrder_split : ∀ (is : List Info) (ns : List (List Char)), inOrder is ns = true →
    ∃ s rest, is = s ++ rest ∧ (s.map Info.name).Sublist ns ∧
      (s.length = ns.length ∨ rest = []) ∧ s.map Info.name = ns.take s.length
  | [], ns, _ => ⟨[], [], rfl, by simp, Or.inr rfl, by simp⟩
  | i :: is, [], _ => ⟨[], i :: is, rfl, by simp, Or.inl rfl, by simp⟩
  | i :: is, n :: ns, h => by
    simp only [inOrder, Bool.and_eq_true, decide_eq_true_eq] at h
    obtain ⟨s, rest, h1, h2, h3, h4⟩ := inOrder_split is ns h.2
    refine ⟨i :: s, rest, by simp [h1], ?_, ?_, ?_⟩
    · rw [List.map_cons, h.1]
      exact List.Sublist.cons_cons _ h2
    · simpa using h3
    · simp [h.1, h4]

/-- C82.  After `reorderChannels` the channels `r`, `g`, `b` and `a` come first and in this order,
those of them that there are; for lists of at least two channels. -/
theorem C82_reorder (l : CList) (h2 : 2 ≤ l.chans.length) : Ordered l.reorder.chans := by
  unfold CList.reorder
  by_cases hc : l.chans.length ≤ 1 ∨ inOrder l.chans desired = true
  · rw [if_pos hc]
    have hi : inOrder l.chans desired = true := hc.resolve_left (by omega)
    obtain ⟨s, rest, h1, h2, h3, h4⟩ := inOrder_split _ _ hi
    refine ⟨s, rest, h1, h2, ?_⟩
    intro n hn hcn
    rcases h3 with h3 | h3
    · have h5 : s.map Info.name = desired := by
        rw [h4, h3, List.take_length]
      have hn' : n ∈ s.map Info.name := by rw [h5]; exact hn
      obtain ⟨c, hc, e⟩ := List.mem_map.mp hn'
      exact ⟨c, hc, e⟩
    · obtain ⟨c, hc, e⟩ := hcn
      rw [h1, h3, List.append_nil] at hc
      exact ⟨c, hc, e⟩
  · rw [if_neg hc, (recompute_packed _).2]
    obtain ⟨s, rest, h1, h2, h3⟩ := reorderLoop_ordered desired [] l.chans
    refine ⟨s, rest, by simpa using h1, h2, ?_⟩
    intro n hn hcn
    obtain ⟨c, hc, e⟩ := hcn
    have hp := reorderLoop_perm desired [] l.chans
    exact h3 n hn ⟨c, hp.mem_iff.mp hc, e⟩ (by decide)

/-! ### Rounding -/

theorem rne_near (x : ℚ) : |(rne x : ℚ) - x| ≤ 1 / 2 := by
  have h1 := Int.floor_le x
  have h2 := Int.lt_floor_add_one x
  unfold rne
  rw [abs_le]
  split
  · constructor <;> linarith
  · split
    · push_cast
      constructor <;> linarith
    · split
      · constructor <;> linarith
      · push_cast
        constructor <;> linarith

theorem rne_int (n : ℤ) : rne (n : ℚ) = n := by
  unfold rne
  rw [Int.floor_intCast, if_pos (by norm_num)]

/-- A number is off by at most a part in `2 ^ 24` of itself. -/
theorem fl_near (x : ℚ) : |fl x - x| ≤ |x| / 2 ^ 24 := by
  unfold fl
  by_cases hx : x = 0
  · rw [if_pos hx, hx]
    simp
  · rw [if_neg hx]
    have hp : (0 : ℚ) < |x| := abs_pos.mpr hx
    have hle := Int.zpow_log_le_self (b := 2) (r := |x|) (by norm_num) hp
    push_cast at hle
    generalize Int.log 2 |x| = e at hle
    have hpos : (0 : ℚ) < (2 : ℚ) ^ (e - 23) := zpow_pos (by norm_num) _
    have hs : (2 : ℚ) ^ e = (2 : ℚ) ^ (e - 23) * 2 ^ 23 := by
      rw [← zpow_natCast (2 : ℚ) 23, ← zpow_add₀ (by norm_num)]
      congr 1
      norm_num
    have hn := rne_near (x / (2 : ℚ) ^ (e - 23))
    generalize (rne (x / (2 : ℚ) ^ (e - 23)) : ℚ) = r at hn
    have he : r * (2 : ℚ) ^ (e - 23) - x = (r - x / (2 : ℚ) ^ (e - 23)) * (2 : ℚ) ^ (e - 23) := by
      rw [sub_mul, div_mul_cancel₀ _ hpos.ne']
    rw [he, abs_mul, abs_of_pos hpos]
    calc |r - x / (2 : ℚ) ^ (e - 23)| * (2 : ℚ) ^ (e - 23) ≤ 1 / 2 * (2 : ℚ) ^ (e - 23) :=
          mul_le_mul_of_nonneg_right hn hpos.le
      _ ≤ |x| / 2 ^ 24 := by
          rw [hs] at hle
          linarith

/-- Small integers are floats. -/
theorem fl_int {n : ℤ} (h : |n| < 2 ^ 24) : fl n = n := by
  unfold fl
  by_cases hx : (n : ℚ) = 0
  · rw [if_pos hx, hx]
  · rw [if_neg hx]
    have hn0 : n ≠ 0 := by exact_mod_cast hx
    have e1 : |(n : ℚ)| = ((n.natAbs : ℕ) : ℚ) := by
      rw [Nat.cast_natAbs, Int.cast_abs]
    rw [e1, Int.log_natCast]
    have hl : Nat.log 2 n.natAbs < 24 := by
      apply Nat.log_lt_of_lt_pow (by omega)
      have := abs_lt.mp h
      omega
    generalize Nat.log 2 n.natAbs = m at hl
    have e2 : (2 : ℚ) ^ ((m : ℤ) - 23) = ((2 : ℚ) ^ (23 - m))⁻¹ := by
      rw [← zpow_natCast (2 : ℚ) (23 - m), ← zpow_neg]
      congr 1
      omega
    rw [e2, div_inv_eq_mul]
    have e3 : (n : ℚ) * (2 : ℚ) ^ (23 - m) = ((n * 2 ^ (23 - m) : ℤ) : ℚ) := by push_cast; rfl
    rw [e3, rne_int]
    push_cast
    rw [mul_assoc, mul_inv_cancel₀ (by positivity), mul_one]

theorem trunc_floor (x : ℚ) : lfloor x = ⌊x⌋ := by
  unfold lfloor trunc
  by_cases h : x < 0
  · rw [if_pos h]
    have hc : ⌊-x⌋ = -⌈x⌉ := Int.floor_neg
    rw [hc, neg_neg]
    by_cases he : x = (⌈x⌉ : ℚ)
    · rw [if_neg (by tauto), sub_zero]
      conv_rhs => rw [he]
      rw [Int.floor_intCast]
    · rw [if_pos ⟨h, he⟩]
      symm
      rw [Int.floor_eq_iff]
      have h1 := Int.le_ceil x
      have h2 := Int.ceil_lt_add_one x
      push_cast
      constructor
      · linarith
      · have : x < (⌈x⌉ : ℚ) := lt_of_le_of_ne h1 he
        linarith
  · rw [if_neg h, if_neg (by tauto), sub_zero]

/-- `lround` is the integer within half of the number. -/
theorem lround_eq {x : ℚ} {n : ℤ} (h1 : (n : ℚ) - 1 / 2 ≤ x) (h2 : x < n + 1 / 2) :
    lround x = n := by
  unfold lround
  rw [trunc_floor]
  have : ⌊x - 1 / 2⌋ = n - 1 := by
    rw [Int.floor_eq_iff]
    push_cast
    constructor <;> linarith
  omega

theorem lround_near (x : ℚ) : |(lround x : ℚ) - x| ≤ 1 / 2 := by
  unfold lround
  rw [trunc_floor]
  have h1 := Int.floor_le (x - 1 / 2)
  have h2 := Int.lt_floor_add_one (x - 1 / 2)
  push_cast
  rw [abs_le]
  constructor <;> linarith

theorem fl_log {x : ℚ} {n : Nat} (h0 : 0 < x) (h1 : (2 : ℚ) ^ n ≤ x) (h2 : x < (2 : ℚ) ^ (n + 1)) :
    fl x = (rne (x / (2 : ℚ) ^ ((n : ℤ) - 23)) : ℚ) * (2 : ℚ) ^ ((n : ℤ) - 23) := by
  have hl : Int.log 2 |x| = n := by
    rw [abs_of_pos h0]
    have hx : (x : ℚ) ≠ 0 := h0.ne'
    apply le_antisymm
    · have := (Int.lt_zpow_iff_log_lt (b := 2) (by norm_num) h0 (x := (n : ℤ) + 1)).mp (by
        push_cast
        exact_mod_cast h2)
      omega
    · have := (Int.zpow_le_iff_le_log (b := 2) (by norm_num) h0 (x := (n : ℤ))).mp (by
        push_cast
        exact_mod_cast h1)
      exact this
  unfold fl
  rw [if_neg h0.ne', hl]

/-! ### Conversions -/

/-- The types of one and two bytes. -/
def Short (t : Ty) : Prop := t = .u8 ∨ t = .s8 ∨ t = .u16 ∨ t = .s16

/-- The lowest number of these types and the number of steps above it. -/
def lowest : Ty → ℤ
  | .s8 => -128
  | .s16 => -32768
  | _ => 0

/-- See `lowest`. -/
def steps : Ty → ℤ
  | .u8 => 255
  | .s8 => 255
  | _ => 65535

theorem short_limits {t : Ty} (ht : Short t) :
    limits t = some (lowest t, lowest t + steps t) ∧ (-32768 ≤ lowest t ∧ lowest t ≤ 0) ∧
      (255 ≤ steps t ∧ steps t ≤ 65535) ∧ lowest t + steps t ≤ 65535 := by
  rcases ht with rfl | rfl | rfl | rfl <;> simp [limits, lowest, steps]

theorem short_fl {t : Ty} (ht : Short t) :
    fl (lowest t : ℤ) = (lowest t : ℚ) ∧ fl ((lowest t + steps t : ℤ) : ℚ) = lowest t + steps t ∧
      fl (((lowest t + steps t : ℤ) : ℚ) - (lowest t : ℚ)) = steps t := by
  obtain ⟨_, h1, h2, h3⟩ := short_limits ht
  refine ⟨fl_int (abs_lt.mpr ⟨by omega, by omega⟩), ?_, ?_⟩
  · rw [fl_int (abs_lt.mpr ⟨by omega, by omega⟩)]
    push_cast
    rfl
  · have : ((lowest t + steps t : ℤ) : ℚ) - (lowest t : ℚ) = ((steps t : ℤ) : ℚ) := by
      push_cast
      ring
    rw [this, fl_int (abs_lt.mpr ⟨by omega, by omega⟩)]

theorem short_bits {t : Ty} (ht : Short t) {bits : Nat} (hb : bits < 256 ^ size t) :
    lowest t ≤ ofBits (lowest t) (size t) bits ∧
      ofBits (lowest t) (size t) bits ≤ lowest t + steps t ∧
      toBits (size t) (ofBits (lowest t) (size t) bits) = bits := by
  rcases ht with rfl | rfl | rfl | rfl <;>
    simp only [size, lowest, steps, ofBits, toBits] at * <;> norm_num at * <;>
    (try split) <;> omega

theorem short_back {t : Ty} (ht : Short t) {v : ℤ} (h1 : lowest t ≤ v)
    (h2 : v ≤ lowest t + steps t) :
    toBits (size t) v < 256 ^ size t ∧ ofBits (lowest t) (size t) (toBits (size t) v) = v := by
  rcases ht with rfl | rfl | rfl | rfl <;>
    simp only [size, lowest, steps, ofBits, toBits] at * <;> norm_num at * <;>
    (try split) <;> omega

theorem short_toFloat {t : Ty} (k : Codec) (ht : Short t) {bits : Nat} (hb : bits < 256 ^ size t) :
    toFloat k t bits =
      fl (((ofBits (lowest t) (size t) bits - lowest t : ℤ) : ℚ) / (steps t : ℚ)) := by
  obtain ⟨hl, h1, h2, h3⟩ := short_limits ht
  obtain ⟨f1, f2, f3⟩ := short_fl ht
  obtain ⟨b1, b2, _⟩ := short_bits ht hb
  unfold toFloat
  rw [hl]
  simp only
  generalize ofBits (lowest t) (size t) bits = v at *
  rw [f1, f2, fl_int (n := v) (abs_lt.mpr ⟨by omega, by omega⟩)]
  have e1 : (v : ℚ) - (lowest t : ℚ) = ((v - lowest t : ℤ) : ℚ) := by push_cast; rfl
  have e2 : ((lowest t : ℚ) + (steps t : ℚ)) - (lowest t : ℚ) = ((steps t : ℤ) : ℚ) := by ring
  rw [e1, e2, fl_int (n := v - lowest t) (abs_lt.mpr ⟨by omega, by omega⟩),
    fl_int (n := steps t) (abs_lt.mpr ⟨by omega, by omega⟩)]

theorem clamp_range (x : ℚ) : 0 ≤ clamp x 0 1 ∧ clamp x 0 1 ≤ 1 ∧
    clamp x 0 1 = max 0 (min x 1) := by
  unfold clamp
  split
  · rename_i h
    exact ⟨le_rfl, by norm_num, by rw [min_eq_left (by linarith), max_eq_left h.le]⟩
  · rename_i h
    split
    · rename_i h'
      exact ⟨by norm_num, le_rfl, by rw [min_eq_right h'.le, max_eq_right (by norm_num)]⟩
    · rename_i h'
      exact ⟨not_lt.mp h, not_lt.mp h', by
        rw [min_eq_left (not_lt.mp h'), max_eq_right (not_lt.mp h)]⟩

/-- What is rounded to an integer is close to the place of the value on the scale of the type. -/
theorem short_scaled {t : Ty} (ht : Short t) (x : ℚ) :
    |fl (fl (clamp x 0 1 * (steps t : ℚ)) + (lowest t : ℚ)) -
      (clamp x 0 1 * (steps t : ℚ) + lowest t)| ≤ 1 / 127 := by
  obtain ⟨_, h1, h2, h3⟩ := short_limits ht
  obtain ⟨c1, c2, _⟩ := clamp_range x
  generalize clamp x 0 1 = c at *
  have hN1 : (255 : ℚ) ≤ steps t := by exact_mod_cast h2.1
  have hN2 : (steps t : ℚ) ≤ 65535 := by exact_mod_cast h2.2
  have hL1 : (-32768 : ℚ) ≤ lowest t := by exact_mod_cast h1.1
  have hL2 : (lowest t : ℚ) ≤ 0 := by exact_mod_cast h1.2
  generalize (steps t : ℚ) = N at *
  generalize (lowest t : ℚ) = L at *
  have hp : 0 ≤ c * N := mul_nonneg c1 (by linarith)
  have hq : c * N ≤ 65535 := by nlinarith
  have e1 := fl_near (c * N)
  rw [abs_of_nonneg hp] at e1
  have e2 := fl_near (fl (c * N) + L)
  obtain ⟨a1, a2⟩ := abs_le.mp e1
  have hb : |fl (c * N) + L| ≤ 65536 := by
    rw [abs_le]
    constructor <;> linarith
  obtain ⟨a3, a4⟩ := abs_le.mp e2
  rw [abs_le]
  constructor <;> linarith

theorem short_fromFloat {t : Ty} (k : Codec) (ht : Short t) (x : ℚ) :
    fromFloat k t x = toBits (size t)
      (lround (fl (fl (clamp x 0 1 * (steps t : ℚ)) + (lowest t : ℚ)))) := by
  obtain ⟨hl, h1, h2, h3⟩ := short_limits ht
  obtain ⟨f1, f2, f3⟩ := short_fl ht
  unfold fromFloat
  rw [hl]
  simp only
  rw [f1, f2]
  have e2 : ((lowest t : ℚ) + (steps t : ℚ)) - (lowest t : ℚ) = ((steps t : ℤ) : ℚ) := by ring
  rw [e2, fl_int (n := steps t) (abs_lt.mpr ⟨by omega, by omega⟩)]

theorem short_hits {t : Ty} (ht : Short t) {x : ℚ} {v : ℤ}
    (h : |clamp x 0 1 * (steps t : ℚ) + lowest t - v| ≤ 1 / 4) :
    lround (fl (fl (clamp x 0 1 * (steps t : ℚ)) + (lowest t : ℚ))) = v := by
  have hs := short_scaled ht x
  generalize fl (fl (clamp x 0 1 * (steps t : ℚ)) + (lowest t : ℚ)) = q at *
  obtain ⟨a1, a2⟩ := abs_le.mp h
  obtain ⟨a3, a4⟩ := abs_le.mp hs
  exact lround_eq (by linarith) (by linarith)

/-- C82.  The numbers of the types of one and two bytes come back from floats as they went. -/
theorem C82_back (k : Codec) {t : Ty} (ht : Short t) {bits : Nat} (hb : bits < 256 ^ size t) :
    fromFloat k t (toFloat k t bits) = bits := by
  obtain ⟨_, h1, h2, h3⟩ := short_limits ht
  obtain ⟨b1, b2, b3⟩ := short_bits ht hb
  rw [short_fromFloat k ht, short_toFloat k ht hb]
  conv_rhs => rw [← b3]
  congr 1
  apply short_hits ht
  generalize ofBits (lowest t) (size t) bits = v at *
  have hN1 : (255 : ℚ) ≤ steps t := by exact_mod_cast h2.1
  have hN2 : (steps t : ℚ) ≤ 65535 := by exact_mod_cast h2.2
  have hv1 : (0 : ℚ) ≤ ((v - lowest t : ℤ) : ℚ) := by exact_mod_cast (by omega : 0 ≤ v - lowest t)
  have hv2 : ((v - lowest t : ℤ) : ℚ) ≤ steps t := by exact_mod_cast (by omega)
  have ev : (v : ℚ) = ((v - lowest t : ℤ) : ℚ) + lowest t := by push_cast; ring
  rw [ev]
  generalize ((v - lowest t : ℤ) : ℚ) = a at *
  generalize (steps t : ℚ) = N at *
  have hpos : (0 : ℚ) < N := by linarith
  have q1 : 0 ≤ a / N := div_nonneg hv1 hpos.le
  have q2 : a / N ≤ 1 := (div_le_one hpos).mpr hv2
  have e := fl_near (a / N)
  rw [abs_of_nonneg q1] at e
  obtain ⟨c1, c2, c3⟩ := clamp_range (fl (a / N))
  have hc : |clamp (fl (a / N)) 0 1 - a / N| ≤ 1 / 2 ^ 24 := by
    obtain ⟨e1, e2⟩ := abs_le.mp e
    have e3 : a / N / 2 ^ 24 ≤ 1 / 2 ^ 24 := by
      apply div_le_div_of_nonneg_right q2 (by norm_num)
    rw [abs_le]
    unfold clamp
    split
    · rename_i hh
      constructor <;> linarith
    · split
      · rename_i hh
        constructor <;> linarith
      · constructor <;> linarith
  generalize clamp (fl (a / N)) 0 1 = c at *
  have ea : a = a / N * N := by field_simp
  have : c * N + lowest t - (a + lowest t) = (c - a / N) * N := by
    rw [sub_mul, ← ea]
    ring
  rw [this, abs_mul, abs_of_pos hpos]
  calc |c - a / N| * N ≤ 1 / 2 ^ 24 * 65535 :=
        mul_le_mul hc hN2 hpos.le (by norm_num)
    _ ≤ 1 / 4 := by norm_num

/-- C82.  A value stored in a type of one or two bytes is read back within little more than half a
step of it, if it is between zero and one; what is below is read as zero, what is above as one. -/
theorem C82_close (k : Codec) {t : Ty} (ht : Short t) (x : ℚ) :
    fromFloat k t x < 256 ^ size t ∧
      |toFloat k t (fromFloat k t x) - max 0 (min x 1)| ≤ (1 / 2 + 1 / 64) / steps t ∧
      (x ≤ 0 → toFloat k t (fromFloat k t x) = 0) ∧
      (1 ≤ x → toFloat k t (fromFloat k t x) = 1) := by
  obtain ⟨_, h1, h2, h3⟩ := short_limits ht
  have hs := short_scaled ht x
  obtain ⟨c1, c2, c3⟩ := clamp_range x
  have hN1 : (255 : ℚ) ≤ steps t := by exact_mod_cast h2.1
  have hN2 : (steps t : ℚ) ≤ 65535 := by exact_mod_cast h2.2
  have hpos : (0 : ℚ) < steps t := by linarith
  have hn := lround_near (fl (fl (clamp x 0 1 * (steps t : ℚ)) + (lowest t : ℚ)))
  have hlo : clamp x 0 1 = 0 →
      lround (fl (fl (clamp x 0 1 * (steps t : ℚ)) + (lowest t : ℚ))) = lowest t := by
    intro e
    apply short_hits ht
    rw [e]
    norm_num
  have hhi : clamp x 0 1 = 1 →
      lround (fl (fl (clamp x 0 1 * (steps t : ℚ)) + (lowest t : ℚ))) = lowest t + steps t := by
    intro e
    apply short_hits ht
    rw [e]
    push_cast
    ring_nf
    norm_num
  rw [short_fromFloat k ht, ← c3]
  generalize hv : lround (fl (fl (clamp x 0 1 * (steps t : ℚ)) + (lowest t : ℚ))) = v at *
  generalize fl (fl (clamp x 0 1 * (steps t : ℚ)) + (lowest t : ℚ)) = q at *
  obtain ⟨s1, s2⟩ := abs_le.mp hs
  obtain ⟨n1, n2⟩ := abs_le.mp hn
  have hp : 0 ≤ clamp x 0 1 * (steps t : ℚ) := mul_nonneg c1 hpos.le
  have hq : clamp x 0 1 * (steps t : ℚ) ≤ steps t := by nlinarith
  have v1 : lowest t ≤ v := by
    by_contra hc
    have : v + 1 ≤ lowest t := by omega
    have : (v : ℚ) + 1 ≤ lowest t := by exact_mod_cast this
    linarith
  have v2 : v ≤ lowest t + steps t := by
    by_contra hc
    have : lowest t + steps t + 1 ≤ v := by omega
    have : (lowest t : ℚ) + steps t + 1 ≤ v := by exact_mod_cast this
    linarith
  obtain ⟨b1, b2⟩ := short_back ht v1 v2
  have hf := short_toFloat k ht b1
  rw [b2] at hf
  refine ⟨b1, ?_, ?_, ?_⟩
  · rw [hf]
    have ha0 : (0 : ℚ) ≤ ((v - lowest t : ℤ) : ℚ) := by exact_mod_cast (by omega : 0 ≤ v - lowest t)
    have ha1 : ((v - lowest t : ℤ) : ℚ) ≤ steps t := by exact_mod_cast (by omega)
    have ev : (v : ℚ) = ((v - lowest t : ℤ) : ℚ) + lowest t := by push_cast; ring
    rw [ev] at n1 n2
    generalize ((v - lowest t : ℤ) : ℚ) = a at *
    generalize clamp x 0 1 = c at *
    generalize (steps t : ℚ) = N at *
    have q1 : 0 ≤ a / N := div_nonneg ha0 hpos.le
    have q2 : a / N ≤ 1 := (div_le_one hpos).mpr ha1
    have e := fl_near (a / N)
    rw [abs_of_nonneg q1] at e
    have d1 : |a / N - c| ≤ (1 / 2 + 1 / 127) / N := by
      have : a / N - c = (a - c * N) / N := by field_simp
      rw [this, abs_div, abs_of_pos hpos]
      apply div_le_div_of_nonneg_right _ hpos.le
      rw [abs_le]
      constructor <;> linarith
    have d2 : a / N / 2 ^ 24 ≤ (1 / 255) / N := by
      rw [div_div, div_le_div_iff₀ (by positivity) hpos]
      nlinarith
    have e3 : (1 / 2 + 1 / 64) / N ≥ (1 / 2 + 1 / 127) / N + (1 / 255) / N := by
      rw [ge_iff_le, ← add_div]
      apply div_le_div_of_nonneg_right _ hpos.le
      norm_num
    have := abs_sub_le (fl (a / N)) (a / N) c
    linarith
  · intro hx
    have : clamp x 0 1 = 0 := by
      rw [c3, min_eq_left (by linarith), max_eq_left hx]
    rw [hf, hlo this]
    simp [fl]
  · intro hx
    have : clamp x 0 1 = 1 := by
      rw [c3, min_eq_right hx, max_eq_right (by norm_num)]
    rw [hf, hhi this]
    have : ((lowest t + steps t - lowest t : ℤ) : ℚ) / (steps t : ℚ) = ((1 : ℤ) : ℚ) := by
      push_cast
      rw [add_sub_cancel_left, div_self hpos.ne']
    rw [this, fl_int (by norm_num)]
    norm_num

/-- C82.  The channels of four-byte integers turn one into the lowest number of the type, so that
white is read back as black. -/
theorem C82_long_violated (k : Codec) :
    fromFloat k .u32 1 = 0 ∧ toFloat k .u32 0 = 0 ∧
      fromFloat k .s32 1 = 2147483648 ∧ toFloat k .s32 2147483648 = 0 := by
  have f1 : fl 4294967295 = 4294967296 := by
    rw [fl_log (n := 31) (by norm_num) (by norm_num) (by norm_num)]
    norm_num [rne]
  have f2 : fl 4294967296 = 4294967296 := by
    rw [fl_log (n := 32) (by norm_num) (by norm_num) (by norm_num)]
    norm_num [rne]
  have f3 : fl 2147483647 = 2147483648 := by
    rw [fl_log (n := 30) (by norm_num) (by norm_num) (by norm_num)]
    norm_num [rne]
  have f4 : fl 2147483648 = 2147483648 := by
    rw [fl_log (n := 31) (by norm_num) (by norm_num) (by norm_num)]
    norm_num [rne]
  have fneg : fl (-2147483648) = -2147483648 := by
    have hl : Int.log 2 |(-2147483648 : ℚ)| = 31 := by
      rw [abs_neg]
      have : |(2147483648 : ℚ)| = ((2147483648 : ℕ) : ℚ) := by norm_num
      rw [this, Int.log_natCast, show (2147483648 : ℕ) = 2 ^ 31 by norm_num,
        Nat.log_pow (by norm_num)]
      rfl
    unfold fl
    rw [hl]
    norm_num [rne]
  have f0 : fl 0 = 0 := by simp [fl]
  refine ⟨?_, ?_, ?_, ?_⟩
  · simp only [fromFloat, limits, clamp]
    norm_num [f0, f1, f2]
    rw [lround_eq (n := 4294967296) (by norm_num) (by norm_num)]
    decide
  · simp only [toFloat, limits, ofBits]
    norm_num [f0]
  · simp only [fromFloat, limits, clamp]
    norm_num [f3, f4, fneg, f2]
    rw [lround_eq (n := 2147483648) (by norm_num) (by norm_num)]
    decide
  · simp only [toFloat, limits, ofBits, size]
    norm_num [fneg, f0]

end Verif.Tex.Mixed
