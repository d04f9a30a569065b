import Verif.Util.ArgParseSpec
import Mathlib.Tactic.IntervalCases
import Mathlib.Data.List.Induction
import Mathlib.Data.List.TakeWhile

/-
Lemmas: which texts `parseInt` takes, and for what.
-/
namespace Verif.Util.Args
open Spec

theorem ofNat_inj_of (c : Char) (n : Nat) (h : c.toNat = n) : c = Char.ofNat n := by
  rw [← h, Char.ofNat_toNat]

theorem digit_iff (c : Char) (i : Nat) : Digit c i ↔ digit c = i ∧ i < 16 := by
  constructor
  · intro h
    cases h with
    | dec i hi => interval_cases i <;> decide +kernel
    | low i hi => interval_cases i <;> decide +kernel
    | up i hi => interval_cases i <;> decide +kernel
  · rintro ⟨h, hi⟩
    unfold digit at h
    split_ifs at h with h1 h2 h3
    · obtain ⟨a, b⟩ := h1
      have a' : 48 ≤ c.toNat := a
      have b' : c.toNat ≤ 57 := b
      have h' : c.toNat - 48 = i := h
      have := Digit.dec i (by omega)
      rwa [← ofNat_inj_of c (48 + i) (by omega)] at this
    · obtain ⟨a, b⟩ := h2
      have a' : 97 ≤ c.toNat := a
      have b' : c.toNat ≤ 102 := b
      have h' : c.toNat - 97 + 10 = i := h
      have := Digit.low (i - 10) (by omega)
      rw [← ofNat_inj_of c (97 + (i - 10)) (by omega)] at this
      have e : 10 + (i - 10) = i := by omega
      rwa [e] at this
    · obtain ⟨a, b⟩ := h3
      have a' : 65 ≤ c.toNat := a
      have b' : c.toNat ≤ 70 := b
      have h' : c.toNat - 65 + 10 = i := h
      have := Digit.up (i - 10) (by omega)
      rw [← ofNat_inj_of c (65 + (i - 10)) (by omega)] at this
      have e : 10 + (i - 10) = i := by omega
      rwa [e] at this
    · omega

/-- The value of a row of digits. -/
def rowVal (base : Nat) (t : Txt) (acc : Nat) : Nat :=
  t.foldl (fun a c => a * base + digit c) acc

theorem numeral_iff (base : Nat) (hb : base ≤ 16) (t : Txt) (n : Nat) :
    Numeral base t n ↔ t ≠ [] ∧ (∀ c ∈ t, digit c < base) ∧ n = rowVal base t 0 := by
  constructor
  · intro h
    induction h with
    | one c i hd hi =>
      obtain ⟨e, _⟩ := (digit_iff c i).mp hd
      refine ⟨by simp, ?_, ?_⟩
      · intro c' hc'
        simp only [List.mem_singleton] at hc'
        subst hc'
        omega
      · simp [rowVal, e]
    | snoc t n c i _ hd hi ih =>
      obtain ⟨e, _⟩ := (digit_iff c i).mp hd
      obtain ⟨_, h2, h3⟩ := ih
      refine ⟨by simp, ?_, ?_⟩
      · intro c' hc'
        rcases List.mem_append.mp hc' with h | h
        · exact h2 c' h
        · simp only [List.mem_singleton] at h
          subst h
          omega
      · unfold rowVal at h3 ⊢
        rw [List.foldl_append, ← h3]
        simp [e]
  · rintro ⟨h1, h2, h3⟩
    subst h3
    induction t using List.reverseRecOn with
    | nil => exact absurd rfl h1
    | append_singleton t c ih =>
      have hc : digit c < base := h2 c (by simp)
      have hd : Digit c (digit c) := (digit_iff c _).mpr ⟨rfl, by omega⟩
      by_cases ht : t = []
      · subst ht
        simpa [rowVal] using Numeral.one c _ hd hc
      · have := Numeral.snoc t _ c _ (ih ht fun x hx => h2 x (by simp [hx])) hd hc
        unfold rowVal at this ⊢
        rw [List.foldl_append]
        simpa using this

theorem scan_all (base : Nat) (t : Txt) : ∀ acc, (∀ c ∈ t, digit c < base) →
    scanDigits base t acc = (rowVal base t acc, []) := by
  induction t with
  | nil => intro acc _; rfl
  | cons c t ih =>
    intro acc h
    unfold scanDigits
    rw [if_pos (h c (by simp)), ih _ fun x hx => h x (by simp [hx])]
    rfl

theorem scan_rest (base : Nat) (t : Txt) : ∀ acc, (scanDigits base t acc).2 = [] →
    ∀ c ∈ t, digit c < base := by
  induction t with
  | nil => intro acc _ c hc; simp at hc
  | cons c t ih =>
    intro acc h x hx
    unfold scanDigits at h
    by_cases hc : digit c < base
    · rw [if_pos hc] at h
      rcases List.mem_cons.mp hx with rfl | hx
      · exact hc
      · exact ih _ h x hx
    · rw [if_neg hc] at h
      simp at h

theorem digit_zero : digit '0' = 0 := by decide +kernel

theorem digit_x (x : Char) (h : x = 'x' ∨ x = 'X') : digit x = 36 := by
  rcases h with rfl | rfl <;> decide +kernel

theorem baseOf_cases (t : Txt) :
    (∃ x d t', t = '0' :: x :: d :: t' ∧ (x = 'x' ∨ x = 'X') ∧ baseOf t = (16, d :: t')) ∨
    (t.head? = some '0' ∧ baseOf t = (8, t)) ∨ (t.head? ≠ some '0' ∧ baseOf t = (10, t)) := by
  unfold baseOf
  split
  · rename_i x d t'
    by_cases hc : ((x == 'x' || x == 'X') && decide (digit d < 16)) = true
    · left
      refine ⟨x, d, t', rfl, ?_, by rw [if_pos hc]⟩
      simp only [Bool.and_eq_true, Bool.or_eq_true, beq_iff_eq] at hc
      exact hc.1
    · right; left
      exact ⟨rfl, by rw [if_neg hc]⟩
  · right; left
    exact ⟨rfl, rfl⟩
  · rename_i h4 h5
    right; right
    refine ⟨?_, rfl⟩
    intro h0
    cases t with
    | nil => simp at h0
    | cons c t' =>
      simp only [List.head?_cons, Option.some.injEq] at h0
      subst h0
      exact h5 t' rfl

/-- The digits found by `baseOf` are those of a magnitude. -/
theorem magnitude_iff (t : Txt) (n : Nat) :
    Magnitude t n ↔ (baseOf t).2 ≠ [] ∧ (∀ c ∈ (baseOf t).2, digit c < (baseOf t).1) ∧
      n = rowVal (baseOf t).1 (baseOf t).2 0 := by
  constructor
  · intro h
    cases h with
    | dec t n hn h0 =>
      have e : baseOf t = (10, t) := by
        unfold baseOf
        split
        · simp at h0
        · simp at h0
        · rfl
      rw [e]
      exact (numeral_iff 10 (by omega) t n).mp hn
    | oct t n hn h0 =>
      have hn' := (numeral_iff 8 (by omega) t n).mp hn
      have e : baseOf t = (8, t) := by
        unfold baseOf
        split
        · rename_i x d t'
          have hx := hn'.2.1 x (by simp)
          have : ¬ ((x == 'x' || x == 'X') = true) := by
            intro hh
            have : x = 'x' ∨ x = 'X' := by simpa using hh
            have := digit_x x this
            omega
          simp [this]
        · rfl
        · rename_i h1 h2
          cases t with
          | nil => simp at h0
          | cons c t' =>
            simp only [List.head?_cons, Option.some.injEq] at h0
            subst h0
            exact absurd rfl (h2 t')
      rw [e]
      exact hn'
    | hex x t n hx hn =>
      have hn' := (numeral_iff 16 (by omega) t n).mp hn
      cases t with
      | nil => exact absurd rfl hn'.1
      | cons d t =>
        have hd := hn'.2.1 d (by simp)
        have e : baseOf ('0' :: x :: d :: t) = (16, d :: t) := by
          unfold baseOf
          have hx' : (x == 'x' || x == 'X') = true := by simpa using hx
          simp [hx', hd]
        rw [e]
        exact hn'
  · intro h
    rcases baseOf_cases t with ⟨x, d, t', rfl, hx, e⟩ | ⟨h0, e⟩ | ⟨h0, e⟩
    · rw [e] at h
      exact Magnitude.hex x _ n hx ((numeral_iff 16 (by omega) _ n).mpr h)
    · rw [e] at h
      exact Magnitude.oct _ n ((numeral_iff 8 (by omega) _ n).mpr h) h0
    · rw [e] at h
      exact Magnitude.dec _ n ((numeral_iff 10 (by omega) _ n).mpr h) h0

theorem magnitude_head (t : Txt) (n : Nat) (h : Magnitude t n) :
    ∃ c t', t = c :: t' ∧ digit c < 16 := by
  cases h with
  | dec t n hn _ =>
    obtain ⟨h1, h2, _⟩ := (numeral_iff 10 (by omega) t n).mp hn
    cases t with
    | nil => exact absurd rfl h1
    | cons c t => exact ⟨c, t, rfl, by have := h2 c (by simp); omega⟩
  | oct t n hn _ =>
    obtain ⟨h1, h2, _⟩ := (numeral_iff 8 (by omega) t n).mp hn
    cases t with
    | nil => exact absurd rfl h1
    | cons c t => exact ⟨c, t, rfl, by have := h2 c (by simp); omega⟩
  | hex x t n _ _ => exact ⟨'0', _, rfl, by decide +kernel⟩

theorem space_iff (c : Char) : isSpace c = true ↔ c ∈ [' ', '\t', '\n', '\x0b', '\x0c', '\r'] := by
  simp [isSpace, or_assoc]

theorem digit_not_space (c : Char) (h : digit c < 16) : isSpace c = false := by
  by_contra hc
  have := (space_iff c).mp (by simpa using hc)
  simp only [List.mem_cons, List.not_mem_nil, or_false] at this
  rcases this with rfl | rfl | rfl | rfl | rfl | rfl <;> revert h <;> decide +kernel

theorem drop_spaces (ws t : Txt) (c : Char) (t' : Txt) (ht : t = c :: t')
    (hw : ∀ c ∈ ws, c ∈ [' ', '\t', '\n', '\x0b', '\x0c', '\r']) (hc : isSpace c = false) :
    (ws ++ t).dropWhile isSpace = t := by
  subst ht
  induction ws with
  | nil => simp [hc]
  | cons w ws ih =>
    have := (space_iff w).mpr (hw w (by simp))
    simp only [List.cons_append, List.dropWhile_cons, this, if_true]
    exact ih fun c h => hw c (by simp [h])

theorem sign_plain (t : Txt) (c : Char) (t' : Txt) (ht : t = c :: t') (hc : digit c < 16) :
    signOf t = (false, t) := by
  subst ht
  unfold signOf
  split
  · rename_i h; injection h with h _; subst h; exact absurd hc (by decide +kernel)
  · rename_i h; injection h with h _; subst h; exact absurd hc (by decide +kernel)
  · rfl

/-- What `strtol` returns on a text it takes entirely. -/
theorem strtol_of (a : Txt) (neg : Bool) (t : Txt) (n : Nat)
    (hs : signOf (a.dropWhile isSpace) = (neg, t)) (hm : Magnitude t n) :
    strtol a = (clamp64 (if neg then -(n : ℤ) else (n : ℤ)), []) := by
  obtain ⟨h1, h2, h3⟩ := (magnitude_iff t n).mp hm
  unfold strtol
  rw [hs]
  simp only
  generalize hb : baseOf t = b at *
  obtain ⟨b1, b2⟩ := b
  simp only at h1 h2 h3 ⊢
  cases b2 with
  | nil => exact absurd rfl h1
  | cons c b2 =>
    simp only
    rw [if_pos (h2 c (by simp)), scan_all _ _ _ h2, ← h3]

theorem parseInt_iff (a : Txt) (v : ℤ) :
    parseInt a = some v ↔ ∃ z, Denotes a z ∧ v = toInt32 (clamp64 z) := by
  constructor
  · intro h
    unfold parseInt at h
    simp only at h
    split_ifs at h with hc
    simp only [not_or, not_not] at hc
    obtain ⟨h1, h2⟩ := hc
    simp only [Option.some.injEq] at h
    have ha : a ≠ [] := by intro hh; subst hh; simp at h2
    -- the whitespace and the sign
    have hsplit : a = a.takeWhile isSpace ++ a.dropWhile isSpace := by simp
    have hws : ∀ c ∈ a.takeWhile isSpace, c ∈ [' ', '\t', '\n', '\x0b', '\x0c', '\r'] := by
      intro c hcc
      exact (space_iff c).mp (List.mem_takeWhile_imp hcc)
    generalize hsg : signOf (a.dropWhile isSpace) = sg at *
    obtain ⟨neg, t⟩ := sg
    -- the magnitude
    have hm : ∃ n, Magnitude t n := by
      unfold strtol at h1
      rw [hsg] at h1
      simp only at h1
      cases hb : (baseOf t).2 with
      | nil =>
        rw [hb] at h1
        exact absurd h1 ha
      | cons c b2 =>
        rw [hb] at h1
        simp only at h1
        by_cases hc : digit c < (baseOf t).1
        · rw [if_pos hc] at h1
          refine ⟨_, (magnitude_iff t _).mpr ⟨by simp [hb], ?_, rfl⟩⟩
          rw [hb]
          exact scan_rest _ _ _ h1
        · rw [if_neg hc] at h1
          exact absurd h1 ha
    obtain ⟨n, hm⟩ := hm
    rw [strtol_of a neg t n hsg hm] at h
    refine ⟨_, ?_, h.symm⟩
    unfold signOf at hsg
    split at hsg
    · rename_i t' he
      obtain ⟨rfl, rfl⟩ := Prod.mk.inj hsg
      rw [hsplit, he]
      exact Denotes.minus _ _ n hws hm
    · rename_i t' he
      obtain ⟨rfl, rfl⟩ := Prod.mk.inj hsg
      rw [hsplit, he]
      exact Denotes.plus _ _ n hws hm
    · obtain ⟨rfl, rfl⟩ := Prod.mk.inj hsg
      have := Denotes.plain _ _ n hws hm
      rw [← hsplit] at this
      exact this
  · rintro ⟨z, hz, rfl⟩
    have key : ∀ neg t (n : Nat), signOf (a.dropWhile isSpace) = (neg, t) → Magnitude t n → a ≠ [] →
        parseInt a = some (toInt32 (clamp64 (if neg then -(n : ℤ) else (n : ℤ)))) := by
      intro neg t n hs hm ha
      unfold parseInt
      rw [strtol_of a neg t n hs hm]
      have : a.length ≠ 0 := by simpa using ha
      simp [ha]
    cases hz with
    | plain ws t n hws hm =>
      obtain ⟨c, t', ht, hc⟩ := magnitude_head t n hm
      have hd := drop_spaces ws t c t' ht hws (digit_not_space c hc)
      have := key false t n (by rw [hd]; exact sign_plain t c t' ht hc) hm (by simp [ht])
      simpa using this
    | plus ws t n hws hm =>
      have hd := drop_spaces ws ('+' :: t) '+' t rfl hws (by decide +kernel)
      have := key false t n (by rw [hd]; rfl) hm (by simp)
      simpa using this
    | minus ws t n hws hm =>
      have hd := drop_spaces ws ('-' :: t) '-' t rfl hws (by decide +kernel)
      have := key true t n (by rw [hd]; rfl) hm (by simp)
      simpa using this

theorem toInt32_clamp (z : ℤ) : toInt32 (clamp64 z) = asInt z := by
  unfold toInt32 clamp64 asInt Int.bmod
  norm_num
  split_ifs <;> omega

theorem parseInt_asInt (a : Txt) (v : ℤ) :
    parseInt a = some v ↔ ∃ z, Denotes a z ∧ v = asInt z := by
  rw [parseInt_iff]
  simp only [toInt32_clamp]

end Verif.Util.Args
