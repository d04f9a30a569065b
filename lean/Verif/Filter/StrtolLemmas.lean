import Verif.Filter.Frames
import Verif.Rib.AsciiProps
/-!
# What `strtol` reads

The number at the start of a text, stated without the model's own helpers.
-/
namespace Verif.Filter.Frames
open Verif.Rib

/-- A `long` holding the nearest value to `v`, converted to `int`. -/
def cInt (v : Int) : Int := Int.bmod (max (-2 ^ 63) (min v (2 ^ 63 - 1))) (2 ^ 32)

/-- White space, an optional sign and digits: a number, reduced to an `int`. -/
def NumberText (w : List Nat) (v : Int) : Prop :=
  ∃ sp sg ds, w = sp ++ (sg ++ ds) ∧ (∀ c ∈ sp, c = 32 ∨ 9 ≤ c ∧ c ≤ 13) ∧
    ((sg = [] ∨ sg = [43]) ∧ v = cInt (numeral ds) ∨
      sg = [45] ∧ v = cInt (-(numeral ds : Int))) ∧
    ds ≠ [] ∧ ∀ c ∈ ds, Digit c

theorem toInt32_eq (v : Int) : toInt32 v = cInt v := by
  simp only [toInt32, cInt, Int.bmod]
  split <;> omega

theorem isDigit_spec (c : Nat) : isDigit c = true ↔ Digit c := by simp [isDigit, Digit]

theorem isDigit_spec_false (c : Nat) : isDigit c = false ↔ ¬ Digit c := by
  rw [← isDigit_spec]; simp

theorem isSpaceC_spec (c : Nat) : isSpaceC c = true ↔ c = 32 ∨ 9 ≤ c ∧ c ≤ 13 := by
  simp [isSpaceC]

theorem mem_takeWhile_of {p : Nat → Bool} {l : List Nat} {c : Nat} (h : c ∈ l.takeWhile p) :
    p c = true :=
  List.all_eq_true.1 (List.all_takeWhile (p := p) (l := l)) c h

theorem head_dropWhile {p : Nat → Bool} {l : List Nat} {c : Nat} (h : c ∈ (l.dropWhile p).head?) :
    p c = false := by
  have := List.head?_dropWhile_not p l
  cases hl : (l.dropWhile p).head? with
  | none => simp [hl] at h
  | some d =>
    rw [hl] at this h
    simp at this h
    rw [← h]; simpa using this

theorem strtolDigits_iff {neg : Bool} {l rest : List Nat} {v : Int} :
    strtolDigits neg l = some (v, rest) ↔
      ∃ ds, l = ds ++ rest ∧ ds ≠ [] ∧ (∀ c ∈ ds, Digit c) ∧ (∀ c ∈ rest.head?, ¬ Digit c) ∧
        v = cInt (if neg then -(numeral ds : Int) else numeral ds) := by
  simp only [strtolDigits]
  constructor
  · intro h
    split at h
    · simp at h
    · rename_i hne
      simp only [Option.some.injEq, Prod.mk.injEq] at h
      obtain ⟨rfl, rfl⟩ := h
      refine ⟨digits l, (List.takeWhile_append_dropWhile (p := isDigit) (l := l)).symm, hne,
        fun c hc => (isDigit_spec c).1 (mem_takeWhile_of hc),
        fun c hc => (isDigit_spec_false c).1 (head_dropWhile hc), ?_⟩
      rw [toInt32_eq, digitsVal_eq]
  · rintro ⟨ds, rfl, hne, hd, hr, rfl⟩
    obtain ⟨h1, h2⟩ := Verif.Rib.takeWhile_digits ds rest (fun c hc => (isDigit_spec c).2 (hd c hc))
      (fun c hc => (isDigit_spec_false c).2 (hr c hc))
    rw [digits, afterDigits, h1, h2, if_neg hne, toInt32_eq, digitsVal_eq]

/-- `strtol` reads a number exactly when the text begins with one, and reads all its digits. -/
theorem strtol_iff {l rest : List Nat} {v : Int} :
    strtol l = some (v, rest) ↔
      ∃ w, l = w ++ rest ∧ NumberText w v ∧ ∀ c ∈ rest.head?, ¬ Digit c := by
  constructor
  · intro h
    unfold strtol at h
    have hsplit := List.takeWhile_append_dropWhile (p := isSpaceC) (l := l)
    have hsp : ∀ c ∈ l.takeWhile isSpaceC, c = 32 ∨ 9 ≤ c ∧ c ≤ 13 :=
      fun c hc => (isSpaceC_spec c).1 (mem_takeWhile_of hc)
    generalize l.takeWhile isSpaceC = sp at hsplit hsp
    split at h
    · simp at h
    · rename_i c r heq
      rw [heq] at hsplit
      by_cases h45 : c = 45
      · rw [if_pos h45] at h
        obtain ⟨ds, rfl, hne, hd, hr, rfl⟩ := strtolDigits_iff.1 h
        exact ⟨sp ++ ([45] ++ ds), by rw [← hsplit, h45]; simp,
          ⟨sp, [45], ds, rfl, hsp, .inr ⟨rfl, rfl⟩, hne, hd⟩, hr⟩
      · rw [if_neg h45] at h
        by_cases h43 : c = 43
        · rw [if_pos h43] at h
          obtain ⟨ds, rfl, hne, hd, hr, rfl⟩ := strtolDigits_iff.1 h
          exact ⟨sp ++ ([43] ++ ds), by rw [← hsplit, h43]; simp,
            ⟨sp, [43], ds, rfl, hsp, .inl ⟨.inr rfl, rfl⟩, hne, hd⟩, hr⟩
        · rw [if_neg h43] at h
          obtain ⟨ds, he, hne, hd, hr, rfl⟩ := strtolDigits_iff.1 h
          exact ⟨sp ++ ([] ++ ds), by rw [← hsplit, he]; simp,
            ⟨sp, [], ds, rfl, hsp, .inl ⟨.inl rfl, rfl⟩, hne, hd⟩, hr⟩
  · rintro ⟨w, rfl, ⟨sp, sg, ds, rfl, hsp, hsg, hne, hd⟩, hr⟩
    obtain ⟨d, ds', rfl⟩ := List.exists_cons_of_ne_nil hne
    have hdd := hd d (by simp)
    have hdrop : (sp ++ (sg ++ d :: ds') ++ rest).dropWhile isSpaceC = sg ++ (d :: ds' ++ rest) := by
      rw [List.append_assoc, List.dropWhile_append_of_pos (fun c hc => (isSpaceC_spec c).2 (hsp c hc))]
      have hds : isSpaceC d = false := by
        simp only [Digit] at hdd
        simp [isSpaceC]; omega
      rcases hsg with ⟨rfl | rfl, _⟩ | ⟨rfl, _⟩
      · simp [hds]
      · simp [isSpaceC]
      · simp [isSpaceC]
    simp only [Digit] at hdd
    rw [strtol, hdrop]
    rcases hsg with ⟨rfl | rfl, rfl⟩ | ⟨rfl, rfl⟩
    · simp only [List.nil_append, List.cons_append]
      rw [if_neg (by omega), if_neg (by omega)]
      exact strtolDigits_iff.2 ⟨_, rfl, hne, hd, hr, rfl⟩
    · simp only [List.cons_append, List.nil_append]
      rw [if_neg (by decide), if_pos trivial]
      exact strtolDigits_iff.2 ⟨_, rfl, hne, hd, hr, rfl⟩
    · simp only [List.cons_append, List.nil_append]
      rw [if_pos trivial]
      exact strtolDigits_iff.2 ⟨_, rfl, hne, hd, hr, rfl⟩

/-- The digits of a number can be extended by the digits that follow. -/
theorem NumberText.extend {w : List Nat} {v : Int} (h : NumberText w v) (r : List Nat) :
    ∃ p, strtol (w ++ r) = some p := by
  obtain ⟨sp, sg, ds, rfl, hsp, hsg, hne, hd⟩ := h
  have hsplit := List.takeWhile_append_dropWhile (p := isDigit) (l := r)
  have hd' : ∀ c ∈ ds ++ r.takeWhile isDigit, Digit c := by
    intro c hc
    rcases List.mem_append.1 hc with hc | hc
    · exact hd c hc
    · exact (isDigit_spec c).1 (mem_takeWhile_of hc)
  have hr : ∀ c ∈ (r.dropWhile isDigit).head?, ¬ Digit c :=
    fun c hc => (isDigit_spec_false c).1 (head_dropWhile hc)
  have hs : ∃ v', (sg = [] ∨ sg = [43]) ∧ v' = cInt (numeral (ds ++ r.takeWhile isDigit)) ∨
      sg = [45] ∧ v' = cInt (-(numeral (ds ++ r.takeWhile isDigit) : Int)) := by
    rcases hsg with ⟨h, -⟩ | ⟨h, -⟩
    · exact ⟨_, .inl ⟨h, rfl⟩⟩
    · exact ⟨_, .inr ⟨h, rfl⟩⟩
  obtain ⟨v', hs⟩ := hs
  refine ⟨(v', r.dropWhile isDigit), strtol_iff.2 ⟨sp ++ (sg ++ (ds ++ r.takeWhile isDigit)), ?_,
    ⟨sp, sg, ds ++ r.takeWhile isDigit, rfl, hsp, hs, by simp [hne], hd'⟩, hr⟩⟩
  simp [hsplit]

/-- `strtol` reads nothing exactly when the text does not begin with a number. -/
theorem strtol_none_iff {l : List Nat} :
    strtol l = none ↔ ∀ w r v, l = w ++ r → ¬ NumberText w v := by
  constructor
  · rintro h w r v rfl hw
    obtain ⟨p, hp⟩ := hw.extend r
    simp [hp] at h
  · intro h
    cases hs : strtol l with
    | none => rfl
    | some p =>
      obtain ⟨v, rest⟩ := p
      obtain ⟨w, hl, hw, -⟩ := strtol_iff.1 hs
      exact absurd hw (h _ _ _ hl)

end Verif.Filter.Frames
