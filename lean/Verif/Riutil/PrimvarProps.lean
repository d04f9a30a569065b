import Verif.Riutil.Primvar
import Verif.Filter.FramesProps
/-!
# C13, C14: declarations and the token dictionary
-/
namespace Verif.Riutil

open Verif.Filter.Frames (strtol strtolDigits cInt isSpaceC digits afterDigits)
open Verif.Rib (isDigit numeral decDigits asciiInt)

/-! ## Specification: words and the grammar -/

/-- The words of a text: brackets are words, blanks separate words. -/
def wordsFrom (cur : List Nat) : List Nat → List (List Nat)
  | [] => if cur = [] then [] else [cur]
  | c :: r =>
    if c = 32 ∨ c = 9 ∨ c = 10 then (if cur = [] then [] else [cur]) ++ wordsFrom [] r
    else if c = 91 ∨ c = 93 then (if cur = [] then [] else [cur]) ++ [c] :: wordsFrom [] r
    else wordsFrom (cur ++ [c]) r

def words (l : List Nat) : List (List Nat) := wordsFrom [] l

def classWords : List (List Char × IClass) :=
  [(['c','o','n','s','t','a','n','t'], .constant), (['u','n','i','f','o','r','m'], .uniform),
   (['v','a','r','y','i','n','g'], .varying), (['v','e','r','t','e','x'], .vertex),
   (['f','a','c','e','v','a','r','y','i','n','g'], .facevarying),
   (['f','a','c','e','v','e','r','t','e','x'], .facevertex)]

def typeWords : List (List Char × PType) :=
  [(['f','l','o','a','t'], .float), (['p','o','i','n','t'], .point), (['c','o','l','o','r'], .color),
   (['i','n','t','e','g','e','r'], .integer), (['i','n','t'], .integer),
   (['s','t','r','i','n','g'], .string), (['v','e','c','t','o','r'], .vector),
   (['n','o','r','m','a','l'], .normal), (['h','p','o','i','n','t'], .hpoint),
   (['p','o','i','n','t','e','r'], .pointer), (['m','a','t','r','i','x'], .matrix),
   (['m','p','o','i','n','t'], .mpoint)]

/-- The word is the given one up to case. -/
def sameWord (w : List Nat) (k : List Char) : Prop :=
  w.map (fun c => if 65 ≤ c ∧ c ≤ 90 then c + 32 else c) = k.map Char.toNat

theorem lower_eq : lower = fun c => if 65 ≤ c ∧ c ≤ 90 then c + 32 else c := by
  funext c
  simp only [lower]
  congr 1
  simp only [eq_iff_iff]
  omega

def IsClass (w : List Nat) (c : IClass) : Prop := ∃ k, (k, c) ∈ classWords ∧ sameWord w k
def IsType (w : List Nat) (t : PType) : Prop := ∃ k, (k, t) ∈ typeWords ∧ sameWord w k

/-- A decimal number, possibly signed, possibly after vertical white space, reduced to 32 bits. -/
def SizeWord (w : List Nat) (v : Int) : Prop :=
  ∃ sp sg ds, w = sp ++ (sg ++ ds) ∧ (∀ c ∈ sp, c = 11 ∨ c = 12 ∨ c = 13) ∧
    ((sg = [] ∨ sg = [43]) ∧ v = cInt (numeral ds) ∨ sg = [45] ∧ v = cInt (-(numeral ds : Int))) ∧
    ds ≠ [] ∧ ∀ c ∈ ds, 48 ≤ c ∧ c ≤ 57

/-- `['[' size ']']`. -/
inductive ArrayPart : List (List Nat) → Int → Prop where
  | none : ArrayPart [] 1
  | size {w v} (h : SizeWord w v) : ArrayPart [[91], w, [93]] v

/-- `[class] type ['[' size ']'] name`, or just a name. -/
inductive Decl : List (List Nat) → Spec → List Nat → Prop where
  | name {n} (hc : ∀ c, ¬ IsClass n c) (ht : ∀ t, ¬ IsType n t) (h1 : n ≠ [91]) (h2 : n ≠ [93]) :
      Decl [n] {} n
  | typed {w t a v n} (ht : IsType w t) (ha : ArrayPart a v) (h1 : n ≠ [91]) (h2 : n ≠ [93]) :
      Decl (w :: (a ++ [n])) { type := t, arraySize := v } n
  | full {k c w t a v n} (hc : IsClass k c) (ht : IsType w t) (ha : ArrayPart a v) (h1 : n ≠ [91])
      (h2 : n ≠ [93]) : Decl (k :: w :: (a ++ [n])) ⟨c, t, v⟩ n

/-- `[class] type ['[' size ']']`. -/
inductive TypeOnly : List (List Nat) → Spec → Prop where
  | typed {w t a v} (ht : IsType w t) (ha : ArrayPart a v) :
      TypeOnly (w :: a) { type := t, arraySize := v }
  | full {k c w t a v} (hc : IsClass k c) (ht : IsType w t) (ha : ArrayPart a v) :
      TypeOnly (k :: w :: a) ⟨c, t, v⟩

/-! ## Words -/

theorem mem_tw {p : Nat → Bool} {l : List Nat} {c : Nat} (h : c ∈ l.takeWhile p) : p c = true := by
  have := List.all_takeWhile (p := p) (l := l)
  exact List.all_eq_true.1 this c h

theorem wordsFrom_blank (cur r : List Nat) (c : Nat) (h : isBlank c = true) :
    wordsFrom cur (c :: r) = (if cur = [] then [] else [cur]) ++ wordsFrom [] r := by
  have : c = 32 ∨ c = 9 ∨ c = 10 := by simpa [isBlank, or_assoc] using h
  rw [wordsFrom, if_pos this]

theorem words_dropBlank (l : List Nat) : words l = words (l.dropWhile isBlank) := by
  induction l with
  | nil => rfl
  | cons c r ih =>
    by_cases h : isBlank c = true
    · rw [List.dropWhile_cons_of_pos h, ← ih, words, wordsFrom_blank _ _ _ h]
      rfl
    · rw [List.dropWhile_cons_of_neg h]

theorem wordsFrom_word (l cur : List Nat) (hc : cur ≠ []) :
    wordsFrom cur l = (cur ++ l.takeWhile inWord) :: words (l.dropWhile inWord) := by
  induction l generalizing cur with
  | nil => simp [wordsFrom, hc, words]
  | cons c r ih =>
    by_cases hw : inWord c = true
    · rw [List.takeWhile_cons_of_pos hw, List.dropWhile_cons_of_pos hw, wordsFrom]
      have h1 : ¬ (c = 32 ∨ c = 9 ∨ c = 10) ∧ ¬ (c = 91 ∨ c = 93) := by
        simp [inWord, isBlank] at hw
        omega
      rw [if_neg h1.1, if_neg h1.2, ih (cur ++ [c]) (by simp)]
      simp
    · rw [List.takeWhile_cons_of_neg hw, List.dropWhile_cons_of_neg hw, words, wordsFrom, wordsFrom]
      by_cases hb : c = 32 ∨ c = 9 ∨ c = 10
      · simp [hb, hc]
      · have hk : c = 91 ∨ c = 93 := by
          simp [inWord, isBlank] at hw
          omega
        simp [hb, hk, hc]

theorem nextToken_none (l : List Nat) (h : nextToken l = none) : words l = [] := by
  rw [words_dropBlank]
  simp only [nextToken] at h
  split at h
  · rename_i heq; rw [heq]; rfl
  · split at h <;> simp at h

theorem nextToken_some {l t r : List Nat} (h : nextToken l = some (t, r)) :
    words l = t :: words r ∧
      (t = [91] ∨ t = [93] ∨ (t ≠ [] ∧ (∀ c ∈ t, inWord c = true) ∧ ∀ c ∈ r.head?, inWord c = false)) := by
  rw [words_dropBlank]
  simp only [nextToken] at h
  split at h
  · simp at h
  · rename_i c r' heq
    rw [heq]
    by_cases hk : c = 91 ∨ c = 93
    · rw [if_pos hk] at h
      simp only [Option.some.injEq, Prod.mk.injEq] at h
      obtain ⟨rfl, rfl⟩ := h
      refine ⟨?_, ?_⟩
      · rw [words, wordsFrom, if_neg (by omega), if_pos hk]
        rfl
      · rcases hk with rfl | rfl <;> simp
    · rw [if_neg hk] at h
      simp only [Option.some.injEq, Prod.mk.injEq] at h
      obtain ⟨rfl, rfl⟩ := h
      have hnb : isBlank c = false := by
        have := List.head?_dropWhile_not isBlank l
        rw [heq] at this
        simpa using this
      have hw : inWord c = true := by simp [inWord, hnb]; omega
      refine ⟨?_, .inr (.inr ⟨?_, ?_, ?_⟩)⟩
      · rw [words, wordsFrom, if_neg (by simp [isBlank] at hnb; omega), if_neg hk,
          wordsFrom_word r' _ (by simp), List.takeWhile_cons_of_pos hw, List.dropWhile_cons_of_pos hw]
        rfl
      · rw [List.takeWhile_cons_of_pos hw]; simp
      · exact fun x hx => (mem_tw hx)
      · intro x hx
        have := List.head?_dropWhile_not inWord (c :: r')
        rw [hx] at this
        simpa using this

theorem nextToken_eq_none_iff (l : List Nat) : nextToken l = none ↔ words l = [] := by
  constructor
  · exact nextToken_none l
  · intro h
    cases hn : nextToken l with
    | none => rfl
    | some p =>
      rw [(nextToken_some (t := p.1) (r := p.2) hn).1] at h
      simp at h

theorem nextToken_of_words {l t : List Nat} {ws : List (List Nat)} (h : words l = t :: ws) :
    ∃ r, nextToken l = some (t, r) ∧ words r = ws := by
  cases hn : nextToken l with
  | none => rw [nextToken_none l hn] at h; simp at h
  | some p =>
    obtain ⟨t', r⟩ := p
    have := (nextToken_some hn).1
    rw [h] at this
    simp only [List.cons.injEq] at this
    obtain ⟨rfl, rfl⟩ := this
    exact ⟨r, rfl, rfl⟩

theorem lowerEq_iff (w : List Nat) (k : List Char) : lowerEq w k = true ↔ sameWord w k := by
  simp only [lowerEq, sameWord, kw, lower_eq, beq_iff_eq]

theorem parseIClass_iff (w : List Nat) (c : IClass) : parseIClass w = some c ↔ IsClass w c := by
  unfold parseIClass IsClass
  simp only [classWords]
  constructor
  · intro h
    repeat' split at h
    all_goals simp only [Option.some.injEq, reduceCtorEq] at h
    all_goals subst h
    all_goals rename_i hh
    all_goals refine ⟨_, ?_, (lowerEq_iff _ _).1 hh⟩
    all_goals simp
  · rintro ⟨k, hk, hw⟩
    simp only [List.mem_cons, Prod.mk.injEq, List.not_mem_nil, or_false] at hk
    rw [sameWord, ← lower_eq] at hw
    unfold lowerEq
    rcases hk with ⟨rfl, rfl⟩ | ⟨rfl, rfl⟩ | ⟨rfl, rfl⟩ | ⟨rfl, rfl⟩ | ⟨rfl, rfl⟩ | ⟨rfl, rfl⟩ <;>
      rw [hw] <;> decide

theorem ite_some_iff {α : Type} {P : Prop} [Decidable P] {x c : α} {o : Option α} :
    (if P then some x else o) = some c → (P ∧ x = c) ∨ o = some c := by
  split
  · rename_i h
    intro h'
    exact .inl ⟨h, by simpa using h'⟩
  · exact .inr

theorem parseType_iff (w : List Nat) (c : PType) : parseType w = some c ↔ IsType w c := by
  unfold parseType IsType
  simp only [typeWords]
  constructor
  · intro h
    iterate 12
      rcases ite_some_iff h with ⟨hh, rfl⟩ | h'
      · refine ⟨_, ?_, (lowerEq_iff _ _).1 hh⟩
        simp
      replace h := h'
    simp at h
  · rintro ⟨k, hk, hw⟩
    simp only [List.mem_cons, Prod.mk.injEq, List.not_mem_nil, or_false] at hk
    rw [sameWord, ← lower_eq] at hw
    unfold lowerEq
    rcases hk with ⟨rfl, rfl⟩ | ⟨rfl, rfl⟩ | ⟨rfl, rfl⟩ | ⟨rfl, rfl⟩ | ⟨rfl, rfl⟩ | ⟨rfl, rfl⟩ |
      ⟨rfl, rfl⟩ | ⟨rfl, rfl⟩ | ⟨rfl, rfl⟩ | ⟨rfl, rfl⟩ | ⟨rfl, rfl⟩ | ⟨rfl, rfl⟩ <;>
      rw [hw] <;> decide

/-! ## The size -/

theorem strtolDigits_some {neg : Bool} {l rest : List Nat} {v : Int}
    (h : strtolDigits neg l = some (v, rest)) :
    ∃ ds, l = ds ++ rest ∧ ds ≠ [] ∧ (∀ c ∈ ds, isDigit c = true) ∧
      v = cInt (if neg then -(numeral ds : Int) else numeral ds) := by
  simp only [strtolDigits] at h
  split at h
  · simp at h
  · rename_i hne
    simp only [Option.some.injEq, Prod.mk.injEq] at h
    obtain ⟨rfl, rfl⟩ := h
    exact ⟨digits l, (List.takeWhile_append_dropWhile (p := isDigit) (l := l)).symm, hne,
      fun c hc => mem_tw hc, by rw [Verif.Filter.Frames.toInt32_eq, Verif.Rib.digitsVal_eq]⟩

theorem isDigit_iff (c : Nat) : isDigit c = true ↔ 48 ≤ c ∧ c ≤ 57 := by simp [isDigit]

theorem size_of_strtol {n r1 rest : List Nat} {v : Int} (hn : ∀ c ∈ n, inWord c = true)
    (h : strtol (n ++ r1) = some (v, rest)) (hl : rest.length = r1.length) : SizeWord n v := by
  simp only [strtol] at h
  have hsplit := List.takeWhile_append_dropWhile (p := isSpaceC) (l := n ++ r1)
  have hsp : ∀ c ∈ (n ++ r1).takeWhile isSpaceC, isSpaceC c = true := fun c hc => mem_tw hc
  generalize (n ++ r1).takeWhile isSpaceC = sp at hsplit hsp
  split at h
  · simp at h
  · rename_i c r heq
    rw [heq] at hsplit
    have fin : ∀ sg ds, n ++ r1 = sp ++ (sg ++ ds) ++ rest → n = sp ++ (sg ++ ds) := by
      intro sg ds he
      exact (List.append_inj' he hl.symm).1
    have hspw : ∀ sg ds, n = sp ++ (sg ++ ds) → ∀ c ∈ sp, c = 11 ∨ c = 12 ∨ c = 13 := by
      intro sg ds he c hc
      have h1 := hsp c hc
      have h2 := hn c (by rw [he]; simp [hc])
      simp [isSpaceC] at h1
      simp [inWord, isBlank] at h2
      omega
    by_cases h45 : c = 45
    · rw [if_pos h45] at h
      obtain ⟨ds, rfl, hne, hd, rfl⟩ := strtolDigits_some h
      have := fin [45] ds (by rw [← hsplit, h45]; simp)
      exact ⟨sp, [45], ds, this, hspw _ _ this, .inr ⟨rfl, rfl⟩, hne,
        fun c hc => (isDigit_iff c).1 (hd c hc)⟩
    · rw [if_neg h45] at h
      by_cases h43 : c = 43
      · rw [if_pos h43] at h
        obtain ⟨ds, rfl, hne, hd, rfl⟩ := strtolDigits_some h
        have := fin [43] ds (by rw [← hsplit, h43]; simp)
        exact ⟨sp, [43], ds, this, hspw _ _ this, .inl ⟨.inr rfl, rfl⟩, hne,
          fun c hc => (isDigit_iff c).1 (hd c hc)⟩
      · rw [if_neg h43] at h
        obtain ⟨ds, he, hne, hd, rfl⟩ := strtolDigits_some h
        have := fin [] ds (by rw [← hsplit, he]; simp)
        exact ⟨sp, [], ds, this, hspw _ _ this, .inl ⟨.inl rfl, rfl⟩, hne,
          fun c hc => (isDigit_iff c).1 (hd c hc)⟩

theorem strtolDigits_of {neg : Bool} {ds r : List Nat} (hne : ds ≠ [])
    (hd : ∀ c ∈ ds, isDigit c = true) (hr : ∀ c ∈ r.head?, isDigit c = false) :
    strtolDigits neg (ds ++ r) =
      some (cInt (if neg then -(numeral ds : Int) else numeral ds), r) := by
  obtain ⟨h1, h2⟩ := Verif.Rib.takeWhile_digits ds r hd hr
  rw [strtolDigits, digits, afterDigits, h1, h2, if_neg hne]
  simp only [Verif.Filter.Frames.toInt32_eq, Verif.Rib.digitsVal_eq]

theorem strtol_of_size {n r : List Nat} {v : Int} (h : SizeWord n v)
    (hr : ∀ c ∈ r.head?, isDigit c = false) : strtol (n ++ r) = some (v, r) := by
  obtain ⟨sp, sg, ds, rfl, hsp, hsg, hne, hds⟩ := h
  have hd : ∀ c ∈ ds, isDigit c = true := fun c hc => (isDigit_iff c).2 (hds c hc)
  obtain ⟨d, ds', rfl⟩ := List.exists_cons_of_ne_nil hne
  have hdd := hds d (by simp)
  have hdrop : (sp ++ (sg ++ d :: ds') ++ r).dropWhile isSpaceC = sg ++ (d :: ds' ++ r) := by
    rw [List.append_assoc, List.dropWhile_append_of_pos (fun c hc => by
      have := hsp c hc; simp [isSpaceC]; omega)]
    have hds : isSpaceC d = false := by simp [isSpaceC]; omega
    rcases hsg with ⟨rfl | rfl, _⟩ | ⟨rfl, _⟩
    · simp [hds]
    · simp [isSpaceC]
    · simp [isSpaceC]
  rw [strtol, hdrop]
  rcases hsg with ⟨rfl | rfl, rfl⟩ | ⟨rfl, rfl⟩
  · simp only [List.nil_append, List.cons_append]
    rw [if_neg (by omega), if_neg (by omega)]
    exact strtolDigits_of (neg := false) hne hd hr
  · simp only [List.cons_append, List.nil_append]
    rw [if_neg (by decide), if_pos trivial]
    exact strtolDigits_of (neg := false) hne hd hr
  · simp only [List.cons_append, List.nil_append]
    rw [if_pos trivial]
    exact strtolDigits_of (neg := true) hne hd hr

/-! ## The parser against the grammar -/

theorem head_91 {t : List Nat} (h : t = [91] ∨ t = [93] ∨ (t ≠ [] ∧ (∀ c ∈ t, inWord c = true) ∧ P)) :
    t.head? = some 91 ↔ t = [91] := by
  rcases h with rfl | rfl | ⟨hne, hw, _⟩
  · simp
  · simp
  · obtain ⟨c, t, rfl⟩ := List.exists_cons_of_ne_nil hne
    have := hw c (by simp)
    simp [inWord] at this
    constructor
    · simp only [List.head?_cons, Option.some.injEq]; omega
    · simp only [List.cons.injEq]; omega

theorem head_93 {t : List Nat} (h : t = [91] ∨ t = [93] ∨ (t ≠ [] ∧ (∀ c ∈ t, inWord c = true) ∧ P)) :
    t.head? = some 93 ↔ t = [93] := by
  rcases h with rfl | rfl | ⟨hne, hw, _⟩
  · simp
  · simp
  · obtain ⟨c, t, rfl⟩ := List.exists_cons_of_ne_nil hne
    have := hw c (by simp)
    simp [inWord] at this
    constructor
    · simp only [List.head?_cons, Option.some.injEq]; omega
    · simp only [List.cons.injEq]; omega

/-- What `declArray` does, on words: the first word is already read. -/
theorem declArray_words {want pc pt : Bool} {s : Spec} {l t r : List Nat}
    (hl : nextToken l = some (t, r)) {s' : Spec} {o : Option (List Nat)} (hs : s.arraySize = 1) :
    declArray want pc pt s t r = some (s', o) ↔
      (pt = true ∨ pc = false) ∧ ∃ a v, ArrayPart a v ∧ (a ≠ [] → pt = true) ∧
        s' = { s with arraySize := v } ∧
        ((o = none ∧ want = false ∧ a ≠ [] ∧ words l = a) ∨
          (∃ n, o = some n ∧ n ≠ [93] ∧ (a = [] → n ≠ [91]) ∧ words l = a ++ [n])) := by
  obtain ⟨hw, ht⟩ := nextToken_some hl
  have hname : ∀ (pa : Bool) (sp : Spec) (l' t' r' : List Nat), nextToken l' = some (t', r') →
      (declName pc pt pa sp t' r' = some (s', o) ↔
        (pt = true ∨ (pc = false ∧ pa = false)) ∧ s' = sp ∧
          ∃ n, o = some n ∧ n ≠ [93] ∧ words l' = [n]) := by
    intro pa sp l' t' r' hl'
    obtain ⟨hw', ht'⟩ := nextToken_some hl'
    rw [declName, hw']
    by_cases h93 : t' = [93]
    · subst h93
      simp
    · rw [if_neg (mt (head_93 ht').1 h93)]
      by_cases hp : pt = true ∨ (pc = false ∧ pa = false)
      · have : (!pt && (pc || pa)) = false := by
          rcases hp with rfl | ⟨rfl, rfl⟩ <;> simp
        rw [this]
        cases hn : nextToken r' with
        | none =>
          have := nextToken_none r' hn
          simp only [Bool.false_eq_true, if_false, Option.isSome_none, this]
          constructor
          · intro h
            simp only [Option.some.injEq, Prod.mk.injEq] at h
            exact ⟨hp, h.1.symm, t', h.2.symm, h93, rfl⟩
          · rintro ⟨_, rfl, n, rfl, _, h⟩
            simp only [List.cons.injEq, and_true] at h
            rw [h]
        | some p =>
          simp only [Bool.false_eq_true, if_false, Option.isSome_some, if_true]
          rw [(nextToken_some (t := p.1) (r := p.2) hn).1]
          simp
      · have : (!pt && (pc || pa)) = true := by
          cases pt <;> cases pc <;> cases pa <;> simp_all
        rw [this]
        simp [hp]
  rw [declArray]
  by_cases h91 : t = [91]
  · rw [if_pos ((head_91 ht).2 h91)]
    subst h91
    -- the array part must be there
    have harr : ∀ a v, ArrayPart a v → ((o = none ∧ want = false ∧ a ≠ [] ∧ words l = a) ∨
          (∃ n, o = some n ∧ n ≠ [93] ∧ (a = [] → n ≠ [91]) ∧ words l = a ++ [n])) →
        ∃ w, a = [[91], w, [93]] ∧ SizeWord w v := by
      intro a v ha h
      cases ha with
      | none =>
        rcases h with ⟨_, _, h, _⟩ | ⟨n, _, _, h, h'⟩
        · exact absurd rfl h
        · rw [hw] at h'
          simp only [List.nil_append, List.cons.injEq] at h'
          exact absurd h'.1.symm (h rfl)
      | size hsz => exact ⟨_, rfl, hsz⟩
    have hno : (∀ ws, ∀ w v, words r = w :: [93] :: ws → SizeWord w v → False) →
        ¬ ∃ a v, ArrayPart a v ∧ (a ≠ [] → pt = true) ∧ s' = { s with arraySize := v } ∧
        ((o = none ∧ want = false ∧ a ≠ [] ∧ words l = a) ∨
          (∃ n, o = some n ∧ n ≠ [93] ∧ (a = [] → n ≠ [91]) ∧ words l = a ++ [n])) := by
      rintro h ⟨a, v, ha, _, _, hh⟩
      obtain ⟨w, rfl, hsz⟩ := harr a v ha hh
      rcases hh with ⟨_, _, _, h'⟩ | ⟨n, _, _, _, h'⟩
      · rw [hw] at h'
        simp only [List.cons.injEq, true_and] at h'
        exact h [] w v h' hsz
      · rw [hw] at h'
        simp only [List.cons_append, List.cons.injEq, true_and, List.nil_append] at h'
        exact h [n] w v h' hsz
    cases hn : nextToken r with
    | none =>
      have := nextToken_none r hn
      simp only [reduceCtorEq, false_iff]
      rintro ⟨_, h⟩
      exact hno (by rw [this]; simp) h
    | some p =>
      obtain ⟨n, r1⟩ := p
      obtain ⟨hw1, ht1⟩ := nextToken_some hn
      simp only
      by_cases hsz : ∃ v, SizeWord n v
      · obtain ⟨v, hv⟩ := hsz
        have hnw : n ≠ [91] ∧ n ≠ [93] := by
          obtain ⟨sp, sg, ds, rfl, h1, h2, h3, h4⟩ := hv
          obtain ⟨d, ds, rfl⟩ := List.exists_cons_of_ne_nil h3
          constructor <;>
          · intro h
            have hmem : d ∈ sp ++ (sg ++ d :: ds) := by simp
            rw [h] at hmem
            have := h4 d (by simp)
            simp at hmem
            omega
        have hr1 : ∀ c ∈ r1.head?, isDigit c = false := by
          rcases ht1 with h | h | ⟨_, _, h⟩
          · exact absurd h hnw.1
          · exact absurd h hnw.2
          · intro c hc
            have := h c hc
            simp [inWord, isBlank] at this
            simp [isDigit]
            omega
        rw [strtol_of_size hv hr1]
        simp only [if_true]
        have huniq : ∀ v', SizeWord n v' → v' = v := by
          intro v' hv'
          have h1 := strtol_of_size hv hr1
          rw [strtol_of_size hv' hr1] at h1
          simpa using h1
        cases hn2 : nextToken r1 with
        | none =>
          have := nextToken_none r1 hn2
          simp only [reduceCtorEq, false_iff]
          rintro ⟨_, h⟩
          exact hno (by rw [hw1, this]; simp) h
        | some p =>
          obtain ⟨b, r2⟩ := p
          obtain ⟨hw2, ht2⟩ := nextToken_some hn2
          simp only
          by_cases h93 : b = [93]
          · rw [if_pos ((head_93 ht2).2 h93)]
            subst h93
            have hwl : words l = [91] :: n :: [93] :: words r2 := by rw [hw, hw1, hw2]
            cases hn3 : nextToken r2 with
            | none =>
              have hw3 := nextToken_none r2 hn3
              rw [hw3] at hwl
              simp only [declEnd]
              constructor
              · intro h
                cases want with
                | true => simp at h
                | false =>
                  cases pt with
                  | false =>
                    simp at h
                  | true =>
                    simp only [Bool.false_eq_true, if_false, Bool.not_true, Bool.false_and,
                      Option.some.injEq, Prod.mk.injEq] at h
                    exact ⟨.inl rfl, _, v, .size hv, fun _ => rfl, h.1.symm,
                      .inl ⟨h.2.symm, rfl, by simp, hwl⟩⟩
              · rintro ⟨_, a, v', ha, hpt, rfl, hh⟩
                obtain ⟨w, rfl, hsz'⟩ := harr a v' ha hh
                have := hpt (by simp)
                subst this
                rcases hh with ⟨rfl, rfl, _, h'⟩ | ⟨n', _, _, _, h'⟩
                · rw [hwl] at h'
                  simp only [List.cons.injEq, true_and, and_true] at h'
                  subst h'
                  rw [huniq v' hsz']
                  simp
                · rw [hwl] at h'
                  simp at h'
            | some p =>
              obtain ⟨t', r'⟩ := p
              simp only
              rw [hname true _ r2 t' r' hn3]
              constructor
              · rintro ⟨hp, rfl, n', rfl, h1, h2⟩
                have hpt : pt = true := by rcases hp with h | ⟨_, h⟩; exact h; simp at h
                exact ⟨.inl hpt, _, v, .size hv, fun _ => hpt, rfl,
                  .inr ⟨n', rfl, h1, by simp, by rw [hwl, h2]; rfl⟩⟩
              · rintro ⟨_, a, v', ha, hpt, rfl, hh⟩
                obtain ⟨w, rfl, hsz'⟩ := harr a v' ha hh
                have := hpt (by simp)
                rcases hh with ⟨rfl, rfl, _, h'⟩ | ⟨n', rfl, h1, _, h'⟩
                · rw [hwl] at h'
                  simp only [List.cons.injEq, true_and] at h'
                  rw [(nextToken_some hn3).1] at h'
                  simp at h'
                · rw [hwl] at h'
                  simp only [List.cons_append, List.cons.injEq, true_and, List.nil_append] at h'
                  obtain ⟨rfl, h'⟩ := h'
                  exact ⟨.inl this, by rw [huniq v' hsz'], n', rfl, h1, h'⟩
          · rw [if_neg (mt (head_93 ht2).1 h93)]
            simp only [reduceCtorEq, false_iff]
            rintro ⟨_, h⟩
            refine hno (fun ws w v' h' _ => ?_) h
            rw [hw1, hw2] at h'
            simp only [List.cons.injEq] at h'
            exact h93 h'.2.1
      · have hfalse : ¬ ((pt = true ∨ pc = false) ∧ ∃ a v, ArrayPart a v ∧ (a ≠ [] → pt = true) ∧
            s' = { s with arraySize := v } ∧
            ((o = none ∧ want = false ∧ a ≠ [] ∧ words l = a) ∨
              (∃ n, o = some n ∧ n ≠ [93] ∧ (a = [] → n ≠ [91]) ∧ words l = a ++ [n]))) := by
          rintro ⟨_, h⟩
          refine hno (fun ws w v' h' hv' => ?_) h
          rw [hw1] at h'
          simp only [List.cons.injEq] at h'
          exact hsz ⟨v', by rw [h'.1]; exact hv'⟩
        cases hst : strtol (n ++ r1) with
        | none => simpa using hfalse
        | some p =>
          obtain ⟨v, rest⟩ := p
          simp only
          by_cases hlen : rest.length = r1.length
          · exfalso
            rcases ht1 with rfl | rfl | ⟨_, hnw, _⟩
            · simp [strtol, isSpaceC, strtolDigits, digits, isDigit] at hst
            · simp [strtol, isSpaceC, strtolDigits, digits, isDigit] at hst
            · exact hsz ⟨v, size_of_strtol hnw hst hlen⟩
          · rw [if_neg hlen]
            simpa using hfalse
  · rw [if_neg (mt (head_91 ht).1 h91), hname false s l t r hl]
    have hse : s = { s with arraySize := 1 } := by cases s; simp_all
    constructor
    · rintro ⟨hp, rfl, n, rfl, h1, h2⟩
      refine ⟨?_, [], 1, .none, fun h => absurd rfl h, hse, .inr ⟨n, rfl, h1, fun _ => ?_, h2⟩⟩
      · rcases hp with h | h
        · exact .inl h
        · exact .inr h.1
      · rw [hw] at h2
        simp only [List.cons.injEq] at h2
        rw [← h2.1]
        exact h91
    · rintro ⟨hp, a, v, ha, hpt, rfl, hh⟩
      cases ha with
      | none =>
        rcases hh with ⟨_, _, h, _⟩ | ⟨n, rfl, h1, _, h2⟩
        · exact absurd rfl h
        · refine ⟨?_, hse.symm, n, rfl, h1, h2⟩
          rcases hp with h | h
          · exact .inl h
          · exact .inr ⟨h, rfl⟩
      | size hsz =>
        exfalso
        rcases hh with ⟨_, _, _, h⟩ | ⟨n, _, _, _, h⟩ <;>
        · rw [hw] at h
          simp only [List.cons_append, List.cons.injEq] at h
          exact h91 h.1

theorem declType_words {want pc : Bool} {s : Spec} {l t r : List Nat}
    (hl : nextToken l = some (t, r)) {s' : Spec} {o : Option (List Nat)} (hs : s.arraySize = 1) :
    declType want pc s t r = some (s', o) ↔
      (∃ ty w a v, IsType w ty ∧ ArrayPart a v ∧ s' = { s with type := ty, arraySize := v } ∧
        ((o = none ∧ want = false ∧ words l = w :: a) ∨
          (∃ n, o = some n ∧ n ≠ [93] ∧ (a = [] → n ≠ [91]) ∧ words l = w :: (a ++ [n])))) ∨
      (pc = false ∧ s' = s ∧ ∃ n, o = some n ∧ n ≠ [93] ∧ n ≠ [91] ∧ (∀ ty, ¬ IsType n ty) ∧
        words l = [n]) := by
  obtain ⟨hw, ht⟩ := nextToken_some hl
  rw [declType]
  cases hty : parseType t with
  | some ty =>
    have hit := (parseType_iff t ty).1 hty
    have huniq : ∀ ty', IsType t ty' → ty' = ty := by
      intro ty' h
      have := (parseType_iff t ty').2 h
      rw [hty] at this
      simpa using this.symm
    simp only
    cases hn : nextToken r with
    | none =>
      have hw1 := nextToken_none r hn
      rw [hw1] at hw
      simp only [declEnd]
      constructor
      · intro h
        cases want with
        | true => simp at h
        | false =>
          simp only [Bool.false_eq_true, if_false, Bool.not_true, Bool.false_and, Option.some.injEq,
            Prod.mk.injEq] at h
          refine .inl ⟨ty, t, [], 1, hit, .none, ?_, .inl ⟨h.2.symm, rfl, hw⟩⟩
          rw [← h.1]
          cases s; simp_all
      · rintro (⟨ty', w, a, v, h1, h2, rfl, ⟨rfl, rfl, h⟩ | ⟨n, rfl, _, _, h⟩⟩ | ⟨_, _, n, _, _, _, h1, h⟩)
        · rw [hw] at h
          simp only [List.cons.injEq] at h
          obtain ⟨rfl, rfl⟩ := h
          cases h2
          rw [huniq ty' h1]
          cases s; simp_all
        · rw [hw] at h
          simp at h
        · rw [hw] at h
          simp only [List.cons.injEq, and_true] at h
          exact absurd (h ▸ hit) (h1 ty)
    | some p =>
      obtain ⟨t', r'⟩ := p
      simp only
      rw [declArray_words hn (s := { s with type := ty }) hs]
      constructor
      · rintro ⟨_, a, v, h1, _, rfl, ⟨rfl, rfl, _, h⟩ | ⟨n, rfl, h2, h3, h⟩⟩
        · exact .inl ⟨ty, t, a, v, hit, h1, rfl, .inl ⟨rfl, rfl, by rw [hw, h]⟩⟩
        · exact .inl ⟨ty, t, a, v, hit, h1, rfl, .inr ⟨n, rfl, h2, h3, by rw [hw, h]⟩⟩
      · rintro (⟨ty', w, a, v, h1, h2, rfl, ⟨rfl, rfl, h⟩ | ⟨n, rfl, h4, h5, h⟩⟩ | ⟨_, _, n, _, _, _, h1, h⟩)
        · rw [hw] at h
          simp only [List.cons.injEq] at h
          obtain ⟨rfl, h⟩ := h
          refine ⟨.inl rfl, a, v, h2, fun _ => rfl, by rw [huniq ty' h1], .inl ⟨rfl, rfl, ?_, h⟩⟩
          rintro rfl
          rw [(nextToken_some hn).1] at h
          simp at h
        · rw [hw] at h
          simp only [List.cons.injEq] at h
          obtain ⟨rfl, h⟩ := h
          exact ⟨.inl rfl, a, v, h2, fun _ => rfl, by rw [huniq ty' h1], .inr ⟨n, rfl, h4, h5, h⟩⟩
        · rw [hw] at h
          simp only [List.cons.injEq] at h
          exact absurd (h.1 ▸ hit) (h1 ty)
  | none =>
    have hnt : ∀ ty, ¬ IsType t ty := by
      intro ty h
      have := (parseType_iff t ty).2 h
      rw [hty] at this
      simp at this
    simp only
    rw [declArray_words hl hs]
    constructor
    · rintro ⟨hp, a, v, h1, hpt, rfl, hh⟩
      have ha : a = [] := by
        cases a with
        | nil => rfl
        | cons x y => exact absurd (hpt (by simp)) (by simp)
      subst ha
      cases h1
      rcases hh with ⟨_, _, h, _⟩ | ⟨n, rfl, h2, h3, h⟩
      · exact absurd rfl h
      · refine .inr ⟨?_, ?_, n, rfl, h2, h3 rfl, ?_, by simpa using h⟩
        · rcases hp with h | h
          · simp at h
          · exact h
        · cases s; simp_all
        · rw [hw] at h
          simp only [List.nil_append, List.cons.injEq] at h
          rw [← h.1]
          exact hnt
    · rintro (⟨ty', w, a, v, h1, h2, rfl, ⟨rfl, rfl, h⟩ | ⟨n, rfl, h4, h5, h⟩⟩ | ⟨rfl, rfl, n, rfl, h1, h2, h3, h⟩)
      · rw [hw] at h
        simp only [List.cons.injEq] at h
        exact absurd (h.1 ▸ h1) (hnt ty')
      · rw [hw] at h
        simp only [List.cons.injEq] at h
        exact absurd (h.1 ▸ h1) (hnt ty')
      · refine ⟨.inr rfl, [], 1, .none, fun h => absurd rfl h, ?_, .inr ⟨n, rfl, h1, fun _ => h2, h⟩⟩
        cases s'; simp_all

theorem parseDecl_words {want : Bool} {l : List Nat} {s' : Spec} {o : Option (List Nat)} :
    parseDecl want l = some (s', o) ↔
      (o = none ∧ want = false ∧ (TypeOnly (words l) s' ∨ words l = [] ∧ s' = {})) ∨
      (∃ n, o = some n ∧ n ≠ [93] ∧
        ((words l = [n] ∧ s' = {} ∧ n ≠ [91] ∧ (∀ c, ¬ IsClass n c) ∧ ∀ ty, ¬ IsType n ty) ∨
        ∃ ws a v, TypeOnly ws s' ∧ ArrayPart a v ∧ s'.arraySize = v ∧
          (∃ hd, ws = hd ++ a ∧ (a = [] → n ≠ [91])) ∧ words l = ws ++ [n])) := by
  rw [parseDecl]
  cases hn : nextToken l with
  | none =>
    have hw := nextToken_none l hn
    simp only [declEnd, hw]
    constructor
    · intro h
      cases want with
      | true => simp at h
      | false =>
        simp only [Bool.false_eq_true, if_false, Bool.or_self, Bool.and_false, Option.some.injEq,
          Prod.mk.injEq] at h
        exact .inl ⟨h.2.symm, rfl, .inr ⟨trivial, h.1.symm⟩⟩
    · rintro (⟨rfl, rfl, h | ⟨_, rfl⟩⟩ | ⟨n, rfl, _, ⟨h, _⟩ | ⟨ws, a, v, _, _, _, _, h⟩⟩)
      · generalize hl : ([] : List (List Nat)) = l' at h
        cases h <;> simp at hl
      · simp
      · simp at h
      · simp at h
  | some p =>
    obtain ⟨t, r⟩ := p
    obtain ⟨hw, ht⟩ := nextToken_some hn
    simp only
    cases hc : parseIClass t with
    | some c =>
      have hic := (parseIClass_iff t c).1 hc
      have huniq : ∀ c', IsClass t c' → c' = c := by
        intro c' h
        have := (parseIClass_iff t c').2 h
        rw [hc] at this
        simpa using this.symm
      have hnt : ∀ ty, ¬ IsType t ty := by
        rintro ty ⟨k, hk, hk'⟩
        obtain ⟨k2, hk2, hk2'⟩ := hic
        have heq : k.map Char.toNat = k2.map Char.toNat := by
          rw [← (hk' : t.map _ = _), (hk2' : t.map _ = _)]
        have : ∀ p ∈ typeWords, ∀ q ∈ classWords, p.1.map Char.toNat ≠ q.1.map Char.toNat := by decide
        exact this _ hk _ hk2 heq
      simp only
      cases hn1 : nextToken r with
      | none =>
        have hw1 := nextToken_none r hn1
        simp only [declEnd, hw, hw1]
        constructor
        · intro h
          cases want <;> simp at h
        · rintro (⟨rfl, rfl, h | ⟨h, _⟩⟩ | ⟨n, rfl, _, ⟨h, _, _, h', _⟩ | ⟨ws, a, v, h1, _, _, _, h⟩⟩)
          · generalize hl : [t] = l' at h
            cases h with
            | typed ht' ha =>
              simp only [List.cons.injEq] at hl
              exact absurd (hl.1 ▸ ht') (hnt _)
            | full => simp at hl
          · simp at h
          · simp only [List.cons.injEq, and_true] at h
            exact absurd (h ▸ hic) (h' c)
          · cases h1 <;> simp at h
      | some p =>
        obtain ⟨t', r'⟩ := p
        simp only
        rw [declType_words hn1 rfl]
        constructor
        · rintro (⟨ty, w, a, v, h1, h2, rfl, ⟨rfl, rfl, h⟩ | ⟨n, rfl, h3, h4, h⟩⟩ | ⟨h, _⟩)
          · refine .inl ⟨rfl, rfl, .inl ?_⟩
            rw [hw, h]
            exact .full hic h1 h2
          · refine .inr ⟨n, rfl, h3, .inr ⟨t :: w :: a, a, v, .full hic h1 h2, h2, rfl,
              ⟨[t, w], rfl, h4⟩, by rw [hw, h]; rfl⟩⟩
          · simp at h
        · rintro (⟨rfl, rfl, h | ⟨h, _⟩⟩ | ⟨n, rfl, h3, ⟨h, _, _, h', _⟩ | ⟨ws, a, v, h1, h2, h4, ⟨hd, h5, h6⟩, h⟩⟩)
          · rw [hw] at h
            generalize hl : t :: words r = l' at h
            cases h with
            | typed ht' ha =>
              simp only [List.cons.injEq] at hl
              exact absurd (hl.1 ▸ ht') (hnt _)
            | full hc' ht' ha =>
              simp only [List.cons.injEq] at hl
              obtain ⟨rfl, hl⟩ := hl
              refine .inl ⟨_, _, _, _, ht', ha, ?_, .inl ⟨rfl, rfl, hl⟩⟩
              rw [huniq _ hc']
          · rw [hw] at h; simp at h
          · rw [hw] at h
            simp only [List.cons.injEq] at h
            exact absurd (h.1 ▸ hic) (h' c)
          · cases h1 with
            | typed ht' ha =>
              rw [hw] at h
              simp only [List.cons_append, List.cons.injEq] at h
              exact absurd (h.1 ▸ ht') (hnt _)
            | full hc' ht' ha =>
              rename_i k c' w ty a' v'
              rw [hw] at h
              simp only [List.cons_append, List.cons.injEq] at h
              obtain ⟨rfl, h⟩ := h
              simp only at h4
              subst h4
              refine .inl ⟨ty, w, a', v', ht', ha, by rw [huniq _ hc'], .inr ⟨n, rfl, h3, ?_, h⟩⟩
              intro ha'
              subst ha'
              apply h6
              cases h2 with
              | none => rfl
              | size _ =>
                have := congrArg List.length h5
                simp at this
    | none =>
      have hnc : ∀ c, ¬ IsClass t c := by
        intro c h
        have := (parseIClass_iff t c).2 h
        rw [hc] at this
        simp at this
      simp only
      rw [declType_words hn rfl]
      constructor
      · rintro (⟨ty, w, a, v, h1, h2, rfl, ⟨rfl, rfl, h⟩ | ⟨n, rfl, h3, h4, h⟩⟩ | ⟨_, rfl, n, rfl, h1, h2, h3, h⟩)
        · refine .inl ⟨rfl, rfl, .inl ?_⟩
          rw [h]
          exact .typed h1 h2
        · refine .inr ⟨n, rfl, h3, .inr ⟨w :: a, a, v, .typed h1 h2, h2, rfl,
            ⟨[w], rfl, h4⟩, by rw [h]; rfl⟩⟩
        · refine .inr ⟨n, rfl, h1, .inl ⟨h, rfl, h2, ?_, h3⟩⟩
          rw [hw] at h
          simp only [List.cons.injEq] at h
          rw [← h.1]
          exact hnc
      · rintro (⟨rfl, rfl, h | ⟨h, _⟩⟩ | ⟨n, rfl, h3, ⟨h, rfl, h4, h', h6⟩ | ⟨ws, a, v, h1, h2, h4, ⟨hd, h5, h6⟩, h⟩⟩)
        · generalize hl : words l = l' at h
          cases h with
          | typed ht' ha => exact .inl ⟨_, _, _, _, ht', ha, rfl, .inl ⟨rfl, rfl, rfl⟩⟩
          | full hc' ht' ha =>
            rw [hw] at hl
            simp only [List.cons.injEq] at hl
            exact absurd (hl.1 ▸ hc') (hnc _)
        · rw [hw] at h; simp at h
        · exact .inr ⟨rfl, rfl, n, rfl, h3, h4, h6, h⟩
        · cases h1 with
          | typed ht' ha =>
            rename_i w ty a' v'
            simp only at h4
            subst h4
            refine .inl ⟨ty, w, a', v', ht', ha, rfl, .inr ⟨n, rfl, h3, ?_, h⟩⟩
            intro ha'
            subst ha'
            apply h6
            cases h2 with
            | none => rfl
            | size _ =>
              have := congrArg List.length h5
              simp at this
          | full hc' ht' ha =>
            rw [hw] at h
            simp only [List.cons_append, List.cons.injEq] at h
            exact absurd (h.1 ▸ hc') (hnc _)

/-! ## C13 -/

/-- **C13, grammar (partial).**  A token is accepted with a name other than `[` exactly when its
words are `[class] type ['[' size ']'] name` or just a name, and the result is what those words say.
Missing: sizes are reduced to 32 bits and may be negative or zero, and after an array size `[` is
taken for a name (`C13_malformed_violated`). -/
theorem C13_grammar_partial (l : List Nat) (s : Spec) (n : List Nat) (hn : n ≠ [91]) :
    parseDecl true l = some (s, some n) ↔ Decl (words l) s n := by
  rw [parseDecl_words]
  constructor
  · rintro (⟨h, _⟩ | ⟨n', h, h3, ⟨h0, rfl, h4, h', h6⟩ | ⟨ws, a, v, h1, h2, h4, ⟨hd, h5, h6⟩, h0⟩⟩)
    · simp at h
    · simp only [Option.some.injEq] at h
      subst h
      rw [h0]
      exact .name h' h6 hn h3
    · simp only [Option.some.injEq] at h
      subst h
      rw [h0]
      cases h1 with
      | typed ht ha => exact .typed ht ha hn h3
      | full hc ht ha => exact .full hc ht ha hn h3
  · intro h
    generalize hl : words l = l' at h
    cases h with
    | name hc ht h1 h2 => exact .inr ⟨n, rfl, h2, .inl ⟨rfl, rfl, h1, hc, ht⟩⟩
    | typed ht ha h1 h2 =>
      exact .inr ⟨n, rfl, h2, .inr ⟨_, _, _, .typed ht ha, ha, rfl, ⟨[_], rfl, fun _ => h1⟩, rfl⟩⟩
    | full hc ht ha h1 h2 =>
      exact .inr ⟨n, rfl, h2, .inr ⟨_, _, _, .full hc ht ha, ha, rfl, ⟨[_, _], rfl, fun _ => h1⟩, rfl⟩⟩

/-- `"Vertex  color[3] Cs2"`. -/
example : parseDecl true (kw ['V','e','r','t','e','x',' ',' ','c','o','l','o','r','[','3',']',' ','C','s','2']) =
    some (⟨.vertex, .color, 3⟩, some (kw ['C','s','2'])) := by decide
/-- Rejected: no name; no type after a class; too many words; size not a number. -/
example : parseDecl true (kw ['f','l','o','a','t']) = none ∧
    parseDecl true (kw ['v','e','r','t','e','x',' ','x']) = none ∧
    parseDecl true (kw ['i','n','t',' ','x',' ','y']) = none ∧
    parseDecl true (kw ['i','n','t','[','x',']',' ','y']) = none := by decide

/-- **C13, types.**  A type string without a name is accepted exactly when its words are
`[class] type ['[' size ']']` or it is blank. -/
theorem C13_type_grammar (l : List Nat) (s : Spec) :
    parseDecl false l = some (s, none) ↔ TypeOnly (words l) s ∨ words l = [] ∧ s = {} := by
  rw [parseDecl_words]
  constructor
  · rintro (⟨_, _, h⟩ | ⟨n, h, _⟩)
    · exact h
    · simp at h
  · intro h
    exact .inl ⟨rfl, rfl, h⟩

example : parseDecl false (kw ['u','n','i','f','o','r','m',' ','f','l','o','a','t']) =
    some (⟨.uniform, .float, 1⟩, none) := by decide

/-- Types that have a name. -/
def Printable (s : Spec) : Prop :=
  s.iclass ≠ .noClass ∧ s.type ≠ .mpoint ∧ s.type ≠ .pointer ∧ s.type ≠ .unknown ∧
    -(2 ^ 31) ≤ s.arraySize ∧ s.arraySize < 2 ^ 31

/-- A name that is one word. -/
def NameWord (n : List Nat) : Prop :=
  n ≠ [] ∧ ∀ c ∈ n, c ≠ 32 ∧ c ≠ 9 ∧ c ≠ 10 ∧ c ≠ 91 ∧ c ≠ 93

theorem inWord_iff (c : Nat) : inWord c = true ↔ c ≠ 32 ∧ c ≠ 9 ∧ c ≠ 10 ∧ c ≠ 91 ∧ c ≠ 93 := by
  simp [inWord, isBlank]
  omega

theorem words_word (w : List Nat) (hw : NameWord w) (r : List Nat)
    (hr : ∀ c ∈ r.head?, inWord c = false) : words (w ++ r) = w :: words r := by
  obtain ⟨hne, hw⟩ := hw
  obtain ⟨c, w, rfl⟩ := List.exists_cons_of_ne_nil hne
  have hc := hw c (by simp)
  have htw : (w ++ r).takeWhile inWord = w ∧ (w ++ r).dropWhile inWord = r := by
    clear hc hne
    have hw' : ∀ x ∈ w, inWord x = true := fun x hx => (inWord_iff x).2 (hw x (by simp [hx]))
    clear hw
    induction w with
    | nil =>
      cases r with
      | nil => simp
      | cons x r =>
        have := hr x (by simp)
        simp [this]
    | cons x w ih =>
      have h1 := hw' x (by simp)
      have := ih (fun y hy => hw' y (by simp [hy]))
      simp [h1, this]
  rw [words, List.cons_append, wordsFrom, if_neg (by omega), if_neg (by omega),
    wordsFrom_word _ _ (by simp), htw.1, htw.2]
  rfl

theorem words_space (r : List Nat) : words (32 :: r) = words r := by
  rw [words, wordsFrom_blank _ _ _ rfl]; rfl

theorem words_open (r : List Nat) : words (91 :: r) = [91] :: words r := by
  rw [words, wordsFrom, if_neg (by decide), if_pos (by decide)]; rfl

theorem words_close (r : List Nat) : words (93 :: r) = [93] :: words r := by
  rw [words, wordsFrom, if_neg (by decide), if_pos (by decide)]; rfl

theorem cInt_range (i : Int) (h1 : -(2 ^ 31) ≤ i) (h2 : i < 2 ^ 31) : cInt i = i := by
  rw [← Verif.Filter.Frames.toInt32_eq]
  simp only [Verif.Filter.Frames.toInt32]
  omega

theorem sizeWord_int (i : Int) (h1 : -(2 ^ 31) ≤ i) (h2 : i < 2 ^ 31) : SizeWord (asciiInt i) i := by
  have hd : ∀ n c, c ∈ decDigits n → 48 ≤ c ∧ c ≤ 57 := fun n c hc =>
    (isDigit_iff c).1 (Verif.Rib.decDigits_isDigit n c hc)
  have hne : ∀ n, decDigits n ≠ [] := Verif.Rib.decDigits_ne_nil
  rw [asciiInt]
  split
  · rename_i hneg
    refine ⟨[], [45], decDigits i.natAbs, rfl, by simp, .inr ⟨rfl, ?_⟩, hne _, hd _⟩
    rw [← Verif.Rib.digitsVal_eq, Verif.Rib.digitsVal_decDigits, show -(i.natAbs : Int) = i by omega, cInt_range i h1 h2]
  · rename_i hneg
    refine ⟨[], [], decDigits i.natAbs, rfl, by simp, .inl ⟨.inl rfl, ?_⟩, hne _, hd _⟩
    rw [← Verif.Rib.digitsVal_eq, Verif.Rib.digitsVal_decDigits, show (i.natAbs : Int) = i by omega, cInt_range i h1 h2]

theorem sizeWord_nameWord {w : List Nat} {v : Int} (h : SizeWord w v) : NameWord w := by
  obtain ⟨sp, sg, ds, rfl, h1, h2, h3, h4⟩ := h
  refine ⟨by simp [h3], fun c hc => ?_⟩
  simp only [List.mem_append] at hc
  rcases hc with hc | hc | hc
  · have := h1 c hc; omega
  · rcases h2 with ⟨rfl | rfl, _⟩ | ⟨rfl, _⟩ <;> simp at hc <;> omega
  · have := h4 c hc; omega

/-- **C13, round trip.**  Printing a type with a name and parsing the result gives both back, for
every class, every type that has a name, every 32 bit array size and every name that is one word. -/
theorem C13_round_trip (s : Spec) (n : List Nat) (hs : Printable s) (hn : NameWord n) :
    parseDecl true (tokenString s n) = some (s, some n) := by
  have hn91 : n ≠ [91] := by rintro rfl; have := hn.2 91; simp at this
  have hn93 : n ≠ [93] := by rintro rfl; have := hn.2 93; simp at this
  rw [C13_grammar_partial _ _ _ hn91]
  obtain ⟨c, t, v⟩ := s
  obtain ⟨h1, h2, h3, h4, h5, h6⟩ := hs
  simp only at h1 h2 h3 h4 h5 h6
  have hcls : NameWord (className c) ∧ IsClass (className c) c := by
    cases c <;> simp only [className, ne_eq, not_true_eq_false, reduceCtorEq, not_false_eq_true] at h1 ⊢ <;>
      exact ⟨⟨by decide, by decide⟩, (parseIClass_iff _ _).1 (by decide)⟩
  have htyp : NameWord (typeName t) ∧ IsType (typeName t) t := by
    cases t <;> simp only [typeName, ne_eq, not_true_eq_false, reduceCtorEq, not_false_eq_true] at h2 h3 h4 ⊢ <;>
      exact ⟨⟨by decide, by decide⟩, (parseType_iff _ _).1 (by decide)⟩
  have hnil : words n = [n] := by
    have := words_word n hn [] (by simp)
    simpa [words, wordsFrom] using this
  simp only [tokenString]
  rw [words_word _ hcls.1 _ (by simp [inWord, isBlank]), words_space]
  by_cases hv : v = 1
  · rw [if_pos hv, words_word _ htyp.1 _ (by simp [inWord, isBlank])]
    simp only [List.nil_append]
    rw [words_space, hnil, hv]
    exact .full (a := []) hcls.2 htyp.2 .none hn91 hn93
  · have hsz := sizeWord_int v h5 h6
    rw [if_neg hv, words_word _ htyp.1 _ (by simp [inWord, isBlank])]
    simp only [List.cons_append, List.append_assoc, List.nil_append]
    rw [words_open, words_word _ (sizeWord_nameWord hsz) _ (by simp [inWord, isBlank]), words_close,
      words_space, hnil]
    exact .full (a := [[91], asciiInt v, [93]]) hcls.2 htyp.2 (.size hsz) hn91 hn93

example : parseDecl true (tokenString ⟨.facevarying, .float, 2⟩ (kw ['f','l','o','a','t'])) =
    some (⟨.facevarying, .float, 2⟩, some (kw ['f','l','o','a','t'])) :=
  C13_round_trip _ _ ⟨by simp, by simp, by simp, by simp, by decide, by decide⟩ ⟨by decide, by decide⟩

/-- **C13 fails** for the types without a name: printing gives `invalid`, which does not parse. -/
theorem C13_unprintable_violated :
    parseDecl true (tokenString ⟨.vertex, .mpoint, 1⟩ (kw ['x'])) = none ∧
    parseDecl true (kw ['v','e','r','t','e','x',' ','m','p','o','i','n','t',' ','x']) =
      some (⟨.vertex, .mpoint, 1⟩, some (kw ['x'])) := by decide

/-- **C13 fails** for malformed declarations: a negative size, a size beyond `int` (4294967298 is
taken for 2) and a bracket for a name are accepted. -/
theorem C13_malformed_violated :
    parseDecl true (kw ['i','n','t','[','-','3',']',' ','x']) =
      some (⟨.uniform, .integer, -3⟩, some (kw ['x'])) ∧
    parseDecl true (kw ['i','n','t','[','4','2','9','4','9','6','7','2','9','8',']',' ','x']) =
      some (⟨.uniform, .integer, 2⟩, some (kw ['x'])) ∧
    parseDecl true (kw ['i','n','t','[','3',']','[']) =
      some (⟨.uniform, .integer, 3⟩, some (kw ['['])) := by decide

/-! ## C14 -/

/-- The most recent proper declaration of a name in a history. -/
def lastDecl (n : List Nat) : List (List Nat × List Nat) → Spec → Prop
  | [], _ => False
  | (m, t) :: h, s => lastDecl n h s ∨ ((∀ s', ¬ lastDecl n h s') ∧ m = n ∧ TypeOnly (words t) s)

theorem typeOnly_known {ws : List (List Nat)} {s : Spec} (h : TypeOnly ws s) : s.type ≠ .unknown := by
  have key : ∀ w t, IsType w t → t ≠ .unknown := by
    rintro w t ⟨k, hk, _⟩ rfl
    simp [typeWords] at hk
  cases h with
  | typed ht _ => exact key _ _ ht
  | full _ ht _ => exact key _ _ ht

theorem declare_iff (d : Dict) (n t : List Nat) (d' : Dict) :
    declare d n t = some d' ↔ ∃ s, TypeOnly (words t) s ∧ d' = d.set n s := by
  rw [declare]
  cases hp : parseDecl false t with
  | none =>
    simp only [reduceCtorEq, false_iff]
    rintro ⟨s, hs, _⟩
    rw [(C13_type_grammar t s).2 (.inl hs)] at hp
    simp at hp
  | some p =>
    obtain ⟨s, o⟩ := p
    have huniq : ∀ s', TypeOnly (words t) s' → o = none ∧ s' = s := by
      intro s' h
      have := (C13_type_grammar t s').2 (.inl h)
      rw [hp] at this
      simp only [Option.some.injEq, Prod.mk.injEq] at this
      exact ⟨this.2, this.1.symm⟩
    cases o with
    | some x =>
      simp only [reduceCtorEq, false_iff]
      rintro ⟨s', hs', _⟩
      have := (huniq s' hs').1
      simp at this
    | none =>
      simp only
      by_cases hu : s.type = .unknown
      · rw [if_pos hu]
        simp only [reduceCtorEq, false_iff]
        rintro ⟨s', hs', _⟩
        rw [← (huniq s' hs').2] at hu
        exact typeOnly_known hs' hu
      · rw [if_neg hu]
        rcases (C13_type_grammar t s).1 hp with h | ⟨_, rfl⟩
        · constructor
          · intro h'
            simp only [Option.some.injEq] at h'
            exact ⟨s, h, h'.symm⟩
          · rintro ⟨s', hs', rfl⟩
            rw [(huniq s' hs').2]
        · exact absurd rfl hu

theorem lastDecl_unique {n : List Nat} {h : List (List Nat × List Nat)} {s s' : Spec}
    (h1 : lastDecl n h s) (h2 : lastDecl n h s') : s = s' := by
  induction h with
  | nil => exact h1.elim
  | cons p h ih =>
    obtain ⟨m, t⟩ := p
    rcases h1 with h1 | ⟨h1, _, h1t⟩ <;> rcases h2 with h2 | ⟨h2, _, h2t⟩
    · exact ih h1 h2
    · exact absurd h1 (h2 _)
    · exact absurd h2 (h1 _)
    · have a := (C13_type_grammar t s).2 (.inl h1t)
      rw [(C13_type_grammar t s').2 (.inl h2t)] at a
      simpa using a.symm

theorem declareAll_spec (d : Dict) (h : List (List Nat × List Nat)) (n : List Nat) :
    (∀ s, lastDecl n h s → declareAll d h n = some s) ∧
    ((∀ s, ¬ lastDecl n h s) → declareAll d h n = d n) := by
  induction h generalizing d with
  | nil => exact ⟨fun s h => h.elim, fun _ => rfl⟩
  | cons p h ih =>
    obtain ⟨m, t⟩ := p
    obtain ⟨i1, i2⟩ := ih ((declare d m t).getD d)
    simp only [declareAll]
    constructor
    · rintro s (hs | ⟨hno, rfl, ht⟩)
      · exact i1 s hs
      · rw [i2 hno, (declare_iff d m t _).2 ⟨s, ht, rfl⟩]
        simp [Dict.set]
    · intro hno
      have hno' : ∀ s, ¬ lastDecl n h s := fun s hs => hno s (.inl hs)
      rw [i2 hno']
      cases hd : declare d m t with
      | none => rfl
      | some d' =>
        obtain ⟨s, ht, rfl⟩ := (declare_iff d m t d').1 hd
        have : m ≠ n := by
          rintro rfl
          exact hno s (.inr ⟨hno', rfl, ht⟩)
        simp only [Option.getD_some, Dict.set]
        rw [if_neg (fun h => this h.symm)]

/-- **C14.**  After any history of declarations, a token with an inline type has that type, whatever
was declared; a bare name has the type of its most recent proper declaration, or else the type it had
to begin with; and malformed tokens and unknown names are errors. -/
theorem C14_lookup (d : Dict) (h : List (List Nat × List Nat)) (tok : List Nat) :
    (∀ s n, parseDecl true tok = some (s, some n) → s.type ≠ .unknown →
      lookup (declareAll d h) tok = some (s, n)) ∧
    (∀ n s, words tok = [n] → Decl [n] {} n → lastDecl n h s →
      lookup (declareAll d h) tok = some (s, n)) ∧
    (∀ n, words tok = [n] → Decl [n] {} n → (∀ s, ¬ lastDecl n h s) →
      lookup (declareAll d h) tok = (d n).map fun s => (s, n)) ∧
    (parseDecl true tok = none → lookup (declareAll d h) tok = none) := by
  have hbare : ∀ n, words tok = [n] → Decl [n] {} n → parseDecl true tok = some ({}, some n) := by
    intro n hw hd
    have : n ≠ [91] := by
      generalize hl : [n] = l' at hd
      cases hd with
      | name _ _ h1 _ => exact h1
      | typed _ _ h1 _ => exact h1
      | full _ _ _ h1 _ => exact h1
    rw [C13_grammar_partial _ _ _ this, hw]
    exact hd
  refine ⟨?_, ?_, ?_, ?_⟩
  · intro s n hp ht
    simp only [lookup, hp, ne_eq, ht, not_false_eq_true, if_true]
  · intro n s hw hd hl
    simp only [lookup, hbare n hw hd, ne_eq, not_true_eq_false, if_false]
    rw [(declareAll_spec d h n).1 s hl]
  · intro n hw hd hl
    simp only [lookup, hbare n hw hd, ne_eq, not_true_eq_false, if_false]
    rw [(declareAll_spec d h n).2 hl]
    cases d n <;> rfl
  · intro hp
    simp only [lookup, hp]

/-- Declared `float`, then `color`, then something malformed; other names are unaffected. -/
example : let h := [(kw ['q'], kw ['f','l','o','a','t']), (kw ['q'], kw ['c','o','l','o','r']),
      (kw ['q'], kw ['w','h','a','t'])]
    lookup (declareAll (fun _ => none) h) (kw ['q']) = some ({ type := .color }, kw ['q']) ∧
    lookup (declareAll (fun _ => none) h) (kw ['i','n','t',' ','q']) = some ({ type := .integer }, kw ['q']) ∧
    lookup (declareAll (fun _ => none) h) (kw ['r']) = none := by decide

/-- **C14, frame.**  A declaration never affects other names. -/
theorem C14_other_names (d : Dict) (h : List (List Nat × List Nat)) (n t m : List Nat) (hm : m ≠ n) :
    declareAll d (h ++ [(n, t)]) m = declareAll d h m := by
  induction h generalizing d with
  | nil =>
    simp only [List.nil_append, declareAll]
    cases hd : declare d n t with
    | none => rfl
    | some d' =>
      obtain ⟨s, _, rfl⟩ := (declare_iff d n t d').1 hd
      simp [Dict.set, hm]
  | cons p h ih => exact ih _

example : declareAll (fun _ => none) ([(kw ['a'], kw ['i','n','t'])] ++ [(kw ['b'], kw ['i','n','t'])])
    (kw ['a']) = some { type := .integer } := by
  rw [C14_other_names _ _ _ _ _ (by decide)]
  decide

end Verif.Riutil
