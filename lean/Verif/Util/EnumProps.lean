import Verif.Util.Enum
/-!
# C23: enumeration names and values
-/
namespace Verif.Util.Enum

theorem pairLE_trans (a b c : Nat × Nat) : pairLE a b = true → pairLE b c = true → pairLE a c = true := by
  simp only [pairLE, Bool.or_eq_true, decide_eq_true_eq, Bool.and_eq_true, beq_iff_eq]
  omega

theorem pairLE_total (a b : Nat × Nat) : (pairLE a b || pairLE b a) = true := by
  simp only [pairLE, Bool.or_eq_true, decide_eq_true_eq, Bool.and_eq_true, beq_iff_eq]
  omega

theorem mem_pairs (h : List Nat → Nat) (names : List (List Nat)) (p : Nat × Nat) :
    p ∈ pairs h names ↔ ∃ s, names[p.2]? = some s ∧ p.1 = h s := by
  simp only [pairs, List.mem_map, Prod.exists, List.mem_zipIdx_iff_getElem?]
  constructor
  · rintro ⟨s, i, hi, rfl⟩
    exact ⟨s, hi, rfl⟩
  · rintro ⟨s, hs, hp⟩
    exact ⟨s, p.2, hs, by rw [← hp]⟩

/-- Scanning a sorted list of candidates finds the least value with that name. -/
theorem scan_spec (h : List Nat → Nat) (names : List (List Nat)) (s : List Nat) (l : List (Nat × Nat))
    (hs : l.Pairwise (fun a b => pairLE a b = true))
    (hm : ∀ p ∈ l, ∃ t, names[p.2]? = some t ∧ p.1 = h t) (hge : ∀ p ∈ l, h s ≤ p.1) :
    (∀ v, scanLoop names (h s) s l = some v →
      names[v]? = some s ∧ ∀ p ∈ l, names[p.2]? = some s → v ≤ p.2) ∧
    (scanLoop names (h s) s l = none → ∀ p ∈ l, names[p.2]? ≠ some s) := by
  induction l with
  | nil => simp [scanLoop]
  | cons p ps ih =>
    rw [List.pairwise_cons] at hs
    obtain ⟨i1, i2⟩ := ih hs.2 (fun q hq => hm q (by simp [hq])) (fun q hq => hge q (by simp [hq]))
    simp only [scanLoop]
    by_cases h1 : p.1 = h s
    · rw [if_pos h1]
      by_cases h2 : names[p.2]? = some s
      · rw [if_pos h2]
        refine ⟨?_, by simp⟩
        intro v hv
        simp only [Option.some.injEq] at hv
        subst hv
        refine ⟨h2, ?_⟩
        intro q hq hqs
        simp only [List.mem_cons] at hq
        rcases hq with rfl | hq
        · exact Nat.le_refl _
        · have hle := hs.1 q hq
          obtain ⟨t, ht, hqt⟩ := hm q (by simp [hq])
          rw [hqs] at ht
          simp only [Option.some.injEq] at ht
          subst ht
          simp only [pairLE, Bool.or_eq_true, decide_eq_true_eq, Bool.and_eq_true, beq_iff_eq] at hle
          omega
      · rw [if_neg h2]
        constructor
        · intro v hv
          obtain ⟨a, b⟩ := i1 v hv
          refine ⟨a, ?_⟩
          intro q hq hqs
          simp only [List.mem_cons] at hq
          rcases hq with rfl | hq
          · exact absurd hqs h2
          · exact b q hq hqs
        · intro hn q hq
          simp only [List.mem_cons] at hq
          rcases hq with rfl | hq
          · exact h2
          · exact i2 hn q hq
    · rw [if_neg h1]
      refine ⟨by simp, ?_⟩
      intro _ q hq hqs
      have hle : p.1 ≤ q.1 := by
        simp only [List.mem_cons] at hq
        rcases hq with rfl | hq
        · exact Nat.le_refl _
        · have := hs.1 q hq
          simp only [pairLE, Bool.or_eq_true, decide_eq_true_eq, Bool.and_eq_true, beq_iff_eq] at this
          omega
      obtain ⟨t, ht, hqt⟩ := hm q hq
      rw [hqs] at ht
      simp only [Option.some.injEq] at ht
      subst ht
      have := hge p (by simp)
      omega

/-- **C23, from names to values.**  For every hash function — however much it collides — looking a
string up gives the least value that has it for a name, or the default if none has. -/
theorem C23_value_from_string (h : List Nat → Nat) (names : List (List Nat)) (dflt : Nat) (s : List Nat) :
    (∃ v, valueFromString h names dflt s = v ∧ names[v]? = some s ∧
      ∀ w, names[w]? = some s → v ≤ w) ∨
    (valueFromString h names dflt s = dflt ∧ ∀ w : Nat, names[w]? ≠ some s) := by
  have hsorted : (initLookup h names).Pairwise (fun a b => pairLE a b = true) :=
    List.pairwise_mergeSort pairLE_trans pairLE_total _
  have hmem : ∀ p, p ∈ initLookup h names ↔ p ∈ pairs h names := fun p => List.mem_mergeSort
  have hdrop := List.dropWhile_suffix (fun (p : Nat × Nat) => decide (p.1 < h s)) (l := initLookup h names)
  have hm : ∀ p ∈ (initLookup h names).dropWhile (fun p => decide (p.1 < h s)),
      ∃ t, names[p.2]? = some t ∧ p.1 = h t :=
    fun p hp => (mem_pairs h names p).1 ((hmem p).1 (hdrop.subset hp))
  have hge : ∀ p ∈ (initLookup h names).dropWhile (fun p => decide (p.1 < h s)), h s ≤ p.1 := by
    have key : ∀ l : List (Nat × Nat), l.Pairwise (fun a b => pairLE a b = true) →
        ∀ p ∈ l.dropWhile (fun p => decide (p.1 < h s)), h s ≤ p.1 := by
      intro l hl
      induction l with
      | nil => simp
      | cons q l ih =>
        rw [List.pairwise_cons] at hl
        by_cases hq : q.1 < h s
        · rw [List.dropWhile_cons_of_pos (by simpa using hq)]
          exact ih hl.2
        · rw [List.dropWhile_cons_of_neg (by simpa using hq)]
          intro p hp
          simp only [List.mem_cons] at hp
          rcases hp with rfl | hp
          · omega
          · have := hl.1 p hp
            simp only [pairLE, Bool.or_eq_true, decide_eq_true_eq, Bool.and_eq_true, beq_iff_eq] at this
            omega
    exact key _ hsorted
  have hall : ∀ w, names[w]? = some s →
      (h s, w) ∈ (initLookup h names).dropWhile (fun p => decide (p.1 < h s)) := by
    intro w hw
    have hin : (h s, w) ∈ initLookup h names := (hmem _).2 ((mem_pairs h names _).2 ⟨s, hw, rfl⟩)
    rw [← List.takeWhile_append_dropWhile (p := fun p : Nat × Nat => decide (p.1 < h s))
      (l := initLookup h names), List.mem_append] at hin
    rcases hin with hin | hin
    · have := List.all_eq_true.1 (List.all_takeWhile (p := fun p : Nat × Nat => decide (p.1 < h s))
        (l := initLookup h names)) _ hin
      simp at this
    · exact hin
  obtain ⟨k1, k2⟩ := scan_spec h names s _ (hsorted.sublist hdrop.sublist) hm hge
  simp only [valueFromString]
  cases hsc : scanLoop names (h s) s ((initLookup h names).dropWhile fun p => decide (p.1 < h s)) with
  | some v =>
    left
    obtain ⟨a, b⟩ := k1 v hsc
    exact ⟨v, rfl, a, fun w hw => b _ (hall w hw) hw⟩
  | none =>
    right
    exact ⟨rfl, fun w hw => k2 hsc _ (hall w hw) hw⟩

/-- Unknown names give the default. -/
example : valueFromString (hash 64) variableTypeNames 3 (kw ['p','o','i','n']) = 3 := by
  rcases C23_value_from_string (hash 64) variableTypeNames 3 (kw ['p','o','i','n']) with ⟨v, _, h, _⟩ | h
  · have := List.mem_of_getElem? h
    revert this
    decide
  · exact h.1

/-- **C23, round trip.**  With distinct names, converting a value to its name and back gives the
value, for every hash function. -/
theorem C23_round_trip (h : List Nat → Nat) (names : List (List Nat)) (hd : names.Nodup) (dflt v : Nat)
    (s : List Nat) (hs : stringFromValue names v = some s) : valueFromString h names dflt s = v := by
  rcases C23_value_from_string h names dflt s with ⟨w, hw, hw', _⟩ | ⟨_, hno⟩
  · rw [hw]
    obtain ⟨h1, h2⟩ := List.getElem?_eq_some_iff.1 hw'
    obtain ⟨h3, h4⟩ := List.getElem?_eq_some_iff.1 hs
    exact (List.getElem_inj hd).1 (h2.trans h4.symm)
  · exact absurd hs (hno v)

/-- All strings colliding: still found. -/
example : valueFromString (fun _ => 7) wrapModeNames 0 (kw ['c','l','a','m','p']) = 2 :=
  C23_round_trip _ _ (by decide) _ _ _ rfl

/-- The names in the tables are distinct, so the theorem applies to them. -/
theorem C23_tables_distinct : variableClassNames.Nodup ∧ variableTypeNames.Nodup ∧ wrapModeNames.Nodup ∧
    channelTypeNames.Nodup := by decide

/-- **C23, streams.**  Reading a name without blanks back from a stream gives the value, whatever
blanks come before it and whatever comes after a blank. -/
theorem C23_stream_round_trip (h : List Nat → Nat) (names : List (List Nat)) (hd : names.Nodup)
    (dflt v : Nat) (s pre post : List Nat) (hs : stringFromValue names v = some s) (hne : s ≠ [])
    (hb : ∀ c ∈ s, ¬ (c = 32 ∨ 9 ≤ c ∧ c ≤ 13)) (hpre : ∀ c ∈ pre, c = 32 ∨ 9 ≤ c ∧ c ≤ 13)
    (hpost : ∀ c ∈ post.head?, c = 32 ∨ 9 ≤ c ∧ c ≤ 13) :
    extract h names dflt (pre ++ s ++ post) = v := by
  have spec : ∀ c, isSpace c = true ↔ c = 32 ∨ 9 ≤ c ∧ c ≤ 13 := by simp [isSpace]
  have hb : ∀ c ∈ s, isSpace c = false := fun c hc => by
    have := hb c hc
    rw [← spec] at this
    simpa using this
  have hpre : ∀ c ∈ pre, isSpace c = true := fun c hc => (spec c).2 (hpre c hc)
  have hpost : ∀ c ∈ post.head?, isSpace c = true := fun c hc => (spec c).2 (hpost c hc)
  have h1 : (pre ++ s ++ post).dropWhile isSpace = s ++ post := by
    rw [List.append_assoc, List.dropWhile_append_of_pos hpre]
    obtain ⟨c, s, rfl⟩ := List.exists_cons_of_ne_nil hne
    have := hb c (by simp)
    simp [this]
  have h2 : (s ++ post).takeWhile (!isSpace ·) = s := by
    rw [List.takeWhile_append_of_pos (by simpa using hb)]
    cases post with
    | nil => simp
    | cons c post =>
      have := hpost c (by simp)
      simp [this]
  rw [extract, h1, h2]
  exact C23_round_trip h names hd dflt v s hs

/-- Two wrap modes written with a space between them, as in a texture file. -/
example : extract (hash 64) wrapModeNames 0 (kw [' ','c','l','a','m','p',' ','t','r','u','n','c']) = 2 :=
  C23_stream_round_trip (hash 64) wrapModeNames C23_tables_distinct.2.2.1 0 2 (kw ['c','l','a','m','p'])
    (kw [' ']) (kw [' ','t','r','u','n','c']) rfl (by decide) (by decide) (by decide) (by decide)

/-- Names that some types go by. -/
def ChannelType.properName : ChannelType → List Nat
  | .float32 => kw ['f','l','o','a','t','3','2']
  | .unsigned32 => kw ['u','i','n','t','3','2']
  | .signed32 => kw ['i','n','t','3','2']
  | .float16 => kw ['f','l','o','a','t','1','6']
  | .unsigned16 => kw ['u','i','n','t','1','6']
  | .signed16 => kw ['i','n','t','1','6']
  | .unsigned8 => kw ['u','i','n','t','8']
  | .signed8 => kw ['i','n','t','8']
  | .typeUnknown => kw ['u','n','k','n','o','w','n','_','c','h','a','n','n','e','l']

/-- The channel type whose name the strings give to a type. -/
def ChannelType.calledAs : ChannelType → ChannelType
  | .float32 => .unsigned32
  | .unsigned32 => .signed32
  | .signed32 => .float32
  | .float16 => .unsigned16
  | .unsigned16 => .signed16
  | .signed16 => .float16
  | .unsigned8 => .signed8
  | .signed8 => .unsigned8
  | .typeUnknown => .typeUnknown

/-- **C23 fails** for channel types: the strings are in another order than the constants, so that
every proper type has the name of another one (32 bit floats are called `uint32`). -/
theorem C23_channel_names_violated (t : ChannelType) :
    stringFromValue channelTypeNames t.value = some t.calledAs.properName ∧
    (t ≠ .typeUnknown → t.calledAs.properName ≠ t.properName) := by
  cases t <;> decide

example : stringFromValue channelTypeNames ChannelType.float32.value = some (kw ['u','i','n','t','3','2']) := by
  decide

end Verif.Util.Enum
