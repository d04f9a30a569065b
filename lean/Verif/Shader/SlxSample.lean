import Verif.Shader.SlxFile
import Verif.Shader.SlxTableLemmas

/-!
# Compiled shaders: the real table, and a library for examples
-/

set_option linter.unusedSectionVars false

namespace Verif.Shader.Slx

variable {F : Type}

/-! ## The real table -/

/-- The machine with its table of instructions, its standard variables and its hash function. -/
def machine (L : Lib F) (tmp me : Nat) : Env F :=
  ⟨{ L with hash := hash64 }, table, stdNames, tmp, me⟩

/-- A decidable form of `Word`. -/
def wordB (n : Nat) (x : Str) : Bool :=
  !x.isEmpty && x.length ≤ n && x.head? != some ':' && x.all (fun c => !space c && c != '\x00')

theorem wordB_iff {n : Nat} {x : Str} (h : wordB n x = true) : Word n x := by
  simp only [wordB, Bool.and_eq_true, decide_eq_true_eq, bne_iff_ne, List.all_eq_true,
    Bool.not_eq_true'] at h
  obtain ⟨⟨⟨h1, h2⟩, h3⟩, h4⟩ := h
  exact ⟨by cases x <;> simp_all, h2, h3, fun c hc => h4 c hc⟩

theorem table_names : ∀ a ∈ table, a.name ∉ ["USES".toList, "segment".toList, "AQSIS_V".toList] ∧
    wordB 254 a.name = true := by decide +kernel

theorem table_free : ∀ a ∈ table, ∀ k ∈ ["USES".toList, "segment".toList, "external".toList],
    hash64 a.name = hash64 k → a.name = k := by decide +kernel

theorem table_skip : ∀ a ∈ table, skip table a.cmd = a.params.length := by
  intro a ha
  unfold skip
  cases h : table.find? (fun r => r.cmd = a.cmd) with
  | none =>
    rw [List.find?_eq_none] at h
    exact absurd (by simp) (h a ha)
  | some b =>
    have hb := List.mem_of_find?_eq_some h
    have hc : b.cmd = a.cmd := by simpa using List.find?_some h
    show b.params.length = a.params.length
    by_cases h1 : a.params = []
    · by_cases h2 : b.params = []
      · rw [h1, h2]
      · exact (table_lengths b hb h2 a ha hc).symm
    · exact table_lengths a ha h1 b hb hc.symm

theorem table_jump : ∀ a ∈ table, a.cmd ∈ jumps → a.params = [.float] := by decide +kernel

theorem keys_apart : ∀ a ∈ keys, ∀ b ∈ keys, hash64 a = hash64 b → a = b := by decide +kernel

theorem machine_ok (L : Lib F) (tmp me : Nat) : EnvOk (machine L tmp me) where
  keys := keys_apart
  rows := table_rows
  free := table_free
  names := fun a ha => ⟨(table_names a ha).1, wordB_iff (table_names a ha).2⟩
  pass := table_skip
  jump := table_jump
  nop := by show skip table "SO_nop".toList = 0; decide +kernel
  colon := by show ∀ k ∈ _, hash64 [':'] ≠ hash64 k; decide +kernel
  std := by show stdNames.length ≤ 0x8000; decide

/-! ## A library for examples -/

/-- Is it a decimal digit? -/
def isDig (c : Char) : Bool := '0' ≤ c && c ≤ '9'

/-- The value of decimal digits. -/
def decVal (ds : Str) : Nat := ds.foldl (fun r c => r * 10 + (c.toNat - 48)) 0

/-- A natural number is read. -/
def readNat (t : Str) : Option (Nat × Str) :=
  if t.takeWhile isDig = [] then none else some (decVal (t.takeWhile isDig), t.dropWhile isDig)

/-- Floats are natural numbers or infinite; what is written for an infinite one cannot be read. -/
def toy : Lib (Option Nat) where
  writeF := fun f => match f with
    | some n => Nat.toDigits 10 n
    | none => "inf".toList
  readF := fun t => (readNat t).map fun p => (some p.1, p.2)
  writeI := fun i => match i with
    | .ofNat n => Nat.toDigits 10 n
    | .negSucc n => '-' :: Nat.toDigits 10 (n + 1)
  readI := fun t => (readNat t).map fun p => ((p.1 : Int), p.2)
  atoi := decVal
  ofNat := some
  toNat := fun f => f.getD 0
  hash := hash64

/-- The machine with this library. -/
def toyE : Env (Option Nat) := machine toy 3 7

theorem space_not_dig {c : Char} (h : space c = true) : isDig c = false := by
  cases hd : isDig c with
  | false => rfl
  | true =>
    simp only [isDig, Bool.and_eq_true, decide_eq_true_eq, char_le] at hd
    have e1 : '0'.toNat = 48 := rfl
    simp only [space, Bool.or_eq_true, beq_iff_eq, Bool.and_eq_true, decide_eq_true_eq] at h
    rcases h with rfl | h
    · exact absurd hd.1 (by decide)
    · omega

theorem readNat_back {w : Str} {n : Nat} (hne : w ≠ []) (hd : w.all isDig = true) (hv : decVal w = n)
    {c : Char} (hc : space c = true) (r : Str) : readNat (w ++ c :: r) = some (n, c :: r) := by
  have h1 : (w ++ c :: r).takeWhile isDig = w ∧ (w ++ c :: r).dropWhile isDig = c :: r := by
    clear hne hv
    induction w with
    | nil => simp [space_not_dig hc]
    | cons a as ih =>
      simp only [List.all_cons, Bool.and_eq_true] at hd
      have := ih hd.2
      simp [hd.1, this.1, this.2]
  rw [readNat, h1.1, h1.2, if_neg hne, hv]

/-- The digits of a number can be read. -/
def readable (n : Nat) : Bool :=
  let w := Nat.toDigits 10 n
  !w.isEmpty && w.all isDig && decVal w == n && w.all (fun c => !space c && c != '\x00')

theorem readable_spec {n : Nat} (h : readable n = true) :
    Nat.toDigits 10 n ≠ [] ∧ (Nat.toDigits 10 n).all isDig = true ∧ decVal (Nat.toDigits 10 n) = n ∧
      ∀ c ∈ Nat.toDigits 10 n, space c = false ∧ c ≠ '\x00' := by
  simp only [readable, Bool.and_eq_true, beq_iff_eq, List.all_eq_true, Bool.not_eq_true', bne_iff_ne] at h
  obtain ⟨⟨⟨h1, h2⟩, h3⟩, h4⟩ := h
  refine ⟨?_, by simpa using h2, h3, h4⟩
  intro h0
  rw [h0] at h1
  simp at h1

theorem head_of {w : Str} (hne : w ≠ []) (h : ∀ c ∈ w, space c = false ∧ c ≠ '\x00') :
    ∃ c r, w = c :: r ∧ space c = false := by
  cases w with
  | nil => exact absurd rfl hne
  | cons a as => exact ⟨a, as, rfl, (h a (by simp)).1⟩

theorem toy_float {n : Nat} (h : readable n = true) :
    Reads toyE.L.readF (toyE.L.writeF (some n)) (some n) := by
  obtain ⟨h1, h2, h3, h4⟩ := readable_spec h
  refine ⟨head_of h1 h4, fun c r hc => ?_⟩
  show (readNat (Nat.toDigits 10 n ++ c :: r)).map _ = _
  rw [readNat_back h1 h2 h3 hc]; rfl

theorem toy_int {n : Nat} (h : readable n = true) :
    Reads toyE.L.readI (toyE.L.writeI (n : Int)) (n : Int) := by
  obtain ⟨h1, h2, h3, h4⟩ := readable_spec h
  refine ⟨head_of h1 h4, fun c r hc => ?_⟩
  show (readNat (Nat.toDigits 10 n ++ c :: r)).map _ = _
  rw [readNat_back h1 h2 h3 hc]; rfl

theorem toy_label {n : Nat} (h : readable n = true) : LabelOk toyE.L n := by
  obtain ⟨h1, h2, h3, h4⟩ := readable_spec h
  refine ⟨⟨head_of h1 h4, fun c r hc => ?_⟩, rfl⟩
  show (readNat (Nat.toDigits 10 n ++ c :: r)).map _ = _
  rw [readNat_back h1 h2 h3 hc]; rfl

theorem toy_len {n : Nat} (h : readable n = true) (h0 : 0 < n) : LenOk toyE.L n := by
  obtain ⟨h1, h2, h3, h4⟩ := readable_spec h
  exact ⟨h0, h3, h4⟩

/-- An example: a surface shader with two parameters, an array, and a temporary of a call. -/
def sample : Shader (Option Nat) where
  type := "surface".toList
  uses := 393216
  vars := [⟨.parameter, .uniform, "float".toList, "Ka".toList, none, false⟩,
    ⟨.output, .varying, "color".toList, "spec".toList, none, false⟩,
    ⟨.temporary, .uniform, "string".toList, "maps".toList, some 12, false⟩,
    ⟨.temporary, .varying, "float".toList, "_1$x".toList, none, true⟩]
  init := [.op "pushif".toList [.num (some 3)], .op "pop".toList [.var "Ka".toList false]]
  code := [.label 1, .op "pushis".toList [.str "a\\n\\x41\\101\\\\ b".toList],
    .op "pushv".toList [.var "Ka".toList false], .op "RS_JZ".toList [.lab 2],
    .op "pushv".toList [.var "Ci".toList false], .op "pop".toList [.var "_1$x".toList true],
    .op "RS_BREAK".toList [.int 1], .op "jmp".toList [.lab 1], .label 2, .op "drop".toList []]

/-- The elements of the program of the example. -/
def sampleCode : List (Elem (Option Nat)) :=
  [.cmd "SO_nop".toList, .cmd "SO_pushis".toList, .str "a\nAA\\ b".toList,
    .cmd "SO_pushv".toList, .var 0, .cmd "SO_RS_JZ".toList, .lab 7 15,
    .cmd "SO_pushv".toList, .var 0x8011, .cmd "SO_pop".toList, .var 3,
    .cmd "SO_RS_BREAK".toList, .int 1, .cmd "SO_jmp".toList, .lab 7 0,
    .cmd "SO_nop".toList, .cmd "SO_drop".toList]

theorem sample_string : Means "a\\n\\x41\\101\\\\ b".toList "a\nAA\\ b".toList := by
  have h : Means ['\\', '\\', ' ', 'b'] ['\\', ' ', 'b'] :=
    .esc (by decide) (.char (by decide) (by decide) (by decide)
      (.char (by decide) (by decide) (by decide) .nil))
  have h1 := Means.oct (c := '1') (ds := ['0', '1']) (by unfold Oct; decide) (by decide) (.inl rfl)
    (by decide) h
  have h2 := Means.hex (ds := ['4', '1']) (by unfold Hex; decide) (by decide) (.inl rfl) h1
  exact .char (by decide) (by decide) (by decide) (.esc (by decide) h2)

theorem sample_good : Good toyE sample where
  type := by decide
  uses := toy_int (n := 393216) (by decide +kernel)
  decls := by
    intro d hd
    have hw : ∀ d ∈ sample.vars, d.ty ∈ varTypes ∧ wordB 253 d.name = true ∧
        (∀ c ∈ d.name, c ≠ '[' ∧ c ≠ ']') ∧ (d.temp = true → d.len = none) := by decide +kernel
    obtain ⟨h1, h2, h3, h4⟩ := hw d hd
    have harr : ∀ d ∈ sample.vars, ∀ n, d.len = some n → LenOk toyE.L n ∧ d.ty ≠ "integer".toList ∧
        d.ty ≠ "bool".toList ∧ d.name.length + (toyE.L.writeI n).length + 2 ≤ 254 := by
      refine List.forall_mem_cons.mpr ⟨fun n hn => (by cases hn), ?_⟩
      refine List.forall_mem_cons.mpr ⟨fun n hn => (by cases hn), ?_⟩
      refine List.forall_mem_cons.mpr ⟨fun n hn => ?_, ?_⟩
      · cases hn
        exact ⟨toy_len (by decide +kernel) (by decide), by decide, by decide, by decide +kernel⟩
      refine List.forall_mem_cons.mpr ⟨fun n hn => (by cases hn), ?_⟩
      exact List.forall_mem_nil _
    exact ⟨h1, wordB_iff h2, h3, h4, harr d hd⟩
  apart := by
    show ∀ a ∈ _, ∀ b ∈ _, hash64 a = hash64 b → a = b
    decide +kernel
  count := by decide
  init := by
    refine List.forall_mem_cons.mpr ⟨?_, ?_⟩
    · exact ⟨row "pushif" "SO_pushif" [.float], by decide +kernel, rfl, by decide,
        .cons ⟨by decide, toy_float (by decide +kernel)⟩ .nil⟩
    refine List.forall_mem_cons.mpr ⟨?_, ?_⟩
    · exact ⟨row "pop" "SO_pop" [.var], by decide +kernel, rfl, by decide,
        .cons ⟨by decide, wordB_iff (by decide)⟩ .nil⟩
    exact List.forall_mem_nil _
  code := by
    refine List.forall_mem_cons.mpr ⟨?_, ?_⟩
    · exact toy_label (by decide +kernel)
    refine List.forall_mem_cons.mpr ⟨?_, ?_⟩
    · exact ⟨row "pushis" "SO_pushis" [.string], by decide +kernel, rfl, by decide,
        .cons ⟨_, sample_string⟩ .nil⟩
    refine List.forall_mem_cons.mpr ⟨?_, ?_⟩
    · exact ⟨row "pushv" "SO_pushv" [.var], by decide +kernel, rfl, by decide,
        .cons ⟨by decide, wordB_iff (by decide)⟩ .nil⟩
    refine List.forall_mem_cons.mpr ⟨?_, ?_⟩
    · exact ⟨row "RS_JZ" "SO_RS_JZ" [.float], by decide +kernel, rfl, by decide,
        .cons ⟨by decide, toy_label (by decide +kernel), by decide⟩ .nil⟩
    refine List.forall_mem_cons.mpr ⟨?_, ?_⟩
    · exact ⟨row "pushv" "SO_pushv" [.var], by decide +kernel, rfl, by decide,
        .cons ⟨by decide, wordB_iff (by decide)⟩ .nil⟩
    refine List.forall_mem_cons.mpr ⟨?_, ?_⟩
    · exact ⟨row "pop" "SO_pop" [.var], by decide +kernel, rfl, by decide,
        .cons ⟨by decide, wordB_iff (by decide)⟩ .nil⟩
    refine List.forall_mem_cons.mpr ⟨?_, ?_⟩
    · exact ⟨row "RS_BREAK" "SO_RS_BREAK" [.int], by decide +kernel, rfl, by decide,
        .cons (toy_int (n := 1) (by decide +kernel)) .nil⟩
    refine List.forall_mem_cons.mpr ⟨?_, ?_⟩
    · exact ⟨row "jmp" "SO_jmp" [.float], by decide +kernel, rfl, by decide,
        .cons ⟨by decide, toy_label (by decide +kernel), by decide⟩ .nil⟩
    refine List.forall_mem_cons.mpr ⟨?_, ?_⟩
    · exact toy_label (by decide +kernel)
    refine List.forall_mem_cons.mpr ⟨?_, ?_⟩
    · exact ⟨row "drop" "SO_drop" [], by decide +kernel, rfl, by decide, .nil⟩
    exact List.forall_mem_nil _
  labels := by decide

end Verif.Shader.Slx
