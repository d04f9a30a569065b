import Verif.Rib.BinaryLemmas
import Verif.Rib.AsciiWriter

namespace Verif.Rib

/-! ### Strings -/

theorem readString_plain (acc : List Nat) (c : Nat) (r : List Nat) (h1 : c ≠ 34) (h2 : c ≠ 92)
    (h3 : c ≠ 13) (h4 : c ≠ 255) : readString acc (c :: r) = readString (c :: acc) r := by
  conv => lhs; rw [readString.eq_def]
  dsimp only
  rw [if_neg h1, if_neg h2, if_neg h3, if_neg h4]

theorem readString_quote (acc r) : readString acc (34 :: r) = (.str acc.reverse, r) := by
  rw [readString.eq_def]
  dsimp only
  rw [if_pos rfl]

theorem readString_bs (acc : List Nat) (d : Nat) (r : List Nat) (h : d ≠ 32) :
    readString acc (92 :: d :: r) = readString (d :: 92 :: acc) r := by
  conv => lhs; rw [readString.eq_def]
  dsimp only
  rw [if_neg (by omega), if_pos rfl, if_neg h]

theorem octDigits_cases (c : Nat) (h : c < 256) :
    (∃ a, octDigits c = [48 + a] ∧ a < 8) ∨ (∃ a b, octDigits c = [48 + a, 48 + b] ∧ a < 8 ∧ b < 8) ∨
      (∃ a b d, octDigits c = [48 + a, 48 + b, 48 + d] ∧ a < 8 ∧ b < 8 ∧ d < 8) := by
  rw [octDigits]
  by_cases h1 : c < 8
  · rw [if_pos h1]; exact .inl ⟨c, rfl, h1⟩
  rw [if_neg h1]
  by_cases h2 : c < 64
  · rw [if_pos h2]; exact .inr (.inl ⟨_, _, rfl, by omega, by omega⟩)
  rw [if_neg h2]
  exact .inr (.inr ⟨_, _, _, rfl, by omega, by omega, by omega⟩)

theorem readString_esc (acc : List Nat) (c : Nat) (r : List Nat) (h : c < 256) :
    readString acc (escChar c ++ r) = readString ((escChar c).reverse ++ acc) r := by
  rw [escChar]
  by_cases h1 : c = 34
  · rw [if_pos h1]; exact readString_bs _ _ _ (by omega)
  rw [if_neg h1]
  by_cases h2 : c = 10
  · rw [if_pos h2]; exact readString_bs _ _ _ (by omega)
  rw [if_neg h2]
  by_cases h3 : c = 13
  · rw [if_pos h3]; exact readString_bs _ _ _ (by omega)
  rw [if_neg h3]
  by_cases h4 : c = 9
  · rw [if_pos h4]; exact readString_bs _ _ _ (by omega)
  rw [if_neg h4]
  by_cases h5 : c = 8
  · rw [if_pos h5]; exact readString_bs _ _ _ (by omega)
  rw [if_neg h5]
  by_cases h6 : c = 12
  · rw [if_pos h6]; exact readString_bs _ _ _ (by omega)
  rw [if_neg h6]
  by_cases h7 : c = 92
  · rw [if_pos h7]; exact readString_bs _ _ _ (by omega)
  rw [if_neg h7]
  by_cases h8 : 32 ≤ c ∧ c ≤ 176
  · rw [if_pos h8]; exact readString_plain _ _ _ h1 h7 h3 (by omega)
  rw [if_neg h8]
  rcases octDigits_cases c h with ⟨a, ho, _⟩ | ⟨a, b, ho, _, _⟩ | ⟨a, b, d, ho, _, _, _⟩
  · rw [ho]; exact readString_bs _ _ _ (by omega)
  · rw [ho]
    simp only [List.cons_append, List.nil_append, List.reverse_cons, List.reverse_nil]
    rw [readString_bs _ _ _ (by omega), readString_plain _ _ _ (by omega) (by omega) (by omega) (by omega)]
  · rw [ho]
    simp only [List.cons_append, List.nil_append, List.reverse_cons, List.reverse_nil]
    rw [readString_bs _ _ _ (by omega), readString_plain _ _ _ (by omega) (by omega) (by omega) (by omega),
      readString_plain _ _ _ (by omega) (by omega) (by omega) (by omega)]

theorem readString_escs (s : List Nat) (h : ∀ c ∈ s, c < 256) (acc r : List Nat) :
    readString acc (s.flatMap escChar ++ 34 :: r) = (.str (acc.reverse ++ s.flatMap escChar), r) := by
  induction s generalizing acc with
  | nil => simp [readString_quote]
  | cons c s ih =>
    simp only [List.flatMap_cons, List.append_assoc]
    rw [readString_esc _ _ _ (h c (by simp)), ih fun x hx => h x (by simp [hx])]
    simp [List.append_assoc]

theorem scan_asciiStr {st : TkSt} (ha : st.arr < 0) (s : List Nat) (h : ∀ c ∈ s, c < 256) (r) :
    scan st (asciiStr s ++ r) = (.str (s.flatMap escChar), st, r) := by
  rw [asciiStr, List.cons_append, List.append_assoc]
  apply scan_char ha (by omega) (by omega) (by omega)
  rw [scanChar, if_neg (by decide), if_neg (by decide), if_neg (by decide), if_pos rfl]
  simp only [List.singleton_append, readString_escs s h, List.reverse_nil, List.nil_append]

/-! ### Numbers -/

theorem digitsVal_append (a : List Nat) (d : Nat) : digitsVal (a ++ [d]) = digitsVal a * 10 + (d - 48) := by
  simp [digitsVal, List.foldl_append]

theorem digitsVal_decDigits (n : Nat) : digitsVal (decDigits n) = n := by
  induction n using Nat.strongRecOn with
  | _ n ih =>
    rw [decDigits]
    by_cases h : n < 10
    · rw [if_pos h]; simp [digitsVal]
    · rw [if_neg h, digitsVal_append, ih (n / 10) (by omega)]; omega

/-- Spec: the decimal text of a number. -/
def decText (n : Nat) : List Nat := (Nat.toDigits 10 n).map Char.toNat

theorem digitChar_toNat : ∀ n < 10, (Nat.digitChar n).toNat = 48 + n := by decide

theorem decDigits_eq (n : Nat) : decDigits n = decText n := by
  induction n using Nat.strongRecOn with
  | _ n ih =>
    rw [decDigits, decText, Nat.toDigits_eq_if (by decide)]
    by_cases h : n < 10
    · rw [if_pos h, if_pos h]; simp [digitChar_toNat n h]
    · rw [if_neg h, if_neg h, ih (n / 10) (by omega)]
      simp [decText, digitChar_toNat (n % 10) (by omega)]

theorem decDigits_isDigit (n : Nat) : ∀ c ∈ decDigits n, isDigit c = true := by
  induction n using Nat.strongRecOn with
  | _ n ih =>
    rw [decDigits]
    by_cases h : n < 10
    · rw [if_pos h]; simp [isDigit]; omega
    · rw [if_neg h]
      intro c hc
      rcases List.mem_append.1 hc with hc | hc
      · exact ih (n / 10) (by omega) c hc
      · simp at hc; subst hc; simp [isDigit]; omega

theorem decDigits_ne_nil (n : Nat) : decDigits n ≠ [] := by
  rw [decDigits]; by_cases h : n < 10
  · rw [if_pos h]; simp
  · rw [if_neg h]; simp

/-- The next character does not continue a digit string. -/
def NoDigit (r : List Nat) : Prop := ∀ c ∈ r.head?, isDigit c = false

theorem takeWhile_digits (ds r : List Nat) (h : ∀ c ∈ ds, isDigit c = true) (hr : NoDigit r) :
    (ds ++ r).takeWhile isDigit = ds ∧ (ds ++ r).dropWhile isDigit = r := by
  induction ds with
  | nil =>
    cases r with
    | nil => simp
    | cons c r => have := hr c (by simp); simp [this]
  | cons d ds ih =>
    have := h d (by simp)
    have ih' := ih fun c hc => h c (by simp [hc])
    simp [this, ih'.1, ih'.2]

theorem readSign_digit (c : Nat) (r : List Nat) (h1 : c ≠ 43) (h2 : c ≠ 45) :
    readSign (c :: r) = (false, c :: r) := by
  unfold readSign; split
  · rename_i heq; simp at heq; omega
  · rename_i heq; simp at heq; omega
  · rfl

/-- Text of an optional sign. -/
def signText : Option Bool → List Nat
  | none => []
  | some false => [43]
  | some true => [45]

theorem readSign_text (s : Option Bool) (r : List Nat) (h : ∀ c ∈ r.head?, c ≠ 43 ∧ c ≠ 45) :
    readSign (signText s ++ r) = (s == some true, r) := by
  rcases s with _ | _ | _
  · cases r with
    | nil => rfl
    | cons c r =>
      have := h c (by simp)
      exact readSign_digit c r this.1 this.2
  · rfl
  · rfl

theorem head_append_digits (ds r : List Nat) (h : ∀ c ∈ ds, isDigit c = true)
    (hr : ∀ c ∈ r.head?, c ≠ 43 ∧ c ≠ 45) : ∀ c ∈ (ds ++ r).head?, c ≠ 43 ∧ c ≠ 45 := by
  cases ds with
  | nil => exact hr
  | cons d ds =>
    intro c hc
    simp at hc; subst hc
    have := h d (by simp)
    simp [isDigit] at this; omega

/-- What may follow an integer: not a digit, a point or an exponent mark. -/
def IntEnd (r : List Nat) : Prop := ∀ c ∈ r.head?, isDigit c = false ∧ c ≠ 46 ∧ isExpChar c = false

theorem readNumber_int (s : Option Bool) (ds r : List Nat) (hd : ∀ c ∈ ds, isDigit c = true)
    (hne : ds ≠ []) (hv : digitsVal ds ≤ 2147483647) (hr : IntEnd r) :
    readNumber (signText s ++ (ds ++ r)) =
      (.int (if s = some true then -(digitsVal ds : Int) else digitsVal ds), r) := by
  have hs := readSign_text s (ds ++ r) (by
    cases ds with
    | nil => exact absurd rfl hne
    | cons d ds =>
      intro c hc; simp at hc; subst hc
      have := hd d (by simp); simp [isDigit] at this; omega)
  have ht := takeWhile_digits ds r hd (fun c hc => (hr c hc).1)
  rw [readNumber]
  simp only [hs, ht.1, ht.2]
  rw [if_neg (by simp [overflows]; omega)]
  have hsign : (s == some true) = true ↔ s = some true := by simp
  cases r with
  | nil => simp only [hne, if_false, hsign]
  | cons c r =>
    have hc := hr c (by simp)
    split
    · rename_i heq; simp at heq; exact absurd heq.1 hc.2.1
    · rename_i c' r' hne46 heq
      injection heq with e1 e2; subst e1; subst e2
      rw [if_neg (by simp [hc.2.2]), if_neg hne]
      simp only [hsign]
    · rename_i heq; simp at heq

theorem scan_number {st : TkSt} (ha : st.arr < 0) (c : Nat) (r : List Nat) (h : isNumStart c = true) :
    scan st (c :: r) = ((readNumber (c :: r)).1, st, (readNumber (c :: r)).2) := by
  have h' : isSpace c = false ∧ c ≠ 35 ∧ c ≠ 204 ∧ c ≠ 205 ∧ c ≠ 206 := by
    simp [isNumStart, isDigit] at h; simp [isSpace]; omega
  apply scan_char ha h'.2.2.1 h'.2.2.2.1 h'.2.2.2.2
  rw [scanChar, if_neg (by simp [h'.1]), if_neg h'.2.1, if_pos h]

theorem signText_neg (i : Int) : asciiInt i = signText (if i < 0 then some true else none) ++ decDigits i.natAbs := by
  rw [asciiInt]
  by_cases h : i < 0
  · simp [h, signText]
  · simp [h, signText]

theorem scan_asciiInt {st : TkSt} (ha : st.arr < 0) (i : Int) (h1 : -2 ^ 31 < i) (h2 : i < 2 ^ 31) (r)
    (hr : IntEnd r) : scan st (asciiInt i ++ r) = (.int i, st, r) := by
  have hn := readNumber_int (if i < 0 then some true else none) (decDigits i.natAbs) r
    (decDigits_isDigit _) (decDigits_ne_nil _) (by rw [digitsVal_decDigits]; omega) hr
  have hval : (if (if i < 0 then some true else none : Option Bool) = some true then -(digitsVal (decDigits i.natAbs) : Int)
      else digitsVal (decDigits i.natAbs)) = i := by
    rw [digitsVal_decDigits]
    by_cases h : i < 0
    · simp [h]; omega
    · simp [h]; omega
  rw [hval] at hn
  rw [signText_neg, List.append_assoc]
  obtain ⟨c, l, hl, hc⟩ : ∃ c l, signText (if i < 0 then some true else none) ++ (decDigits i.natAbs ++ r) = c :: l ∧
      isNumStart c = true := by
    by_cases h : i < 0
    · simp [h, signText, isNumStart]
    · obtain ⟨d, ds, hd⟩ := List.exists_cons_of_ne_nil (decDigits_ne_nil i.natAbs)
      have := decDigits_isDigit i.natAbs d (by simp [hd])
      refine ⟨d, ds ++ r, by simp [h, signText, hd], by simp [isNumStart, this]⟩
  rw [hl, scan_number ha c l hc, ← hl, hn]

/-! ### Requests and whole streams -/

/-- Separators emitted by the formatter after every token. -/
def Sep (r : List Nat) : Prop := ∃ c r', r = c :: r' ∧ (c = 32 ∨ c = 93 ∨ c = 10)

theorem Sep.intEnd {r} (h : Sep r) : IntEnd r := by
  obtain ⟨c, r', rfl, h⟩ := h
  intro d hd
  simp at hd; subst hd
  rcases h with rfl | rfl | rfl <;> decide

/-- A request name that can be written in ASCII form. -/
def NameOk (n : List Nat) : Prop :=
  n ≠ [] ∧ (∀ c ∈ n, isReqChar c = true) ∧ ∀ c ∈ n.head?, isNumStart c = false

theorem scan_request {st : TkSt} (ha : st.arr < 0) (n r : List Nat) (hn : NameOk n) (hr : Sep r) :
    scan st (n ++ r) = (.req n, st, r) := by
  obtain ⟨hne, hch, hhd⟩ := hn
  obtain ⟨c, n', rfl⟩ := List.exists_cons_of_ne_nil hne
  have hc := hch c (by simp)
  have hc2 := hhd c (by simp)
  have htake : (c :: n' ++ r).takeWhile isReqChar = c :: n' ∧ (c :: n' ++ r).dropWhile isReqChar = r := by
    have : ∀ n : List Nat, (∀ c ∈ n, isReqChar c = true) →
        (n ++ r).takeWhile isReqChar = n ∧ (n ++ r).dropWhile isReqChar = r := by
      intro n hn
      induction n with
      | nil =>
        obtain ⟨c, r', rfl, h⟩ := hr
        rcases h with rfl | rfl | rfl <;> simp [isReqChar]
      | cons d n ih =>
        have hd := hn d (by simp)
        have ih' := ih fun x hx => hn x (by simp [hx])
        simp [hd, ih'.1, ih'.2]
    exact this _ hch
  have hcc : isSpace c = false ∧ c ≠ 35 ∧ c ≠ 34 ∧ c ≠ 91 ∧ c ≠ 93 ∧ c < 128 := by
    simp [isReqChar] at hc; simp [isSpace]; omega
  rw [List.cons_append]
  apply scan_char ha (by omega) (by omega) (by omega)
  rw [scanChar, if_neg (by simp [hcc.1]), if_neg hcc.2.1, if_neg (by simp [hc2]), if_neg hcc.2.2.1,
    if_neg hcc.2.2.2.1, if_neg hcc.2.2.2.2.1, if_pos hcc.2.2.2.2.2]
  simp only [readRequest, ← List.cons_append, htake.1, htake.2]

/-- The text `t` reads as the single token `k` whenever a separator follows. -/
def ReadsAs (t : List Nat) (k : Tok) : Prop :=
  ∀ (st : TkSt), st.arr < 0 → ∀ r, Sep r → scan st (t ++ r) = (k, st, r)

/-- The tokens of an argument written in ASCII form: strings come back escaped, floats as the
tokens `ftok` of their text. -/
def asciiTokens (ftok : Nat → Tok) : WArg → List Tok
  | .int i => [.int i]
  | .float b => [ftok b]
  | .str s => [.str (s.flatMap escChar)]
  | .ints a => .arrayBegin :: (a.map .int ++ [.arrayEnd])
  | .floats a => .arrayBegin :: (a.map ftok ++ [.arrayEnd])
  | .strs a => .arrayBegin :: (a.map (fun s => .str (s.flatMap escChar)) ++ [.arrayEnd])

def AsciiOk : WArg → Prop
  | .int i => -2 ^ 31 < i ∧ i < 2 ^ 31
  | .float _ => True
  | .str s => ∀ c ∈ s, c < 256
  | .ints a => ∀ i ∈ a, -2 ^ 31 < i ∧ i < 2 ^ 31
  | .floats _ => True
  | .strs a => ∀ s ∈ a, ∀ c ∈ s, c < 256

def AsciiOpOk : WOp → Prop
  | .request name args => NameOk name ∧ ∀ a ∈ args, AsciiOk a
  | .comment t => ∀ c ∈ t, c ≠ 10 ∧ c ≠ 13 ∧ c ≠ 255

def asciiOpTokens (ftok : Nat → Tok) : WOp → List Tok
  | .request name args => .req name :: args.flatMap (asciiTokens ftok)
  | .comment _ => []

theorem reads_array {α} {st : TkSt} (ha : st.arr < 0) (f : α → List Nat) (g : α → Tok) (a : List α)
    (h : ∀ x ∈ a, ReadsAs (f x) (g x)) (r) :
    Reads st (asciiArray (a.map f) ++ r) (.arrayBegin :: (a.map g ++ [.arrayEnd])) st r := by
  have key : ∀ a : List α, (∀ x ∈ a, ReadsAs (f x) (g x)) → ∀ r,
      Reads st (sepBy (a.map f) ++ 93 :: r) (a.map g) st (93 :: r) := by
    intro a
    induction a with
    | nil => intro h r; exact .nil _ _
    | cons x xs ih =>
      intro h r
      have hx := h x (by simp)
      have ih' := ih (fun y hy => h y (by simp [hy])) r
      cases xs with
      | nil => exact .one (hx st ha _ ⟨93, r, rfl, by omega⟩)
      | cons y ys =>
        simp only [List.map_cons, sepBy, List.append_assoc, List.cons_append] at ih' ⊢
        exact .cons (hx st ha _ ⟨32, _, rfl, by omega⟩) (Reads.skip (scan_space ha rfl) (by simp) ih')
  rw [asciiArray, List.cons_append, List.append_assoc]
  exact .cons (scan_bracket ha _).1 ((key a h r).append (.one (scan_bracket ha _).2))

theorem reads_asciiArg {st : TkSt} (ha : st.arr < 0) (ftext ftok) (hf : ∀ b, ReadsAs (ftext b) (ftok b))
    (a : WArg) (h : AsciiOk a) (r) (hr : Sep r) :
    Reads st (asciiArg ftext a ++ r) (asciiTokens ftok a) st r := by
  cases a with
  | int i => exact .one (scan_asciiInt ha i h.1 h.2 r hr.intEnd)
  | float b => exact .one (hf b st ha r hr)
  | str s => exact .one (scan_asciiStr ha s h r)
  | ints a =>
    exact reads_array ha _ _ a (fun i hi st ha r hr => scan_asciiInt ha i (h i hi).1 (h i hi).2 r hr.intEnd) r
  | floats a => exact reads_array ha _ _ a (fun b _ => hf b) r
  | strs a =>
    exact reads_array ha _ _ a (fun s hs st ha r hr => scan_asciiStr ha s (h s hs) r) r

theorem reads_asciiArgs {st : TkSt} (ha : st.arr < 0) (ftext ftok) (hf : ∀ b, ReadsAs (ftext b) (ftok b))
    (as : List WArg) (h : ∀ a ∈ as, AsciiOk a) (r) (hr : Sep r) :
    Reads st (as.flatMap (fun a => 32 :: asciiArg ftext a) ++ r) (as.flatMap (asciiTokens ftok)) st r := by
  induction as with
  | nil => exact .nil _ _
  | cons a as ih =>
    simp only [List.flatMap_cons, List.cons_append, List.append_assoc]
    have hsep : Sep (as.flatMap (fun a => 32 :: asciiArg ftext a) ++ r) := by
      cases as with
      | nil => exact hr
      | cons b bs => exact ⟨32, _, rfl, by omega⟩
    have h1 := reads_asciiArg ha ftext ftok hf a (h a (by simp)) _ hsep
    have h2 := ih fun x hx => h x (by simp [hx])
    refine Reads.append (Reads.skip (scan_space ha rfl) ?_ h1) h2
    cases a <;> simp [asciiTokens]

theorem scan_spaces {st : TkSt} (ha : st.arr < 0) (sp r : List Nat) (h : ∀ c ∈ sp, isSpace c = true) :
    scan st (sp ++ r) = scan st r := by
  induction sp with
  | nil => rfl
  | cons c sp ih =>
    rw [List.cons_append, scan_space ha (h c (by simp)), ih fun x hx => h x (by simp [hx])]

theorem reads_asciiOps {st : TkSt} (ha : st.arr < 0) (ftext ftok) (hf : ∀ b, ReadsAs (ftext b) (ftok b))
    (ops : List (List Nat × WOp)) (h : ∀ p ∈ ops, (∀ c ∈ p.1, isSpace c = true) ∧ AsciiOpOk p.2) :
    Reads st (asciiOps ftext ops) (ops.flatMap (fun p => asciiOpTokens ftok p.2) ++ [.eof]) st [] := by
  induction ops with
  | nil => exact .one (scan_nil st ha)
  | cons p ops ih =>
    obtain ⟨ind, o⟩ := p
    have hp := h (ind, o) (by simp)
    have ih' := ih fun x hx => h x (by simp [hx])
    simp only [asciiOps, List.flatMap_cons, List.append_assoc] at ih' ⊢
    have hne : ops.flatMap (fun p => asciiOpTokens ftok p.2) ++ [Tok.eof] ≠ [] := by simp
    generalize ops.flatMap (fun p => asciiOpTokens ftok p.2) ++ [Tok.eof] = toks at ih' hne ⊢
    generalize ops.flatMap (fun p => asciiOp ftext p.1 p.2) = out at ih' ⊢
    cases o with
    | comment t =>
      simp only [asciiOp, asciiOpTokens, List.append_assoc, List.cons_append, List.nil_append]
      refine Reads.skip ?_ hne ih'
      rw [scan_spaces ha _ _ hp.1, scan_comment ha t _ hp.2]
    | request n args =>
      simp only [asciiOp, asciiOpTokens, List.append_assoc, List.cons_append, List.nil_append]
      refine Reads.skip (scan_spaces ha _ _ hp.1) (by simp) ?_
      have hsep0 : ∀ r, Sep (10 :: r) := fun r => ⟨10, r, rfl, by omega⟩
      have hsep : ∀ r, Sep (args.flatMap (fun a => 32 :: asciiArg ftext a) ++ 10 :: r) := by
        intro r
        cases args with
        | nil => exact hsep0 r
        | cons b bs => exact ⟨32, _, rfl, by omega⟩
      refine .cons (scan_request ha n _ hp.2.1 (hsep _)) ?_
      refine (reads_asciiArgs ha ftext ftok hf args hp.2.2 _ (hsep0 _)).append ?_
      exact Reads.skip (scan_space ha rfl) hne ih'

end Verif.Rib
