import Verif.Rib.AsciiLemmas
import Verif.Rib.BinaryProps
import Verif.Rib.DecimalValue
import Mathlib.Data.List.Induction

/-! Properties C06, C07, C08 and C39: ASCII RIB. -/
namespace Verif.Rib

/-! ### C06: strings -/

/-- Spec: characters that ASCII RIB strings carry unchanged. -/
def Plain (c : Nat) : Prop := 32 ≤ c ∧ c ≤ 176 ∧ c ≠ 34 ∧ c ≠ 92

theorem escChar_plain {c : Nat} (h : Plain c) : escChar c = [c] := by
  obtain ⟨h1, h2, h3, h4⟩ := h
  rw [escChar, if_neg h3, if_neg (by omega), if_neg (by omega), if_neg (by omega), if_neg (by omega),
    if_neg (by omega), if_neg h4, if_pos ⟨h1, h2⟩]

theorem escChar_length (c : Nat) : 1 ≤ (escChar c).length ∧ ((escChar c).length = 1 → Plain c) := by
  let P : List Nat → Prop := fun x => 1 ≤ x.length ∧ (x.length = 1 → Plain c)
  show P (escChar c)
  have two : ∀ a b, P [a, b] := fun a b => ⟨by simp, by simp⟩
  unfold escChar
  refine ite_elim P (fun _ => two _ _) (fun h0 => ?_)
  refine ite_elim P (fun _ => two _ _) (fun _ => ?_)
  refine ite_elim P (fun _ => two _ _) (fun _ => ?_)
  refine ite_elim P (fun _ => two _ _) (fun _ => ?_)
  refine ite_elim P (fun _ => two _ _) (fun _ => ?_)
  refine ite_elim P (fun _ => two _ _) (fun _ => ?_)
  refine ite_elim P (fun _ => two _ _) (fun h1 => ?_)
  refine ite_elim P (fun h => ⟨by simp, fun _ => ⟨h.1, h.2, h0, h1⟩⟩) (fun _ => ?_)
  refine ⟨by simp, fun h => ?_⟩
  exfalso
  have : 1 ≤ (octDigits c).length := by
    rw [octDigits]
    exact ite_elim (fun x : List Nat => 1 ≤ x.length) (fun _ => by simp)
      (fun _ => ite_elim (fun x : List Nat => 1 ≤ x.length) (fun _ => by simp) (fun _ => by simp))
  simp at h; rw [h] at this; simp at this

theorem flatMap_esc_length (s : List Nat) : s.length ≤ (s.flatMap escChar).length := by
  induction s with
  | nil => simp
  | cons c s ih =>
    have := (escChar_length c).1
    simp only [List.flatMap_cons, List.length_append, List.length_cons]; omega

/-- **C06, partial**, exact extent: a string of bytes written in ASCII form always comes back as
exactly one string token and nothing else is consumed, and that token is the original string if
and only if all characters lie in 32..176 and none is `"` or `\`.  Missing: the reader interprets
none of the writer's escapes, so other strings do not survive (`C06_ascii_string_violated`). -/
theorem C06_ascii_string_partial (s : List Nat) (hs : ∀ c ∈ s, 0 < c ∧ c < 256) (rest : List Nat) :
    ∃ s', scan .init (asciiStr s ++ rest) = (.str s', .init, rest) ∧ (s' = s ↔ ∀ c ∈ s, Plain c) := by
  refine ⟨_, scan_asciiStr (by decide) s (fun c hc => (hs c hc).2) rest, ?_⟩
  clear hs
  induction s with
  | nil => simp
  | cons c s ih =>
    constructor
    · intro h
      have hl := congrArg List.length h
      have h1 := escChar_length c
      have h2 := flatMap_esc_length s
      simp only [List.flatMap_cons, List.length_append, List.length_cons] at hl
      have hp := h1.2 (by omega)
      rw [List.flatMap_cons, escChar_plain hp, List.singleton_append] at h
      injection h with _ h
      intro d hd
      rcases List.mem_cons.1 hd with rfl | hd
      · exact hp
      · exact ih.1 h d hd
    · intro h
      rw [List.flatMap_cons, escChar_plain (h c (by simp)), List.singleton_append,
        ih.2 fun d hd => h d (by simp [hd])]

/-- Spec: the escape sequences of a RIB string (RISpec, appendix C.2), as pairs of the character
meant and the character after the backslash. -/
def escTable : List (Nat × Nat) := [(34, 34), (10, 110), (13, 114), (9, 116), (8, 98), (12, 102), (92, 92)]

/-- Spec: how a character is written. -/
def escaped (c : Nat) : List Nat :=
  match escTable.lookup c with
  | some e => [92, e]
  | none => if 32 ≤ c ∧ c ≤ 176 then [c] else 92 :: (Nat.toDigits 8 c).map Char.toNat

theorem escChar_eq : ∀ c < 256, escChar c = escaped c := by decide +kernel

theorem flatMap_escaped (s : List Nat) (h : ∀ c ∈ s, c < 256) : s.flatMap escChar = s.flatMap escaped := by
  induction s with
  | nil => rfl
  | cons c s ih =>
    rw [List.flatMap_cons, List.flatMap_cons, escChar_eq c (h c (by simp)), ih fun d hd => h d (by simp [hd])]

/-- Spec: `c` is an octal digit. -/
def Oct (c : Nat) : Bool := 48 ≤ c && c ≤ 55

/-- Spec: what the text between the quotes means: a backslash before one of `nrtbf"\` stands for
that character, a backslash before one to three octal digits for the character with that code. -/
def unescape : Nat → List Nat → List Nat
  | 0, _ => []
  | _, [] => []
  | f + 1, c :: r =>
    if c = 92 then
      match r with
      | [] => []
      | d :: r1 =>
        match (escTable.map Prod.swap).lookup d with
        | some e => e :: unescape f r1
        | none =>
          let ds := (d :: r1).take 3 |>.takeWhile Oct
          ds.foldl (fun a d => 8 * a + (d - 48)) 0 :: unescape f ((d :: r1).drop ds.length)
    else c :: unescape f r

/-- Spec: codes below 64 that are written in octal; their number of digits is not fixed. -/
def ShortOct (c : Nat) : Prop := c < 32 ∧ c ∉ [8, 9, 10, 12, 13]

instance (c : Nat) : Decidable (ShortOct c) := inferInstanceAs (Decidable (_ ∧ _))

/-- Spec: no character with a short octal code is followed by an octal digit. -/
def Unambiguous : List Nat → Prop
  | [] => True
  | c :: s => (ShortOct c → ∀ d ∈ s.head?, Oct d = false) ∧ Unambiguous s

theorem unescape_plain (f c : Nat) (r : List Nat) (h : c ≠ 92) : unescape (f + 1) (c :: r) = c :: unescape f r := by
  rw [unescape.eq_def]
  simp [h]

theorem unescape_one : ∀ c < 256, 0 < c → ∀ f r, (ShortOct c → ∀ d ∈ r.head?, Oct d = false) →
    unescape (f + 1) (escaped c ++ r) = c :: unescape f r := by
  intro c hc h0 f r hr
  by_cases hs : (escTable.lookup c).isSome
  · have : c = 34 ∨ c = 10 ∨ c = 13 ∨ c = 9 ∨ c = 8 ∨ c = 12 ∨ c = 92 := by
      by_contra hn
      simp only [not_or] at hn
      simp [escTable, List.lookup, hn, beq_eq_false_iff_ne.2] at hs
    rcases this with rfl | rfl | rfl | rfl | rfl | rfl | rfl <;> rfl
  · simp only [Option.not_isSome_iff_eq_none] at hs
    have hn92 : c ≠ 92 := by rintro rfl; simp [escTable, List.lookup] at hs
    rw [escaped, hs]
    dsimp only
    by_cases hp : 32 ≤ c ∧ c ≤ 176
    · rw [if_pos hp, List.singleton_append, unescape_plain _ _ _ hn92]
    · rw [if_neg hp]
      by_cases h8 : c < 8
      · have hsh : ShortOct c := by
          refine ⟨by omega, ?_⟩
          simp only [List.mem_cons, List.not_mem_nil, or_false, not_or]; omega
        have hd : (Nat.toDigits 8 c).map Char.toNat = [48 + c] := by
          have : ∀ c < 8, (Nat.toDigits 8 c).map Char.toNat = [48 + c] := by decide +kernel
          exact this c h8
        have hl : (escTable.map Prod.swap).lookup (48 + c) = none := by
          have : ∀ c < 8, (escTable.map Prod.swap).lookup (48 + c) = none := by decide +kernel
          exact this c h8
        have ho : Oct (48 + c) = true := by simp [Oct]; omega
        rw [hd, List.cons_append, List.cons_append, List.nil_append, unescape, if_pos rfl]
        dsimp only
        rw [hl]
        have ht : (((48 + c) :: r).take 3).takeWhile Oct = [48 + c] := by
          cases r with
          | nil => simp [ho]
          | cons d r => have := hr hsh d (by simp); simp [ho, this]
        simp only [ht]
        simp
      · by_cases h64 : c < 64
        · have hsh : ShortOct c := by
            refine ⟨by omega, fun hm => ?_⟩
            have : ∀ c ∈ [8, 9, 10, 12, 13], (escTable.lookup c).isSome = true := by decide
            have := this c hm
            rw [hs] at this; simp at this
          have hd : (Nat.toDigits 8 c).map Char.toNat = [48 + c / 8, 48 + c % 8] := by
            have : ∀ c < 64, 8 ≤ c → (Nat.toDigits 8 c).map Char.toNat = [48 + c / 8, 48 + c % 8] := by
              decide +kernel
            exact this c h64 (by omega)
          have hl : (escTable.map Prod.swap).lookup (48 + c / 8) = none := by
            have : ∀ c < 8, (escTable.map Prod.swap).lookup (48 + c) = none := by decide +kernel
            exact this _ (by omega)
          have ho : Oct (48 + c / 8) = true := by simp [Oct]; omega
          have ho' : Oct (48 + c % 8) = true := by simp [Oct]; omega
          rw [hd, List.cons_append, List.cons_append, List.cons_append, List.nil_append, unescape, if_pos rfl]
          dsimp only
          rw [hl]
          have ht : (((48 + c / 8) :: (48 + c % 8) :: r).take 3).takeWhile Oct = [48 + c / 8, 48 + c % 8] := by
            cases r with
            | nil => simp [ho, ho']
            | cons d r => have := hr hsh d (by simp); simp [ho, ho', this]
          simp only [ht]
          simp; omega
        · have hd : (Nat.toDigits 8 c).map Char.toNat = [48 + c / 64, 48 + c / 8 % 8, 48 + c % 8] := by
            have : ∀ c < 256, 64 ≤ c →
                (Nat.toDigits 8 c).map Char.toNat = [48 + c / 64, 48 + c / 8 % 8, 48 + c % 8] := by
              decide +kernel
            exact this c hc (by omega)
          have hl : (escTable.map Prod.swap).lookup (48 + c / 64) = none := by
            have : ∀ c < 8, (escTable.map Prod.swap).lookup (48 + c) = none := by decide +kernel
            exact this _ (by omega)
          have ho : Oct (48 + c / 64) = true := by simp [Oct]; omega
          have ho1 : Oct (48 + c / 8 % 8) = true := by simp [Oct]; omega
          have ho2 : Oct (48 + c % 8) = true := by simp [Oct]; omega
          rw [hd, List.cons_append, List.cons_append, List.cons_append, List.cons_append, List.nil_append,
            unescape, if_pos rfl]
          dsimp only
          rw [hl]
          have ht : (((48 + c / 64) :: (48 + c / 8 % 8) :: (48 + c % 8) :: r).take 3).takeWhile Oct =
              [48 + c / 64, 48 + c / 8 % 8, 48 + c % 8] := by simp [ho, ho1, ho2]
          simp only [ht]
          simp; omega

theorem escaped_head : ∀ c < 256, ∀ d ∈ (escaped c).head?, Oct d = true → d = c := by decide +kernel

theorem unescape_all (s : List Nat) (hs : ∀ c ∈ s, 0 < c ∧ c < 256) (hu : Unambiguous s) (f : Nat)
    (hf : s.length ≤ f) : unescape f (s.flatMap escaped) = s := by
  induction s generalizing f with
  | nil => cases f <;> rfl
  | cons c s ih =>
    obtain ⟨f, rfl⟩ : ∃ g, f = g + 1 := ⟨f - 1, by simp at hf; omega⟩
    have hc := hs c (by simp)
    rw [List.flatMap_cons, unescape_one c hc.2 hc.1, ih (fun d hd => hs d (by simp [hd])) hu.2 f (by simpa using hf)]
    intro hsh d hd
    cases s with
    | nil => simp at hd
    | cons e s =>
      have he := hs e (by simp)
      have hne : escaped e ≠ [] := by
        rw [escaped]; split
        · simp
        · split <;> simp
      obtain ⟨x, xs, hx⟩ := List.exists_cons_of_ne_nil hne
      rw [List.flatMap_cons, hx] at hd
      simp at hd
      subst hd
      cases hxo : Oct x with
      | false => rfl
      | true =>
        have := escaped_head e he.2 x (by simp [hx]) hxo
        subst this
        have := hu.1 hsh x (by simp)
        rw [hxo] at this; exact this

/-- **C06, partial** (meaning of the text): what stands between the quotes denotes, by the rules for
escape sequences, the original string, as long as no character written as an octal code of fewer
than three digits is followed by an octal digit (`C06_octal_violated`). -/
theorem C06_escapes_partial (s : List Nat) (hs : ∀ c ∈ s, 0 < c ∧ c < 256) (hu : Unambiguous s) (rest : List Nat) :
    ∃ t, asciiStr s = 34 :: (t ++ [34]) ∧ scan .init (asciiStr s ++ rest) = (.str t, .init, rest) ∧
      unescape t.length t = s := by
  refine ⟨_, rfl, scan_asciiStr (by decide) s (fun c hc => (hs c hc).2) rest, ?_⟩
  have hl := flatMap_esc_length s
  rw [flatMap_escaped s fun c hc => (hs c hc).2] at hl ⊢
  exact unescape_all s hs hu _ hl

/-- **C06, violated**: the two characters 7 and `1` are written as `\71`, which denotes the single
character `9`. -/
theorem C06_octal_violated : ∃ s : List Nat, (∀ c ∈ s, 0 < c ∧ c < 256) ∧
    asciiStr s = [34, 92, 55, 49, 34] ∧ unescape 3 [92, 55, 49] = [57] ∧ s ≠ [57] :=
  ⟨[7, 49], by decide, by decide, by decide, by decide⟩

example : Unambiguous [7, 65, 49, 200, 49] ∧ ¬ Unambiguous [7, 49] := by
  simp [Unambiguous, ShortOct, Oct]

/-- **C06, violated**: the string consisting of one double quote comes back as `\"`. -/
theorem C06_ascii_string_violated : ∃ s : List Nat, (∀ c ∈ s, 0 < c ∧ c < 256) ∧ ∀ rest,
    scan .init (asciiStr s ++ rest) = (.str [92, 34], .init, rest) ∧ s ≠ [92, 34] := by
  refine ⟨[34], by simp, fun rest => ⟨?_, by decide⟩⟩
  rw [scan_asciiStr (by decide) [34] (by simp)]
  rfl

example : Plain 65 ∧ ¬ Plain 10 := by simp [Plain]

/-! ### C07: integers -/

/-- **C07, partial**: every 32-bit integer except -2^31 survives being written in decimal and read,
whatever non-number character (or the end of the stream) follows.  Missing: -2^31, for which the
reader overflows (`C07_int_min_violated`). -/
theorem C07_ascii_int_partial (i : Int) (h1 : -2 ^ 31 < i) (h2 : i < 2 ^ 31) (rest : List Nat)
    (hr : ∀ c ∈ rest.head?, ¬ (48 ≤ c ∧ c ≤ 57) ∧ c ≠ 46 ∧ c ≠ 101 ∧ c ≠ 69) :
    scan .init (asciiInt i ++ rest) = (.int i, .init, rest) := by
  refine scan_asciiInt (by decide) i h1 h2 rest fun c hc => ?_
  have := hr c hc
  refine ⟨by simp [isDigit]; omega, this.2.1, by simp [isExpChar]; omega⟩

/-- **C07** (text): an integer is written as its usual decimal representation. -/
theorem C07_ascii_text (i : Int) : asciiInt i = (toString i).toList.map Char.toNat := by
  rw [asciiInt]
  cases i with
  | ofNat n =>
    rw [if_neg (by simp)]
    simp only [Int.natAbs_natCast, decDigits_eq, decText, Int.ofNat_eq_natCast]
    rw [show toString (n : Int) = n.repr from rfl, Nat.toList_repr]
  | negSucc n =>
    rw [if_pos (by simp)]
    simp only [Int.natAbs_negSucc, decDigits_eq, decText]
    rw [show toString (Int.negSucc n) = "-" ++ (n + 1).repr from rfl]
    simp [String.toList_append, Nat.toList_repr]

/-- **C07, violated** for -2^31: the digits 2147483648 overflow the `int` accumulator before the
sign is applied (undefined behaviour). -/
theorem C07_int_min_violated : ∃ i : Int, -2 ^ 31 ≤ i ∧ i < 2 ^ 31 ∧
    (scan .init (asciiInt i ++ [32])).1 = .ub := by
  refine ⟨-2 ^ 31, by omega, by omega, ?_⟩
  have : asciiInt (-2 ^ 31) = [45, 50, 49, 52, 55, 52, 56, 51, 54, 52, 56] := by
    simp [asciiInt, decDigits]
  rw [this]
  decide

example : asciiInt (-120) = [45, 49, 50, 48] := by simp [asciiInt, decDigits]

/-! ### C08: decimal literals -/

/-- Spec: a decimal digit. -/
def Digit (c : Nat) : Prop := 48 ≤ c ∧ c ≤ 57

/-- Spec: the number a sequence of decimal digits denotes. -/
def numeral : List Nat → Nat
  | [] => 0
  | c :: cs => (c - 48) * 10 ^ cs.length + numeral cs

theorem isDigit_of {c : Nat} (h : Digit c) : isDigit c = true := by
  simp only [isDigit, Bool.and_eq_true, decide_eq_true_eq]; exact h

theorem digitsVal_eq (ds : List Nat) : digitsVal ds = numeral ds := by
  induction ds with
  | nil => rfl
  | cons c cs ih =>
    rw [digitsVal, List.foldl_cons, foldl_digits_append, numeral, ih]; ring

/-- A decimal real literal. -/
structure DecLit where
  sign : Option Bool               -- some true: minus
  ip : List Nat                    -- digits before the point
  fp : Option (List Nat)           -- digits after the point, if there is a point
  ex : Option (Nat × Option Bool × List Nat)   -- exponent mark, sign, digits

def fracText : Option (List Nat) → List Nat
  | none => []
  | some f => 46 :: f

def expText : Option (Nat × Option Bool × List Nat) → List Nat
  | none => []
  | some (m, s, e) => m :: (signText s ++ e)

/-- Its text. -/
def DecLit.text (d : DecLit) : List Nat :=
  signText d.sign ++ (d.ip ++ (fracText d.fp ++ expText d.ex))

/-- Well-formed real literals (a point or an exponent is present, there is a digit before the
exponent, exponent digits are present) whose integer part and exponent fit an `int`. -/
structure DecLit.Ok (d : DecLit) : Prop where
  ip : ∀ c ∈ d.ip, Digit c
  fp : ∀ f, d.fp = some f → ∀ c ∈ f, Digit c
  ex : ∀ m s e, d.ex = some (m, s, e) → (m = 101 ∨ m = 69) ∧ e ≠ [] ∧ (∀ c ∈ e, Digit c) ∧
    numeral e ≤ 2147483647
  real : d.fp ≠ none ∨ d.ex ≠ none
  digit : d.ip ≠ [] ∨ ∃ f, d.fp = some f ∧ f ≠ []
  range : numeral d.ip ≤ 2147483647

def DecLit.exponent (d : DecLit) : Int :=
  match d.ex with
  | none => 0
  | some (_, s, e) => if s = some true then -(numeral e : Int) else numeral e

/-- The token value of a literal. -/
def DecLit.token (d : DecLit) : FVal := .dec (d.sign == some true) d.ip (d.fp.getD []) d.exponent

theorem readExp_text (neg ds fs) (s : Option Bool) (e r : List Nat) (hne : e ≠ [])
    (he : ∀ c ∈ e, Digit c) (hv : numeral e ≤ 2147483647) (hr : NoDigit r) :
    readExp neg ds fs (signText s ++ (e ++ r)) =
      (.float (.dec neg ds fs (if s = some true then -(numeral e : Int) else numeral e)), r) := by
  rw [← digitsVal_eq] at hv ⊢
  replace he : ∀ c ∈ e, isDigit c = true := fun c hc => isDigit_of (he c hc)
  have hs := readSign_text s (e ++ r) (by
    cases e with
    | nil => exact absurd rfl hne
    | cons d ds =>
      intro c hc; simp at hc; subst hc
      have := he d (by simp); simp [isDigit] at this; omega)
  have ht := takeWhile_digits e r he hr
  rw [readExp]
  simp only [hs, ht.1, ht.2]
  rw [if_neg hne, if_neg (by simp [overflows]; omega)]
  simp

theorem readNumber_dec (d : DecLit) (hd : d.Ok) (r : List Nat) (hr : NoDigit r)
    (hr2 : d.ex = none → ∀ c ∈ r.head?, isExpChar c = false) :
    readNumber (d.text ++ r) = (.float d.token, r) := by
  obtain ⟨sign, ip, fp, ex⟩ := d
  obtain ⟨hip, hfp, hex, hreal, hdig, hrange⟩ := hd
  simp only at hip hfp hex hreal hdig hrange hr2
  rw [← digitsVal_eq] at hrange
  replace hip : ∀ c ∈ ip, isDigit c = true := fun c hc => isDigit_of (hip c hc)
  replace hfp : ∀ f, fp = some f → ∀ c ∈ f, isDigit c = true := fun f h c hc => isDigit_of (hfp f h c hc)
  simp only [DecLit.text, List.append_assoc]
  -- the part after the integer digits
  generalize htl : fracText fp ++ (expText ex ++ r) = tl
  have htl_head : ∀ c ∈ tl.head?, isDigit c = false ∧ c ≠ 43 ∧ c ≠ 45 := by
    intro c hc
    rw [← htl] at hc
    cases fp with
    | some f => simp [fracText] at hc; subst hc; decide
    | none =>
      cases ex with
      | none => simp at hreal
      | some x =>
        obtain ⟨m, s, e⟩ := x
        have := (hex m s e rfl).1
        simp [fracText, expText] at hc; subst hc
        rcases this with rfl | rfl <;> decide
  have hs := readSign_text sign (ip ++ tl) (head_append_digits ip tl hip fun c hc => (htl_head c hc).2)
  have ht := takeWhile_digits ip tl hip (fun c hc => (htl_head c hc).1)
  rw [readNumber]
  simp only [hs, ht.1, ht.2]
  rw [if_neg (by simp [overflows]; omega)]
  cases fp with
  | none =>
    cases ex with
    | none => simp at hreal
    | some x =>
      obtain ⟨m, s, e⟩ := x
      obtain ⟨hm, hne, he, hv⟩ := hex m s e rfl
      simp only [fracText, expText, List.nil_append, List.cons_append, List.append_assoc] at htl
      subst htl
      have hexp : isExpChar m = true := by rcases hm with rfl | rfl <;> decide
      split
      · rename_i heq; simp at heq; omega
      · rename_i c' r' hne46 heq
        injection heq with e1 e2; subst e1; subst e2
        rw [if_pos hexp, readExp_text _ _ _ s e r hne he hv hr]
        simp [DecLit.token, DecLit.exponent]
      · rename_i heq; simp at heq
  | some f =>
    have hf := hfp f rfl
    simp only [fracText, List.cons_append] at htl
    subst htl
    generalize htl2 : expText ex ++ r = tl2
    have htl2_head : NoDigit tl2 := by
      intro c hc
      rw [← htl2] at hc
      cases ex with
      | none => simp only [expText, List.nil_append] at hc; exact hr c hc
      | some x =>
        obtain ⟨m, s, e⟩ := x
        have := (hex m s e rfl).1
        simp [fracText, expText] at hc; subst hc
        rcases this with rfl | rfl <;> decide
    have ht2 := takeWhile_digits f tl2 hf htl2_head
    simp only [ht2.1, ht2.2]
    rw [if_neg (by
      rintro ⟨h1, h2⟩
      rcases hdig with h | ⟨f', hf', hne⟩
      · exact h h1
      · injection hf' with hf'; subst hf'; exact hne h2)]
    cases ex with
    | none =>
      simp only [expText, List.nil_append] at htl2
      subst htl2
      cases r with
      | nil => simp [DecLit.token, DecLit.exponent]
      | cons c r =>
        have := hr2 rfl c (by simp)
        simp [DecLit.token, DecLit.exponent, this]
    | some x =>
      obtain ⟨m, s, e⟩ := x
      obtain ⟨hm, hne, he, hv⟩ := hex m s e rfl
      simp only [expText, List.cons_append, List.append_assoc] at htl2
      subst htl2
      have hexp : isExpChar m = true := by rcases hm with rfl | rfl <;> decide
      dsimp only
      rw [if_pos hexp, readExp_text _ _ _ s e r hne he hv hr]
      simp [DecLit.token, DecLit.exponent]

/-- **C08, partial** (form): every well-formed real literal is read as one float token made of
exactly its sign, digits and exponent, and the scan stops at the first byte after it.  Missing:
literals whose integer part or exponent exceeds 2^31-1 (`C08_long_literal_violated`) and the
rejection of all non-literals (`C08_nonliteral_violated`). -/
theorem C08_decimal_literal_partial (d : DecLit) (hd : d.Ok) (rest : List Nat)
    (hr : ∀ c ∈ rest.head?, ¬ (48 ≤ c ∧ c ≤ 57))
    (hr2 : d.ex = none → ∀ c ∈ rest.head?, c ≠ 101 ∧ c ≠ 69) :
    scan .init (d.text ++ rest) = (.float d.token, .init, rest) := by
  have hnd : NoDigit rest := fun c hc => by have := hr c hc; simp [isDigit]; omega
  have hn := readNumber_dec d hd rest hnd (fun h c hc => by have := hr2 h c hc; simp [isExpChar]; omega)
  obtain ⟨c, l, hl, hc⟩ : ∃ c l, d.text ++ rest = c :: l ∧ isNumStart c = true := by
    obtain ⟨sign, ip, fp, ex⟩ := d
    rcases sign with _ | _ | _
    · cases ip with
      | cons a ip =>
        have := hd.ip a (by simp)
        exact ⟨a, _, rfl, by simp [isNumStart, isDigit_of this]⟩
      | nil =>
        rcases hd.digit with h | ⟨f, hf, _⟩
        · exact absurd rfl h
        · simp only at hf; subst hf
          exact ⟨46, _, rfl, by decide⟩
    · exact ⟨43, _, rfl, by decide⟩
    · exact ⟨45, _, rfl, by decide⟩
  rw [hl, scan_number (by decide) c l hc, ← hl, hn]

example : DecLit.Ok ⟨some true, [49], some [50, 53], some (101, some true, [51])⟩ :=
  ⟨by simp [Digit], by simp [Digit], by simp [Digit, numeral], by simp, by simp, by simp [numeral]⟩

/-- Spec: the mathematical value of sign, digits before and after the point, and exponent. -/
def litValue (neg : Bool) (ds fs : List Nat) (e : Int) : ℚ :=
  (if neg then -1 else 1) * (numeral ds + numeral fs / 10 ^ fs.length) * 10 ^ e

theorem numeral_append (ds fs : List Nat) : numeral (ds ++ fs) = numeral ds * 10 ^ fs.length + numeral fs := by
  induction ds with
  | nil => simp [numeral]
  | cons c ds ih => simp only [List.cons_append, numeral, ih, List.length_append]; ring

theorem decimalValue_eq (neg : Bool) (ds fs : List Nat) (e : Int) : decimalValue neg ds fs e = litValue neg ds fs e := by
  simp only [decimalValue, litValue]
  rw [digitsVal_eq, numeral_append, zpow_sub₀ (by norm_num : (10 : ℚ) ≠ 0), zpow_natCast]
  push_cast
  field_simp

/-- **C08** (value): performed in exact arithmetic, the code's digit by digit computation gives the
mathematical value of the literal. -/
theorem C08_value_exact (neg : Bool) (ds fs : List Nat) (e : Int) :
    codeValue id id neg ds fs e = litValue neg ds fs e := by
  rw [← decimalValue_eq]
  simp only [codeValue, accInt_id, accFrac_id, decimalValue, id]
  rw [show digitsVal (ds ++ fs) = digitsVal ds * 10 ^ fs.length + digitsVal fs by
    rw [digitsVal, List.foldl_append]; exact foldl_digits_append fs _]
  rw [zpow_sub₀ (by norm_num : (10 : ℚ) ≠ 0), zpow_natCast]
  push_cast
  field_simp

example : litValue true [49] [50, 53] (-3) = -125 / 100000 := by norm_num [litValue, numeral]

theorem accInt_exact (rf : ℚ → ℚ) (hrf : ∀ n : Int, |n| ≤ 2 ^ 24 → rf n = n) (ds : List Nat)
    (h : digitsVal ds ≤ 2 ^ 24) : accInt rf ds = (digitsVal ds : ℚ) := by
  have key : ∀ ds : List Nat, digitsVal ds ≤ 2 ^ 24 → accInt rf ds = (digitsVal ds : ℚ) := by
    intro ds
    induction ds using List.reverseRecOn with
    | nil => intro _; rfl
    | append_singleton ds c ih =>
      intro h
      have hv : digitsVal (ds ++ [c]) = digitsVal ds * 10 + (c - 48) := by
        simp [digitsVal, List.foldl_append]
      rw [hv] at h ⊢
      have ih' := ih (by omega)
      simp only [accInt, List.foldl_append, List.foldl_cons, List.foldl_nil] at ih' ⊢
      rw [ih']
      have e1 : rf ((digitsVal ds : ℚ) * 10) = (digitsVal ds : ℚ) * 10 := by
        have := hrf (digitsVal ds * 10 : Nat) (by rw [abs_of_nonneg (by positivity)]; push_cast; omega)
        push_cast at this ⊢; exact this
      rw [e1]
      have := hrf (digitsVal ds * 10 + (c - 48) : Nat) (by rw [abs_of_nonneg (by positivity)]; exact_mod_cast h)
      push_cast at this ⊢; exact this
  exact key ds h

/-- **C08** (value, floating point): whatever the rounding of other numbers, if integers up to 2^24
are representable then a literal with no fraction digits, no exponent and value at most 2^24 is
read exactly. -/
theorem C08_small_integer_valued_exact (rf rd : ℚ → ℚ) (hrf : ∀ n : Int, |n| ≤ 2 ^ 24 → rf n = n)
    (hrd : ∀ n : Int, |n| ≤ 2 ^ 24 → rd n = n) (neg : Bool) (ds : List Nat) (h : numeral ds ≤ 2 ^ 24) :
    codeValue rf rd neg ds [] 0 = litValue neg ds [] 0 := by
  rw [← decimalValue_eq]
  rw [← digitsVal_eq] at h
  simp only [codeValue, accFrac, decimalValue, List.append_nil, List.length_nil, zpow_zero]
  rw [accInt_exact rf hrf ds h]
  have h1 : rd 1 = 1 := by have := hrd 1 (by norm_num); push_cast at this; exact this
  have habs : |(if neg then -(digitsVal ds : Int) else digitsVal ds)| ≤ 2 ^ 24 := by
    cases neg <;> simp <;> exact_mod_cast h
  have e0 : (digitsVal ds : ℚ) * (if neg then -1 else 1) = ((if neg then -(digitsVal ds : Int) else digitsVal ds : Int) : ℚ) := by
    cases neg <;> simp
  rw [h1, e0, hrf _ habs, mul_one, hrd _ habs, hrf _ habs]
  simp only [Nat.cast_zero, sub_zero, zpow_zero, mul_one]
  cases neg <;> simp

example : ∃ rf : ℚ → ℚ, ∀ n : Int, |n| ≤ 2 ^ 24 → rf n = n := ⟨id, fun _ _ => rfl⟩

/-- **C08, violated** (range): `12345678901.5` is undefined behaviour, because the integer part is
also accumulated in an `int`. -/
theorem C08_long_literal_violated : ∃ d : DecLit, (∀ c ∈ d.ip, Digit c) ∧ d.fp = some [53] ∧ d.ex = none ∧
    (scan .init (d.text ++ [32])).1 = .ub :=
  ⟨⟨none, [49, 50, 51, 52, 53, 54, 55, 56, 57, 48, 49], some [53], none⟩, by simp [Digit], rfl, rfl, by decide⟩

/-- **C08, violated** (non-literals): `+e5`, which has no digit before the exponent, is read as a
number; and `-Sphere` is an error that swallows the `S`, so that the next token is the request
`phere`. -/
theorem C08_nonliteral_violated :
    scan .init [43, 101, 53] = (.float (.dec false [] [] 5), .init, []) ∧
    scan .init [45, 83, 112, 104, 101, 114, 101] = (.err .digit, .init, [112, 104, 101, 114, 101]) := by
  constructor <;> rfl

/-! ### C39: whole ASCII streams -/

/-- Spec: a request name that can be written in ASCII form: not empty, of ASCII characters other than
blanks and `# " [ ]`, and not beginning like a number. -/
def ReqName (n : List Nat) : Prop :=
  n ≠ [] ∧ (∀ c ∈ n, c < 128 ∧ c ∉ [32, 9, 10, 13, 35, 34, 91, 93]) ∧
    ∀ c ∈ n.head?, ¬ Digit c ∧ c ∉ [43, 45, 46]

/-- Spec: arguments and comments that can be written. -/
def ArgOk : WArg → Prop
  | .int i => -2 ^ 31 < i ∧ i < 2 ^ 31
  | .float _ => True
  | .str s => ∀ c ∈ s, c < 256
  | .ints a => ∀ i ∈ a, -2 ^ 31 < i ∧ i < 2 ^ 31
  | .floats _ => True
  | .strs a => ∀ s ∈ a, ∀ c ∈ s, c < 256

def OpOk : WOp → Prop
  | .request name args => ReqName name ∧ ∀ a ∈ args, ArgOk a
  | .comment t => ∀ c ∈ t, c ≠ 10 ∧ c ≠ 13 ∧ c ≠ 255

/-- Spec: the tokens of an argument, strings in their escaped form. -/
def argTokens (ftok : Nat → Tok) : WArg → List Tok
  | .int i => [.int i]
  | .float b => [ftok b]
  | .str s => [.str (s.flatMap escaped)]
  | .ints a => [.arrayBegin] ++ a.map .int ++ [.arrayEnd]
  | .floats a => [.arrayBegin] ++ a.map ftok ++ [.arrayEnd]
  | .strs a => [.arrayBegin] ++ a.map (fun s => .str (s.flatMap escaped)) ++ [.arrayEnd]

def opTokens (ftok : Nat → Tok) : WOp → List Tok
  | .request name args => .req name :: args.flatMap (argTokens ftok)
  | .comment _ => []

theorem argTokens_eq (ftok) (a : WArg) (h : ArgOk a) : asciiTokens ftok a = argTokens ftok a := by
  cases a with
  | str s => simp only [asciiTokens, argTokens]; rw [flatMap_escaped s h]
  | strs a =>
    have : a.map (fun s => Tok.str (s.flatMap escChar)) = a.map (fun s => Tok.str (s.flatMap escaped)) :=
      List.map_congr_left fun s hs => by rw [flatMap_escaped s (h s hs)]
    simp only [asciiTokens, argTokens]
    rw [this]; rfl
  | _ => rfl

theorem opTokens_eq (ftok) (o : WOp) (h : OpOk o) : asciiOpTokens ftok o = opTokens ftok o := by
  cases o with
  | comment t => rfl
  | request n args =>
    simp only [asciiOpTokens, opTokens]
    congr 1
    have h2 := h.2
    clear h
    induction args with
    | nil => rfl
    | cons a args ih =>
      rw [List.flatMap_cons, List.flatMap_cons, argTokens_eq ftok a (h2 a (by simp)), ih fun x hx => h2 x (by simp [hx])]

theorem asciiOpOk_of (o : WOp) (h : OpOk o) : AsciiOpOk o := by
  cases o with
  | comment t => exact h
  | request n args =>
    refine ⟨⟨h.1.1, fun c hc => ?_, fun c hc => ?_⟩, fun a ha => ?_⟩
    · have := h.1.2.1 c hc
      simp only [List.mem_cons, List.not_mem_nil, or_false, not_or] at this
      simp [isReqChar]; omega
    · have := h.1.2.2 c hc
      simp only [Digit, List.mem_cons, List.not_mem_nil, or_false, not_or] at this
      simp [isNumStart, isDigit]; omega
    · have := h.2 a ha
      cases a <;> exact this

/-- **C39**: the ASCII output for any sequence of requests and comments tokenises to exactly the
request names and arguments in order and then end of file, with strings in their escaped form and
floats as the tokens `ftok b` of their texts.  The float texts are any texts that read as one
token when followed by a separator (`C08_decimal_literal_partial` shows decimal literals do). -/
theorem C39_ascii_stream (ftext : Nat → List Nat) (ftok : Nat → Tok)
    (hf : ∀ b, ReadsAs (ftext b) (ftok b)) (ops : List (List Nat × WOp))
    (h : ∀ p ∈ ops, (∀ c ∈ p.1, c ∈ [32, 9, 10, 13]) ∧ OpOk p.2) :
    firstTokens ((ops.flatMap (fun p => opTokens ftok p.2)).length + 1) .init (asciiOps ftext ops) =
      ops.flatMap (fun p => opTokens ftok p.2) ++ [.eof] := by
  have h' : ∀ p ∈ ops, (∀ c ∈ p.1, isSpace c = true) ∧ AsciiOpOk p.2 := fun p hp =>
    ⟨fun c hc => by
      have := (h p hp).1 c hc
      simp only [List.mem_cons, List.not_mem_nil, or_false] at this
      simp [isSpace]; omega, asciiOpOk_of _ (h p hp).2⟩
  have he : ops.flatMap (fun p => asciiOpTokens ftok p.2) = ops.flatMap (fun p => opTokens ftok p.2) := by
    clear hf h'
    induction ops with
    | nil => rfl
    | cons p ops ih =>
      rw [List.flatMap_cons, List.flatMap_cons, opTokens_eq ftok p.2 (h p (by simp)).2, ih fun x hx => h x (by simp [hx])]
  have := (reads_asciiOps (st := .init) (by decide) ftext ftok hf ops h').firstTokens
  rw [he] at this
  simpa using this

example : OpOk (.request [83, 112] [.int 5, .str [65, 10], .strs [[66]]]) := by
  refine ⟨⟨by simp, by decide, by simp [Digit]⟩, ?_⟩
  simp [ArgOk]

/-- Non-vacuity of the hypothesis on float texts: `1.5`. -/
example : ReadsAs [49, 46, 53] (.float (.dec false [49] [53] 0)) := by
  intro st ha r hr
  obtain ⟨c, r', rfl, h⟩ := hr
  have hn := readNumber_dec ⟨none, [49], some [53], none⟩
    ⟨by simp [Digit], by simp [Digit], by simp, by simp, by simp, by simp [numeral]⟩ (c :: r')
    (by intro d hd; simp at hd; subst hd; rcases h with rfl | rfl | rfl <;> decide)
    (by intro _ d hd; simp at hd; subst hd; rcases h with rfl | rfl | rfl <;> decide)
  have := scan_number ha 49 (46 :: 53 :: c :: r') (by decide)
  simp only [DecLit.text, fracText, expText, signText, List.nil_append, List.cons_append, List.append_nil] at hn
  rw [List.cons_append, List.cons_append, List.cons_append, List.nil_append, this, hn]
  rfl

end Verif.Rib
