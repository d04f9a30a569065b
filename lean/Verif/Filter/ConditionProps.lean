import Verif.Filter.Condition
import Mathlib.Tactic.Linarith

/-!
# Conditions: what they compare

A condition is a dollar sign, the names of a parameter, space, a relation, space and a value.
-/

namespace Verif.Filter.Condition

/-! ### Conditions as they are written -/

/-- The relations. -/
inductive Rel where
  | eq | ne | le | lt | ge | gt
  deriving DecidableEq, Repr

/-- How a relation is written. -/
def Rel.text : Rel → List Char
  | .eq => "==".toList
  | .ne => "!=".toList
  | .le => "<=".toList
  | .lt => "<".toList
  | .ge => ">=".toList
  | .gt => ">".toList

/-- What a relation means. -/
def Rel.holds {α : Type} [LinearOrder α] : Rel → α → α → Prop
  | .eq, a, b => a = b
  | .ne, a, b => a ≠ b
  | .le, a, b => a ≤ b
  | .lt, a, b => a < b
  | .ge, a, b => b ≤ a
  | .gt, a, b => b < a

/-- Whose parameter it is. -/
inductive Kind where
  | plain | attrib | option
  deriving DecidableEq, Repr

/-- How that is written. -/
def Kind.text : Kind → List Char
  | .plain => []
  | .attrib => "Attribute:".toList
  | .option => "Option:".toList

/-- Where the parameter is found. -/
def lookup (e : Env) (k : Kind) (cat name : List Char) : Option Val :=
  match k with
  | .option => e.opt cat name
  | _ => e.attr cat name

/-- Spaces, tabs and ends of lines, at least one. -/
def Blank (s : List Char) : Prop := s ≠ [] ∧ ∀ c ∈ s, c = ' ' ∨ c = '\t' ∨ c = '\n' ∨ c = '\r'

/-- A character which is no space. -/
def Ink (c : Char) : Prop :=
  c ≠ ' ' ∧ c ≠ '\t' ∧ c ≠ '\n' ∧ c ≠ '\r' ∧ c ≠ '\x0b' ∧ c ≠ '\x0c'

/-- A name: no colons and no space. -/
def Name (s : List Char) : Prop := s ≠ [] ∧ ∀ c ∈ s, Ink c ∧ c ≠ ':'

/-- The first word of a condition. -/
def subject (k : Kind) (cat name : List Char) : List Char := k.text ++ (cat ++ ':' :: name)

/-- The names of a parameter that a condition can ask for. -/
structure Fine (k : Kind) (cat name : List Char) : Prop where
  first : Name cat
  second : Name name
  plain : k = .plain → cat ≠ "Attribute".toList ∧ cat ≠ "Option".toList
  short : (subject k cat name).length < 80

/-- A condition. -/
def written (k : Kind) (cat name b1 op b2 value : List Char) : List Char :=
  '$' :: (subject k cat name ++ (b1 ++ (op ++ (b2 ++ value))))

/-! ### Scanning -/

theorem char_eq {c d : Char} (h : c.toNat = d.toNat) : c = d := by
  have : Char.ofNat c.toNat = Char.ofNat d.toNat := by rw [h]
  rwa [Char.ofNat_toNat, Char.ofNat_toNat] at this

theorem isSpace_iff (c : Char) : isSpace c = true ↔ ¬ Ink c := by
  unfold isSpace Ink
  constructor
  · intro h hn
    obtain ⟨h1, h2, h3, h4, h5, h6⟩ := hn
    rw [Bool.or_eq_true, decide_eq_true_eq, Bool.and_eq_true, decide_eq_true_eq,
      decide_eq_true_eq] at h
    rcases h with h | ⟨ha, hb⟩
    · exact h1 h
    · have : c.toNat = 9 ∨ c.toNat = 10 ∨ c.toNat = 11 ∨ c.toNat = 12 ∨ c.toNat = 13 := by omega
      rcases this with h | h | h | h | h
      · exact h2 (char_eq h)
      · exact h3 (char_eq h)
      · exact h5 (char_eq h)
      · exact h6 (char_eq h)
      · exact h4 (char_eq h)
  · intro h
    by_contra hc
    apply h
    refine ⟨?_, ?_, ?_, ?_, ?_, ?_⟩ <;> (rintro rfl; exact hc (by decide))

theorem ink_not {c : Char} (h : Ink c) : isSpace c = false := by
  cases hs : isSpace c with
  | false => rfl
  | true => exact absurd h ((isSpace_iff c).mp hs)

theorem blank_space {s : List Char} (h : Blank s) : ∀ c ∈ s, isSpace c = true := by
  intro c hc
  rcases h.2 c hc with rfl | rfl | rfl | rfl <;> decide

theorem drop_blank {s : List Char} (hs : ∀ c ∈ s, isSpace c = true) (t : List Char) :
    (s ++ t).dropWhile isSpace = t.dropWhile isSpace := by
  induction s with
  | nil => rfl
  | cons c cs ih =>
    rw [List.cons_append, List.dropWhile_cons_of_pos (hs c (by simp))]
    exact ih fun d hd => hs d (by simp [hd])

theorem drop_ink {s t : List Char} (h : s ≠ []) (hs : ∀ c ∈ s, Ink c) :
    (s ++ t).dropWhile isSpace = s ++ t := by
  cases s with
  | nil => exact absurd rfl h
  | cons c cs =>
    rw [List.cons_append, List.dropWhile_cons_of_neg]
    simp [ink_not (hs c (by simp))]

theorem take_ink {s b t : List Char} (hs : ∀ c ∈ s, Ink c) (hb : b ≠ [])
    (hb' : ∀ c ∈ b, isSpace c = true) :
    (s ++ (b ++ t)).takeWhile (fun c => !isSpace c) = s ∧
      (s ++ (b ++ t)).dropWhile (fun c => !isSpace c) = b ++ t := by
  induction s with
  | nil =>
    cases b with
    | nil => exact absurd rfl hb
    | cons d ds =>
      have := hb' d (by simp)
      simp [this]
  | cons c cs ih =>
    have h1 := ink_not (hs c (by simp))
    obtain ⟨h2, h3⟩ := ih fun d hd => hs d (by simp [hd])
    constructor
    · rw [List.cons_append, List.takeWhile_cons_of_pos (by simp [h1]), h2]
    · rw [List.cons_append, List.dropWhile_cons_of_pos (by simp [h1]), h3]

theorem take_all {s : List Char} (hs : ∀ c ∈ s, Ink c) :
    s.takeWhile (fun c => !isSpace c) = s ∧ s.dropWhile (fun c => !isSpace c) = [] := by
  induction s with
  | nil => exact ⟨rfl, rfl⟩
  | cons c cs ih =>
    have h1 := ink_not (hs c (by simp))
    obtain ⟨h2, h3⟩ := ih fun d hd => hs d (by simp [hd])
    exact ⟨by rw [List.takeWhile_cons_of_pos (by simp [h1]), h2],
      by rw [List.dropWhile_cons_of_pos (by simp [h1]), h3]⟩

theorem scanWord_ok {b0 s b t : List Char} (h0 : ∀ c ∈ b0, isSpace c = true) (h : s ≠ [])
    (hs : ∀ c ∈ s, Ink c) (hl : s.length < 80) (hb : Blank b) :
    scanWord (b0 ++ (s ++ (b ++ t))) = .ok (some (s, b ++ t)) := by
  unfold scanWord
  rw [drop_blank h0, drop_ink h hs]
  obtain ⟨h1, h2⟩ := take_ink (t := t) hs hb.1 (blank_space hb)
  simp only
  rw [h1, h2, if_neg h, if_neg (by omega)]

theorem rel_word (r : Rel) : r.text ≠ [] ∧ (∀ c ∈ r.text, Ink c) ∧ r.text.length < 80 := by
  unfold Ink
  cases r <;> decide

theorem subject_word {k : Kind} {cat name : List Char} (h : Fine k cat name) :
    subject k cat name ≠ [] ∧ ∀ c ∈ subject k cat name, Ink c := by
  unfold subject
  constructor
  · intro e
    have := (List.append_eq_nil_iff.mp (List.append_eq_nil_iff.mp e).2).2
    cases this
  · intro c hc
    rcases List.mem_append.mp hc with hc | hc
    · revert hc
      cases k
      · intro hc; cases hc
      · intro hc
        have : ∀ c ∈ Kind.text .attrib, Ink c := by unfold Ink; decide
        exact this c hc
      · intro hc
        have : ∀ c ∈ Kind.text .option, Ink c := by unfold Ink; decide
        exact this c hc
    · rcases List.mem_append.mp hc with hc | hc
      · exact (h.first.2 c hc).1
      · rcases List.mem_cons.mp hc with rfl | hc
        · unfold Ink; decide
        · exact (h.second.2 c hc).1

theorem token_ok {s : List Char} (h : Name s) (t : List Char) :
    token (s ++ ':' :: t) = some (s, t) := by
  obtain ⟨h0, h1⟩ := h
  have hd : (s ++ ':' :: t).dropWhile (· = ':') = s ++ ':' :: t := by
    cases s with
    | nil => exact absurd rfl h0
    | cons c cs =>
      rw [List.cons_append, List.dropWhile_cons_of_neg]
      simpa using (h1 c (by simp)).2
  have hk : ∀ u : List Char, (∀ c ∈ u, c ≠ ':') →
      (u ++ ':' :: t).takeWhile (· ≠ ':') = u ∧ (u ++ ':' :: t).dropWhile (· ≠ ':') = ':' :: t := by
    intro u
    induction u with
    | nil => intro _; exact ⟨by simp, by simp⟩
    | cons c cs ih =>
      intro hu
      obtain ⟨i1, i2⟩ := ih fun d hd => hu d (by simp [hd])
      have hc := hu c (by simp)
      constructor
      · rw [List.cons_append, List.takeWhile_cons_of_pos (by simpa using hc), i1]
      · rw [List.cons_append, List.dropWhile_cons_of_pos (by simpa using hc), i2]
  obtain ⟨k1, k2⟩ := hk s fun c hc => (h1 c hc).2
  unfold token
  rw [hd]
  simp only
  rw [if_neg (by simp), k1, k2]
  rfl

theorem token_last {s : List Char} (h : Name s) : token s = some (s, []) := by
  obtain ⟨h0, h1⟩ := h
  have hd : s.dropWhile (· = ':') = s := by
    cases s with
    | nil => exact absurd rfl h0
    | cons c cs =>
      rw [List.dropWhile_cons_of_neg]
      simpa using (h1 c (by simp)).2
  have hk : ∀ u : List Char, (∀ c ∈ u, c ≠ ':') →
      u.takeWhile (· ≠ ':') = u ∧ u.dropWhile (· ≠ ':') = [] := by
    intro u
    induction u with
    | nil => intro _; exact ⟨by simp, by simp⟩
    | cons c cs ih =>
      intro hu
      obtain ⟨i1, i2⟩ := ih fun d hd => hu d (by simp [hd])
      have hc := hu c (by simp)
      constructor
      · rw [List.takeWhile_cons_of_pos (by simpa using hc), i1]
      · rw [List.dropWhile_cons_of_pos (by simpa using hc), i2]
  obtain ⟨k1, k2⟩ := hk s fun c hc => (h1 c hc).2
  unfold token
  rw [hd]
  simp only
  rw [if_neg h0, k1, k2]
  rfl

theorem names_ok {k : Kind} {cat name : List Char} (h : Fine k cat name) :
    names (subject k cat name) = .ok (decide (k = .option), cat, name) := by
  unfold subject names
  cases k with
  | plain =>
    obtain ⟨n1, n2⟩ := h.plain rfl
    rw [show Kind.text .plain = [] from rfl, List.nil_append, token_ok h.first]
    simp only
    rw [if_neg (fun h => h.elim n1 n2), token_last h.second]
    rfl
  | attrib =>
    have ha : Name "Attribute".toList := by
      refine ⟨by decide, ?_⟩
      unfold Ink
      decide
    rw [show Kind.text .attrib = "Attribute".toList ++ [':'] from rfl, List.append_assoc,
      List.singleton_append, token_ok ha]
    simp only
    rw [if_pos (Or.inl trivial), token_ok h.first]
    simp only
    rw [token_last h.second]
    rfl
  | option =>
    have ha : Name "Option".toList := by
      refine ⟨by decide, ?_⟩
      unfold Ink
      decide
    rw [show Kind.text .option = "Option".toList ++ [':'] from rfl, List.append_assoc,
      List.singleton_append, token_ok ha]
    simp only
    rw [if_pos (Or.inr trivial), token_ok h.first]
    simp only
    rw [token_last h.second]

theorem test_written {f : FloatScan} {e : Env} {k : Kind} {cat name b1 op b2 value : List Char}
    (h : Fine k cat name) (h1 : Blank b1) (h2 : Blank b2) (ho : op ≠ []) (ho' : ∀ c ∈ op, Ink c)
    (hl : op.length < 80) :
    test f e (written k cat name b1 op b2 value) =
      match lookup e k cat name with
      | none => .ok true
      | some v => compare f v (hash op) (b2 ++ value) := by
  obtain ⟨s1, s2⟩ := subject_word h
  have hc : ':' ∈ written k cat name b1 op b2 value := by
    unfold written subject
    simp
  have hd : '$' ∈ written k cat name b1 op b2 value := by simp [written]
  unfold test
  rw [if_neg (by simp [hc, hd])]
  unfold written
  have e1 : scanWord (subject k cat name ++ (b1 ++ (op ++ (b2 ++ value)))) =
      .ok (some (subject k cat name, b1 ++ (op ++ (b2 ++ value)))) :=
    scanWord_ok (b0 := []) (by simp) s1 s2 h.short h1
  have e2 : scanWord (b1 ++ (op ++ (b2 ++ value))) = .ok (some (op, b2 ++ value)) :=
    scanWord_ok (blank_space h1) ho ho' hl h2
  have e3 : scanTwo ('$' :: (subject k cat name ++ (b1 ++ (op ++ (b2 ++ value))))) =
      .ok (some (subject k cat name, op, b2 ++ value)) := by
    unfold scanTwo
    simp only
    rw [e1]
    simp only [Res.bind]
    rw [e2]
  rw [e3]
  simp only [Res.bind]
  rw [names_ok h]
  simp only
  unfold lookup
  cases k <;> rfl

/-! ### Properties -/

/-- C83.  A condition on a parameter that is not known is true. -/
theorem C83_unknown {f : FloatScan} {e : Env} {k : Kind} {cat name b1 b2 value : List Char} (r : Rel)
    (h : Fine k cat name) (h1 : Blank b1) (h2 : Blank b2) (hv : lookup e k cat name = none) :
    test f e (written k cat name b1 r.text b2 value) = .ok true := by
  obtain ⟨r1, r2, r3⟩ := rel_word r
  rw [test_written h h1 h2 r1 r2 r3, hv]

/-- Digits of a number, highest first. -/
def num (ds : List Nat) : Nat := ds.foldl (fun n d => 10 * n + d) 0

/-- Digits as they are written. -/
def figures (ds : List Nat) : List Char := ds.map fun d => Char.ofNat (48 + d)

theorem digit_figure {d : Nat} (h : d < 10) : digit (Char.ofNat (48 + d)) = some d := by
  have : ∀ d < 10, digit (Char.ofNat (48 + d)) = some d := by decide
  exact this d h

theorem scanDigits_ok (tail : List Char) (ht : ∀ c ∈ tail.head?, digit c = none) :
    ∀ (ds : List Nat) (n : Nat), (∀ d ∈ ds, d < 10) →
      scanDigits (figures ds ++ tail) n = ds.foldl (fun n d => 10 * n + d) n
  | [], n, _ => by
    cases tail with
    | nil => rfl
    | cons c cs =>
      have := ht c (by simp)
      show scanDigits (c :: cs) n = n
      unfold scanDigits
      rw [this]
  | d :: ds, n, h => by
    have hd := digit_figure (h d (by simp))
    show scanDigits (Char.ofNat (48 + d) :: (figures ds ++ tail)) n = _
    unfold scanDigits
    rw [hd]
    simp only
    rw [scanDigits_ok tail ht ds _ fun e he => h e (by simp [he]), List.foldl_cons,
      Nat.mul_comm n 10]

theorem scanNat_ok {tail : List Char} (ht : ∀ c ∈ tail.head?, digit c = none) {ds : List Nat}
    (h0 : ds ≠ []) (h : ∀ d ∈ ds, d < 10) : scanNat (figures ds ++ tail) = some (num ds) := by
  cases ds with
  | nil => exact absurd rfl h0
  | cons d ds =>
    have hd := digit_figure (h d (by simp))
    show scanNat (Char.ofNat (48 + d) :: (figures ds ++ tail)) = _
    unfold scanNat
    simp only
    rw [hd]
    simp only
    rw [scanDigits_ok tail ht ds _ fun e he => h e (by simp [he])]
    unfold num
    rw [List.foldl_cons]
    simp

/-- How a number is written: an optional sign and digits. -/
inductive Sign where
  | none | plus | minus
  deriving DecidableEq, Repr

/-- See `Sign`. -/
def Sign.text : Sign → List Char
  | .none => []
  | .plus => ['+']
  | .minus => ['-']

/-- See `Sign`. -/
def Sign.of : Sign → Nat → ℤ
  | .minus, n => -(n : ℤ)
  | _, n => n

theorem figure_head {d : Nat} (h : d < 10) : isSpace (Char.ofNat (48 + d)) = false ∧
    Char.ofNat (48 + d) ≠ '-' ∧ Char.ofNat (48 + d) ≠ '+' := by
  have : ∀ d < 10, isSpace (Char.ofNat (48 + d)) = false ∧
    Char.ofNat (48 + d) ≠ '-' ∧ Char.ofNat (48 + d) ≠ '+' := by decide
  exact this d h

theorem scanInt_ok {b tail : List Char} (hb : ∀ c ∈ b, isSpace c = true)
    (ht : ∀ c ∈ tail.head?, digit c = none) (sg : Sign) {ds : List Nat}
    (h0 : ds ≠ []) (h : ∀ d ∈ ds, d < 10) (hf : fits (sg.of (num ds)) = true) :
    scanInt (b ++ (sg.text ++ (figures ds ++ tail))) = .ok (some (sg.of (num ds))) := by
  have hn := scanNat_ok ht h0 h
  have key : scanSigned ((sg.text ++ (figures ds ++ tail)).dropWhile isSpace) =
      some (sg.of (num ds)) := by
    cases sg with
    | none =>
      cases ds with
      | nil => exact absurd rfl h0
      | cons d ds =>
        obtain ⟨f1, f2, f3⟩ := figure_head (h d (by simp))
        show scanSigned (List.dropWhile isSpace (Char.ofNat (48 + d) :: (figures ds ++ tail))) = _
        rw [List.dropWhile_cons_of_neg (by simp [f1])]
        unfold scanSigned
        simp only
        rw [if_neg f2, if_neg f3]
        have hn' : scanNat (Char.ofNat (48 + d) :: (figures ds ++ tail)) = some (num (d :: ds)) := hn
        rw [hn']
        rfl
    | plus =>
      show scanSigned (List.dropWhile isSpace ('+' :: (figures ds ++ tail))) = _
      rw [List.dropWhile_cons_of_neg (by decide)]
      unfold scanSigned
      simp only
      rw [if_neg (by decide), if_pos trivial, hn]
      rfl
    | minus =>
      show scanSigned (List.dropWhile isSpace ('-' :: (figures ds ++ tail))) = _
      rw [List.dropWhile_cons_of_neg (by decide)]
      unfold scanSigned
      simp only
      rw [if_pos trivial, hn]
      rfl
  unfold scanInt
  rw [drop_blank hb, key]
  simp only
  unfold checked
  rw [hf]
  rfl

theorem cond_int (r : Rel) (a b : ℤ) : ∃ t, condInt a b (hash r.text) = .ok t ∧
    (t = true ↔ r.holds a b) := by
  have hm : isMath (hash r.text) = false := by cases r <;> decide
  unfold condInt
  rw [hm]
  refine ⟨_, rfl, ?_⟩
  unfold logicInt
  cases r <;> simp only [Rel.holds] <;>
    simp [hash, Rel.text, hashEq, hashNe, hashLe, hashLt, hashGe, hashGt, code]

theorem cond_float (r : Rel) (a b : ℚ) : condFloat a b (hash r.text) = true ↔ r.holds a b := by
  have hm : isMath (hash r.text) = false := by cases r <;> decide
  unfold condFloat
  rw [hm]
  unfold logicFloat
  cases r <;> simp only [Rel.holds] <;>
    simp [hash, Rel.text, hashEq, hashNe, hashLe, hashLt, hashGe, hashGt, code]

/-- C83.  A condition on an integer compares it with the number that is written. -/
theorem C83_int {f : FloatScan} {e : Env} {k : Kind} {cat name b1 b2 tail : List Char} {v : ℤ}
    {ds : List Nat} (r : Rel) (sg : Sign) (h : Fine k cat name) (h1 : Blank b1) (h2 : Blank b2)
    (hv : lookup e k cat name = some (.int v)) (h0 : ds ≠ []) (hd : ∀ d ∈ ds, d < 10)
    (hf : -2147483648 ≤ sg.of (num ds) ∧ sg.of (num ds) ≤ 2147483647)
    (ht : ∀ c ∈ tail.head?, c < '0' ∨ '9' < c) :
    ∃ t, test f e (written k cat name b1 r.text b2 (sg.text ++ (figures ds ++ tail))) = .ok t ∧
      (t = true ↔ r.holds v (sg.of (num ds))) := by
  obtain ⟨r1, r2, r3⟩ := rel_word r
  rw [test_written h h1 h2 r1 r2 r3, hv]
  simp only
  unfold compare
  simp only
  have ht' : ∀ c ∈ tail.head?, digit c = none := by
    intro c hc
    unfold digit
    rw [if_neg]
    rintro ⟨d1, d2⟩
    rcases ht c hc with h | h
    · have : c.toNat < 48 := h
      omega
    · have : 57 < c.toNat := h
      omega
  rw [scanInt_ok (blank_space h2) ht' sg h0 hd (by simp [fits, hf.1, hf.2])]
  exact cond_int r v _

/-- C83.  A condition on a float compares it with the number that is read. -/
theorem C83_float {f : FloatScan} {e : Env} {k : Kind} {cat name b1 b2 value rest : List Char}
    {v x : ℚ} (r : Rel) (h : Fine k cat name) (h1 : Blank b1) (h2 : Blank b2)
    (hv : lookup e k cat name = some (.float v)) (hi : ∀ c ∈ value.head?, Ink c)
    (hx : f value = some (x, rest)) :
    ∃ t, test f e (written k cat name b1 r.text b2 value) = .ok t ∧ (t = true ↔ r.holds v x) := by
  obtain ⟨r1, r2, r3⟩ := rel_word r
  rw [test_written h h1 h2 r1 r2 r3, hv]
  simp only
  unfold compare scanFloat
  rw [drop_blank (blank_space h2)]
  have : value.dropWhile isSpace = value := by
    cases value with
    | nil => rfl
    | cons c cs =>
      rw [List.dropWhile_cons_of_neg]
      simp [ink_not (hi c (by simp))]
  simp only
  rw [this, hx]
  exact ⟨_, rfl, cond_float r v x⟩

/-- C83.  A condition on a point, vector, normal or color compares its components with the three
numbers in brackets, and holds if the relation holds for all of them.  Partial: for the relation "!="
that is not the opposite of "==". -/
theorem C83_triple_partial {f : FloatScan} {e : Env} {k : Kind}
    {cat name b1 b2 v1 v2 v3 rest : List Char} {p q t x y z : ℚ} (r : Rel) (h : Fine k cat name)
    (h1 : Blank b1) (h2 : Blank b2) (hv : lookup e k cat name = some (.triple p q t))
    (hi1 : ∀ c ∈ v1.head?, Ink c) (hx : f v1 = some (x, ' ' :: v2))
    (hi2 : ∀ c ∈ v2.head?, Ink c) (hy : f v2 = some (y, ' ' :: v3))
    (hi3 : ∀ c ∈ v3.head?, Ink c) (hz : f v3 = some (z, rest)) :
    ∃ b, test f e (written k cat name b1 r.text b2 ('[' :: v1)) = .ok b ∧
      (b = true ↔ r.holds p x ∧ r.holds q y ∧ r.holds t z) := by
  obtain ⟨r1, r2, r3⟩ := rel_word r
  rw [test_written h h1 h2 r1 r2 r3, hv]
  simp only
  unfold compare scanTriple
  simp only
  rw [drop_blank (blank_space h2), List.dropWhile_cons_of_neg (by decide)]
  have key : ∀ {u : List Char}, (∀ c ∈ u.head?, Ink c) →
      u.dropWhile isSpace = u ∧ (' ' :: u).dropWhile isSpace = u := by
    intro u hu
    have : u.dropWhile isSpace = u := by
      cases u with
      | nil => rfl
      | cons c cs =>
        rw [List.dropWhile_cons_of_neg]
        simp [ink_not (hu c (by simp))]
    exact ⟨this, by rw [List.dropWhile_cons_of_pos (by decide), this]⟩
  simp only [scanFloat]
  rw [(key hi1).1, hx]
  simp only
  rw [(key hi2).2, hy]
  simp only
  rw [(key hi3).2, hz]
  simp only
  refine ⟨_, rfl, ?_⟩
  rw [Bool.and_eq_true, Bool.and_eq_true, cond_float, cond_float, cond_float, and_assoc]

theorem occurs_iff (w s : List Char) : occurs w s = true ↔ ∃ p q, w = p ++ (s ++ q) := by
  induction w with
  | nil =>
    unfold occurs
    constructor
    · intro h
      rw [List.isEmpty_iff] at h
      subst h
      exact ⟨[], [], rfl⟩
    · rintro ⟨p, q, h⟩
      have := (List.append_eq_nil_iff.mp (List.append_eq_nil_iff.mp h.symm).2).1
      simp [this]
  | cons c cs ih =>
    unfold occurs
    rw [Bool.or_eq_true, ih, List.isPrefixOf_iff_prefix]
    constructor
    · rintro (⟨q, h⟩ | ⟨p, q, h⟩)
      · exact ⟨[], q, h.symm⟩
      · exact ⟨c :: p, q, by rw [h]; rfl⟩
    · rintro ⟨p, q, h⟩
      cases p with
      | nil => exact Or.inl ⟨q, h.symm⟩
      | cons d p =>
        right
        exact ⟨p, q, (List.cons.inj h).2⟩

/-- C83.  A condition on a string tells whether the string occurs in the word that is written, so that
it holds if the word is the string in quotes.  Partial: it holds of parts of the word too. -/
theorem C83_string_partial {f : FloatScan} {e : Env} {k : Kind} {cat name b1 b2 w s : List Char}
    (h : Fine k cat name) (h1 : Blank b1) (h2 : Blank b2)
    (hv : lookup e k cat name = some (.str s)) (h0 : w ≠ []) (hw : ∀ c ∈ w, Ink c)
    (hl : w.length < 80) :
    (∃ b, test f e (written k cat name b1 "==".toList b2 w) = .ok b ∧
      (b = true ↔ ∃ p q, w = p ++ (s ++ q))) ∧
    (∃ b, test f e (written k cat name b1 "!=".toList b2 w) = .ok b ∧
      (b = true ↔ ¬ ∃ p q, w = p ++ (s ++ q))) := by
  have hs : scanWord (b2 ++ w) = .ok (some (w, [])) := by
    unfold scanWord
    have hd : w.dropWhile isSpace = w := by
      have := drop_ink (t := []) h0 hw
      rwa [List.append_nil] at this
    obtain ⟨t1, t2⟩ := take_all hw
    rw [drop_blank (blank_space h2), hd]
    simp only
    rw [t1, t2, if_neg h0, if_neg (by omega)]
  constructor
  · obtain ⟨r1, r2, r3⟩ := rel_word .eq
    have := test_written (f := f) (e := e) (value := w) h h1 h2 r1 r2 r3
    rw [show "==".toList = Rel.text .eq from rfl, this, hv]
    simp only
    unfold compare
    simp only
    rw [hs]
    simp only [Res.bind]
    rw [if_pos (by decide)]
    exact ⟨_, rfl, occurs_iff w s⟩
  · obtain ⟨r1, r2, r3⟩ := rel_word .ne
    have := test_written (f := f) (e := e) (value := w) h h1 h2 r1 r2 r3
    rw [show "!=".toList = Rel.text .ne from rfl, this, hv]
    simp only
    unfold compare
    simp only
    rw [hs]
    simp only [Res.bind]
    rw [if_neg (by decide), if_pos (by decide)]
    refine ⟨_, rfl, ?_⟩
    rw [← occurs_iff, Bool.not_eq_true', Bool.not_eq_true]

/-- C83.  A text without a dollar sign at its beginning, without a colon, or with less than two words is
not read, and true. -/
theorem C83_unread (f : FloatScan) (e : Env) (s : List Char)
    (h : s.head? ≠ some '$' ∨ ':' ∉ s) : test f e s = .ok true := by
  unfold test
  by_cases hc : '$' ∉ s ∨ ':' ∉ s
  · rw [if_pos hc]
  · rw [if_neg hc]
    have hh := h.resolve_right (fun h => hc (Or.inr h))
    have : scanTwo s = .ok none := by
      unfold scanTwo
      split
      · exact absurd rfl hh
      · rfl
    rw [this]
    rfl

/-- The operations. -/
inductive Arith where
  | mul | div | add | sub
  deriving DecidableEq, Repr

/-- How an operation is written. -/
def Arith.text : Arith → List Char
  | .mul => "*".toList
  | .div => "/".toList
  | .add => "+".toList
  | .sub => "-".toList

/-- What an operation gives; quotients by zero are zero. -/
def Arith.result : Arith → ℚ → ℚ → ℚ
  | .mul, a, b => a * b
  | .div, a, b => a / b
  | .add, a, b => a + b
  | .sub, a, b => a - b

/-- C83.  An operation in the place of the relation asks whether its result is different from zero. -/
theorem C83_math {f : FloatScan} {e : Env} {k : Kind} {cat name b1 b2 value rest : List Char}
    {v x : ℚ} (r : Arith) (h : Fine k cat name) (h1 : Blank b1) (h2 : Blank b2)
    (hv : lookup e k cat name = some (.float v)) (hi : ∀ c ∈ value.head?, Ink c)
    (hx : f value = some (x, rest)) :
    ∃ t, test f e (written k cat name b1 r.text b2 value) = .ok t ∧
      (t = true ↔ r.result v x ≠ 0) := by
  have hr : r.text ≠ [] ∧ (∀ c ∈ r.text, Ink c) ∧ r.text.length < 80 := by
    unfold Ink
    cases r <;> decide
  obtain ⟨r1, r2, r3⟩ := hr
  rw [test_written h h1 h2 r1 r2 r3, hv]
  simp only
  unfold compare scanFloat
  rw [drop_blank (blank_space h2)]
  have : value.dropWhile isSpace = value := by
    cases value with
    | nil => rfl
    | cons c cs =>
      rw [List.dropWhile_cons_of_neg]
      simp [ink_not (hi c (by simp))]
  simp only
  rw [this, hx]
  refine ⟨_, rfl, ?_⟩
  have hm : isMath (hash r.text) = true := by cases r <;> decide
  unfold condFloat
  rw [hm]
  unfold mathFloat
  cases r <;> simp only [Arith.result] <;>
    simp [hash, Arith.text, hashMul, hashDiv, hashAdd, hashSub, code]

/-- What an operation gives for integers: quotients are cut off towards zero. -/
def Arith.resultInt : Arith → ℤ → ℤ → ℤ
  | .mul, a, b => a * b
  | .div, a, b => if b = 0 then 0 else if 0 ≤ a * b then |a| / |b| else -(|a| / |b|)
  | .add, a, b => a + b
  | .sub, a, b => a - b

theorem tdiv_cut (a b : ℤ) (hb : b ≠ 0) :
    Int.tdiv a b = if 0 ≤ a * b then |a| / |b| else -(|a| / |b|) := by
  rcases lt_or_gt_of_ne hb with hb | hb <;> rcases le_or_gt 0 a with ha | ha
  · rw [abs_of_nonneg ha, abs_of_neg hb]
    have e : Int.tdiv a b = -(Int.tdiv a (-b)) := by rw [Int.tdiv_neg, neg_neg]
    rw [e, Int.tdiv_eq_ediv_of_nonneg ha]
    by_cases h0 : a = 0
    · subst h0; simp
    · rw [if_neg]
      exact not_le.mpr (mul_neg_of_pos_of_neg (lt_of_le_of_ne ha (Ne.symm h0)) hb)
  · rw [abs_of_neg ha, abs_of_neg hb, if_pos (mul_pos_of_neg_of_neg ha hb).le]
    have e : Int.tdiv a b = Int.tdiv (-a) (-b) := by rw [Int.tdiv_neg, Int.neg_tdiv, neg_neg]
    rw [e, Int.tdiv_eq_ediv_of_nonneg (by omega)]
  · rw [abs_of_nonneg ha, abs_of_pos hb, if_pos (mul_nonneg ha hb.le),
      Int.tdiv_eq_ediv_of_nonneg ha]
  · rw [abs_of_neg ha, abs_of_pos hb, if_neg (not_le.mpr (mul_neg_of_neg_of_pos ha hb))]
    have e : Int.tdiv a b = -(Int.tdiv (-a) b) := by rw [Int.neg_tdiv, neg_neg]
    rw [e, Int.tdiv_eq_ediv_of_nonneg (by omega)]

/-- C83.  For integers too an operation asks whether its result is different from zero; results that
do not fit are undefined behaviour. -/
theorem C83_math_int {f : FloatScan} {e : Env} {k : Kind} {cat name b1 b2 tail : List Char} {v : ℤ}
    {ds : List Nat} (r : Arith) (sg : Sign) (h : Fine k cat name) (h1 : Blank b1) (h2 : Blank b2)
    (hv : lookup e k cat name = some (.int v)) (h0 : ds ≠ []) (hd : ∀ d ∈ ds, d < 10)
    (hf : -2147483648 ≤ sg.of (num ds) ∧ sg.of (num ds) ≤ 2147483647)
    (ht : ∀ c ∈ tail.head?, c < '0' ∨ '9' < c) :
    test f e (written k cat name b1 r.text b2 (sg.text ++ (figures ds ++ tail))) =
      if -2147483648 ≤ r.resultInt v (sg.of (num ds)) ∧ r.resultInt v (sg.of (num ds)) ≤ 2147483647
      then .ok (decide (r.resultInt v (sg.of (num ds)) ≠ 0)) else .ub := by
  have hr : r.text ≠ [] ∧ (∀ c ∈ r.text, Ink c) ∧ r.text.length < 80 := by
    unfold Ink
    cases r <;> decide
  obtain ⟨r1, r2, r3⟩ := hr
  rw [test_written h h1 h2 r1 r2 r3, hv]
  simp only
  unfold compare
  simp only
  have ht' : ∀ c ∈ tail.head?, digit c = none := by
    intro c hc
    unfold digit
    rw [if_neg]
    rintro ⟨d1, d2⟩
    rcases ht c hc with h | h
    · have : c.toNat < 48 := h
      omega
    · have : 57 < c.toNat := h
      omega
  rw [scanInt_ok (blank_space h2) ht' sg h0 hd (by simp [fits, hf.1, hf.2])]
  show condInt v (sg.of (num ds)) (hash r.text) = _
  generalize sg.of (num ds) = b
  have hm : isMath (hash r.text) = true := by cases r <;> decide
  unfold condInt
  rw [if_pos hm]
  have key : ∀ n : ℤ, ((checked n).bind fun r => Res.ok (decide (r ≠ 0))) =
      if -2147483648 ≤ n ∧ n ≤ 2147483647 then .ok (decide (n ≠ 0)) else .ub := by
    intro n
    unfold checked fits
    by_cases hn : -2147483648 ≤ n ∧ n ≤ 2147483647
    · rw [if_pos hn, if_pos (by simp [hn.1, hn.2])]; rfl
    · rw [if_neg hn, if_neg (by simpa using hn)]; rfl
  have m1 : hashDiv ≠ hashMul := by decide
  have m2 : hashAdd ≠ hashMul := by decide
  have m3 : hashAdd ≠ hashDiv := by decide
  have m4 : hashSub ≠ hashMul := by decide
  have m5 : hashSub ≠ hashDiv := by decide
  have m6 : hashSub ≠ hashAdd := by decide
  cases r
  · show mathInt v b hashMul = _
    unfold mathInt
    rw [if_pos rfl]
    exact key _
  · show mathInt v b hashDiv = _
    unfold mathInt
    rw [if_neg m1, if_pos rfl]
    by_cases hb : b = 0
    · have he : Arith.div.resultInt v b = 0 := if_pos hb
      rw [if_pos hb, he]; rfl
    · have he : Arith.div.resultInt v b = Int.tdiv v b := by
        rw [tdiv_cut _ _ hb]; exact if_neg hb
      rw [if_neg hb, he]
      by_cases hv0 : v = 0
      · rw [if_pos hv0, hv0]; simp
      · rw [if_neg hv0]
        unfold divide
        rw [if_neg hb]
        exact key _
  · show mathInt v b hashAdd = _
    unfold mathInt
    rw [if_neg m2, if_neg m3, if_pos rfl]
    exact key _
  · show mathInt v b hashSub = _
    unfold mathInt
    rw [if_neg m4, if_neg m5, if_neg m6, if_pos rfl]
    exact key _

/-! ### Violations -/

/-- Parameters for the examples: in the category "user" of the attributes. -/
def sampleEnv : Env where
  attr := fun c n =>
    if c = "user".toList then
      if n = "pass".toList then some (.str "beauty".toList)
      else if n = "part".toList then some (.str "beaut".toList)
      else if n = "none".toList then some (.str [])
      else if n = "two".toList then some (.str "soft shadow".toList)
      else if n = "n".toList then some (.int 3)
      else if n = "big".toList then some (.int 65536)
      else if n = "col".toList then some (.triple 0 0 1)
      else none
    else none
  opt := fun c n => if c = "limits".toList ∧ n = "n".toList then some (.int 7) else none

/-- Reading of single digits, for the examples. -/
def sampleScan : FloatScan
  | [] => none
  | c :: cs => (digit c).map fun (d : Nat) => ((d : ℚ), cs)

/-- C83.  A string that is only part of the word that is written is found equal to it, the empty
string is equal to every word, and a string with a space is not equal to itself. -/
theorem C83_string_violated :
    test sampleScan sampleEnv "$user:part == 'beauty'".toList = .ok true ∧
    test sampleScan sampleEnv "$user:none == 'shadow'".toList = .ok true ∧
    test sampleScan sampleEnv "$user:none != 'shadow'".toList = .ok false ∧
    test sampleScan sampleEnv "$user:two == 'soft shadow'".toList = .ok false := by
  decide +kernel

/-- C83.  A color which differs from the one that is written in one component is neither equal to it
nor different from it. -/
theorem C83_triple_violated :
    test sampleScan sampleEnv "$user:col == [0 0 0]".toList = .ok false ∧
    test sampleScan sampleEnv "$user:col != [0 0 0]".toList = .ok false := by
  decide +kernel

/-- C83.  A word of eighty characters is written past the end of its array, and a condition whose first
word has no colon asks for a null name. -/
theorem C83_memory_violated :
    test sampleScan sampleEnv ('$' :: 'u' :: ':' :: (List.replicate 78 'a' ++ " == 1".toList)) = .ub ∧
    test sampleScan sampleEnv ('$' :: 'u' :: ':' :: (List.replicate 77 'a' ++ " == 1".toList)) =
      .ok true ∧
    test sampleScan sampleEnv "$pass == 'user:pass'".toList = .ub ∧
    test sampleScan sampleEnv "$Option:n == 1".toList = .ub := by
  decide +kernel

/-- C83.  Words which are no relation but have the hash of one are taken for it, and products of
integers overflow. -/
theorem C83_relation_violated :
    test sampleScan sampleEnv "$user:n <\\ 3".toList = .ok true ∧
    test sampleScan sampleEnv "$user:n <\\ 4".toList = .ok false ∧
    test sampleScan sampleEnv "$user:n ?\u00e0 3".toList = .ok true ∧
    test sampleScan sampleEnv "$user:n ?\u00e0 2".toList = .ok false ∧
    test sampleScan sampleEnv "$user:big * 65536".toList = .ub := by
  decide +kernel

/-! ### Non-vacuity -/

theorem fine_n : Fine .plain "user".toList "n".toList := by
  constructor
  · refine ⟨by decide, ?_⟩
    unfold Ink
    decide
  · refine ⟨by decide, ?_⟩
    unfold Ink
    decide
  · decide
  · decide

theorem blank_one : Blank [' '] := ⟨by decide, by decide⟩

example : ∃ t, test sampleScan sampleEnv "$user:n <= 12;".toList = .ok t ∧
    (t = true ↔ (3 : ℤ) ≤ 12) :=
  C83_int (ds := [1, 2]) (tail := [';']) .le .none fine_n blank_one blank_one (by decide) (by decide)
    (by decide) (by decide) (by decide)

example : test sampleScan sampleEnv "$user:unknown == 1".toList = .ok true ∧
    test sampleScan sampleEnv "$Option:limits:n > 6".toList = .ok true ∧
    test sampleScan sampleEnv "$Option:limits:n > 7".toList = .ok false ∧
    test sampleScan sampleEnv "$Attribute:user:pass == 'beauty'".toList = .ok true ∧
    test sampleScan sampleEnv "$user:pass != 'shadow'".toList = .ok true ∧
    test sampleScan sampleEnv "$user:col == [0 0 1]".toList = .ok true ∧
    test sampleScan sampleEnv "user:n == 1".toList = .ok true := by
  decide +kernel

end Verif.Filter.Condition
