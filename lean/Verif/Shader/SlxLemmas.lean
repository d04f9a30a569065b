import Verif.Shader.SlxSpec

/-!
# Compiled shaders: reading words, numbers and strings
-/

set_option linter.unusedSectionVars false

namespace Verif.Shader.Slx

variable {F : Type}

/-! ## Streams -/

/-- A stream in which nothing has gone wrong. -/
def str (r : Str) : Stream := ⟨r, false, false⟩

/-- Up to white space, the stream `s` is at the text `r`. -/
def Q (s : Stream) (r : Str) : Prop := s.ws = (str r).ws

theorem Q_refl (r : Str) : Q (str r) r := rfl

theorem ws_ws (s : Stream) : s.ws.ws = s.ws := by
  unfold Stream.ws
  by_cases h : (s.fail || s.eof) = true
  · simp [h]
  · simp only [h]
    by_cases h2 : (s.rest.dropWhile space).isEmpty = true
    · simp [h2]
    · have hf : s.fail = false := by cases hs : s.fail <;> simp_all
      simp only [hf, h2]
      have : List.dropWhile space (List.dropWhile space s.rest) = List.dropWhile space s.rest := by
        induction s.rest with
        | nil => rfl
        | cons c r ih =>
          by_cases hc : space c = true
          · simp [hc, ih]
          · simp [hc]
      simp [this]
      simpa using h2

theorem Q_ws {s : Stream} {r : Str} (h : Q s r) : Q s.ws r := by
  unfold Q at *; rw [ws_ws, h]

theorem ws_cons {c : Char} (r : Str) (h : space c = true) : (str (c :: r)).ws = (str r).ws := by
  simp [Stream.ws, str, h]

theorem Q_space {s : Stream} {c : Char} {r : Str} (h : space c = true) : Q s (c :: r) ↔ Q s r := by
  unfold Q; rw [ws_cons r h]

theorem ws_word {c : Char} (r : Str) (h : space c = false) : (str (c :: r)).ws = str (c :: r) := by
  simp [Stream.ws, str, h]

theorem ws_of {s : Stream} {c : Char} {r : Str} (h : space c = false) (hq : Q s (c :: r)) :
    s.ws = str (c :: r) := by rw [hq, ws_word r h]

theorem get_str (c : Char) (r : Str) : (str (c :: r)).get = (c, str r) := rfl

theorem peek_str (c : Char) (r : Str) : (str (c :: r)).peek = str (c :: r) := rfl

/-- Words, characters of which the first is given. -/
theorem tokLoop_word (c : Char) (r : Str) (hc : space c = true) : ∀ (ys : Str) (n : Nat) (y : Char),
    (y :: ys).length ≤ n → (∀ a ∈ y :: ys, space a = false) →
    tokLoop n y (str (ys ++ c :: r)) = (y :: ys, str r) := by
  intro ys
  induction ys with
  | nil =>
    intro n y hn hy
    obtain ⟨m, rfl⟩ : ∃ m, n = m + 1 := ⟨n - 1, by simp at hn; omega⟩
    have : space y = false := hy y (by simp)
    simp only [tokLoop, this, List.nil_append, get_str]
    cases m with
    | zero => simp [tokLoop]
    | succ m => simp [tokLoop, hc]
  | cons z zs ih =>
    intro n y hn hy
    obtain ⟨m, rfl⟩ : ∃ m, n = m + 1 := ⟨n - 1, by simp at hn; omega⟩
    have : space y = false := hy y (by simp)
    have h2 := ih m z (by simp at hn ⊢; omega) (fun a ha => hy a (List.mem_cons_of_mem _ ha))
    simp only [tokLoop, this, List.cons_append, get_str, h2]
    simp

/-- The token at a place where characters other than white space stand before white space. -/
theorem getToken_chars {s : Stream} {y : Str} {c : Char} {r : Str} (hne : y ≠ [])
    (hlen : y.length ≤ 254) (hcol : y.head? ≠ some ':') (hy : ∀ a ∈ y, space a = false)
    (hc : space c = true) (hq : Q s (y ++ c :: r)) :
    getToken s = (y.takeWhile (· ≠ '\x00'), str r) := by
  cases y with
  | nil => exact absurd rfl hne
  | cons a as =>
    have ha : space a = false := hy a (by simp)
    have hws : s.ws = str (a :: (as ++ c :: r)) := ws_of ha hq
    have h3 := tokLoop_word c r hc as 254 a hlen hy
    have hcol' : a ≠ ':' := by simpa using hcol
    unfold getToken
    rw [hws, get_str]
    simp only [hcol', if_false, h3]

theorem takeWhile_all {x : Str} (h : ∀ c ∈ x, c ≠ '\x00') : x.takeWhile (· ≠ '\x00') = x := by
  induction x with
  | nil => rfl
  | cons c r ih =>
    have := h c (by simp)
    rw [List.takeWhile_cons_of_pos (by simpa using this), ih (fun d hd => h d (List.mem_cons_of_mem _ hd))]

theorem takeWhile_zero {x : Str} (h : ∀ c ∈ x, c ≠ '\x00') (y : Str) :
    (x ++ '\x00' :: y).takeWhile (· ≠ '\x00') = x := by
  induction x with
  | nil => simp
  | cons c r ih =>
    have := h c (by simp)
    rw [List.cons_append, List.takeWhile_cons_of_pos (by simpa using this),
      ih (fun d hd => h d (List.mem_cons_of_mem _ hd))]

theorem getToken_word {s : Stream} {x : Str} {c : Char} {r : Str} (h : Word 254 x)
    (hc : space c = true) (hq : Q s (x ++ c :: r)) : getToken s = (x, str r) := by
  rw [getToken_chars h.ne h.len h.colon (fun a ha => (h.chars a ha).1) hc hq,
    takeWhile_all (fun a ha => (h.chars a ha).2)]

/-- A word that may be followed by a zero. -/
theorem getToken_temp {s : Stream} {x : Str} {c : Char} {r : Str} (t : Bool) (h : Word 253 x)
    (hc : space c = true) (hq : Q s (x ++ ((if t then ['\x00'] else []) ++ c :: r))) :
    getToken s = (x, str r) := by
  have hl := h.len
  cases t with
  | false => exact getToken_word ⟨h.ne, by omega, h.colon, h.chars⟩ hc hq
  | true =>
    have hq' : Q s ((x ++ ['\x00']) ++ c :: r) := by simpa using hq
    rw [getToken_chars (by simp) (by simp; omega) ?_ ?_ hc hq']
    · rw [takeWhile_zero (fun a ha => (h.chars a ha).2)]
    · cases x with
      | nil => exact absurd rfl h.ne
      | cons a as => simpa using h.colon
    · intro a ha
      rcases List.mem_append.mp ha with ha | ha
      · exact (h.chars a ha).1
      · simp at ha; subst ha; decide

theorem getToken_colon {s : Stream} {r : Str} (hq : Q s (':' :: r)) : getToken s = ([':'], str r) := by
  have hws : s.ws = str (':' :: r) := ws_of (by decide) hq
  unfold getToken
  rw [hws, get_str]
  simp

theorem read_back {α : Type} {f : Str → Option (α × Str)} {w : Str} {x z : α} (h : Reads f w x)
    {s : Stream} {c : Char} {r : Str} (hc : space c = true) (hq : Q s (w ++ c :: r)) :
    s.read f z = (x, str (c :: r)) := by
  obtain ⟨a, as, rfl, ha⟩ := h.head
  have hws : s.ws = str (a :: (as ++ c :: r)) := ws_of ha hq
  have hb := h.back c r hc
  unfold Stream.read
  rw [hws]
  simp only [str, Bool.or_self] at *
  have : f (a :: (as ++ c :: r)) = some (x, c :: r) := hb
  simp [this]

/-! ## Strings -/

theorem escape_mem : ∀ p ∈ escapes, escape p.1 = some p.2 := by decide

theorem char_le {a b : Char} : a ≤ b ↔ a.toNat ≤ b.toNat := by
  show a.val ≤ b.val ↔ _
  exact UInt32.le_iff_toNat_le

theorem escape_oct {c : Char} (h : Oct c) : escape c = none := by
  have h1 := char_le.mp h.1
  have h2 := char_le.mp h.2
  unfold escape
  have e1 : '0'.toNat = 48 := rfl
  have e2 : '7'.toNat = 55 := rfl
  rw [e1] at h1; rw [e2] at h2
  have k : ∀ d : Char, (d.toNat < 48 ∨ 55 < d.toNat) → c ≠ d := by
    intro d hd hcd; subst hcd; omega
  rw [if_neg (k _ (by decide)), if_neg (k _ (by decide)), if_neg (k _ (by decide)), if_neg (k _ (by decide)),
    if_neg (k _ (by decide)), if_neg (k _ (by decide)), if_neg (k _ (by decide)), if_neg (k _ (by decide)),
    if_neg (k _ (by decide)), if_neg (k _ (by decide)), if_neg (k _ (by decide))]

theorem digit_dec {c : Char} : digit false c = true ↔ Dec c := by
  simp [digit, Dec]

theorem digit_hex {c : Char} : digit true c = true ↔ Hex c := by
  simp only [digit, Hex, Bool.or_eq_true, Bool.and_eq_true, decide_eq_true_eq, true_and]
  constructor
  · rintro (h | h | h)
    · exact .inl h
    · exact .inr (.inr h)
    · exact .inr (.inl h)
  · rintro (h | h | h)
    · exact .inl h
    · exact .inr (.inr h)
    · exact .inr (.inl h)

theorem digits_eq (hex : Bool) (u : Char) (us : Str) : ∀ (ds : Str) (n : Nat),
    (∀ x ∈ ds, digit hex x = true) → ds.length ≤ n → (ds.length = n ∨ digit hex u = false) →
    digits hex n (str (ds ++ u :: us)) = (ds, str (u :: us)) := by
  intro ds
  induction ds with
  | nil =>
    intro n _ _ h
    cases n with
    | zero => simp [digits, peek_str]
    | succ n =>
      have : digit hex u = false := by
        rcases h with h | h
        · simp at h
        · exact h
      simp [digits, get_str, this, peek_str]
  | cons d ds ih =>
    intro n hd hn h
    obtain ⟨m, rfl⟩ : ∃ m, n = m + 1 := ⟨n - 1, by simp at hn; omega⟩
    have h1 : digit hex d = true := hd d (by simp)
    have h2 := ih m (fun x hx => hd x (List.mem_cons_of_mem _ hx)) (by simpa using hn)
      (by rcases h with h | h
          · left; simpa using h
          · right; exact h)
    simp only [digits, List.cons_append, get_str, h1, if_true, h2]

theorem value_foldl (b : Nat) : ∀ (ds : Str) (v : Nat), (∀ x ∈ ds, digitVal x = val x) →
    ds.foldl (fun r c => r * b + digitVal c) v = value b v ds := by
  intro ds
  induction ds with
  | nil => intro v _; rfl
  | cons c r ih =>
    intro v h
    rw [List.foldl_cons, value, h c (by simp), ih _ (fun x hx => h x (List.mem_cons_of_mem _ hx))]

theorem strtoul_eq (b : Nat) (ds : Str) (h : ∀ x ∈ ds, digitVal x = val x ∧ val x < b) :
    strtoul b ds = value b 0 ds := by
  have : ds.takeWhile (fun c => digitVal c < b) = ds := by
    induction ds with
    | nil => rfl
    | cons c r ih =>
      have hc := h c (by simp)
      rw [List.takeWhile_cons_of_pos (by simp [hc.1, hc.2]), ih (fun x hx => h x (List.mem_cons_of_mem _ hx))]
  rw [strtoul, this, value_foldl b ds 0 (fun x hx => (h x hx).1)]

theorem val_hex {c : Char} (h : Hex c) : digitVal c = val c ∧ val c < 16 := by
  have e : ∀ a : Char, (a ≤ c ↔ a.toNat ≤ c.toNat) ∧ (c ≤ a ↔ c.toNat ≤ a.toNat) :=
    fun a => ⟨char_le, char_le⟩
  unfold Hex at h
  unfold digitVal val
  simp only [(e _).1, (e _).2] at *
  have e1 : '0'.toNat = 48 := rfl
  have e2 : '9'.toNat = 57 := rfl
  have e3 : 'A'.toNat = 65 := rfl
  have e4 : 'F'.toNat = 70 := rfl
  have e5 : 'a'.toNat = 97 := rfl
  have e6 : 'f'.toNat = 102 := rfl
  simp only [e1, e2, e3, e4, e5, e6] at *
  split <;> (try split) <;> (try split) <;> (try split) <;> omega

theorem val_oct {c : Char} (h : Oct c) : digitVal c = val c ∧ val c < 8 := by
  have e : ∀ a : Char, (a ≤ c ↔ a.toNat ≤ c.toNat) ∧ (c ≤ a ↔ c.toNat ≤ a.toNat) :=
    fun a => ⟨char_le, char_le⟩
  unfold Oct at h
  unfold digitVal val
  simp only [(e _).1, (e _).2] at *
  have e1 : '0'.toNat = 48 := rfl
  have e2 : '9'.toNat = 57 := rfl
  have e3 : 'A'.toNat = 65 := rfl
  have e4 : 'F'.toNat = 70 := rfl
  have e5 : 'a'.toNat = 97 := rfl
  have e6 : '7'.toNat = 55 := rfl
  simp only [e1, e2, e3, e4, e5, e6] at *
  split <;> (try split) <;> (try split) <;> (try split) <;> omega

theorem oct_dec {c : Char} (h : Oct c) : Dec c := by
  refine ⟨h.1, char_le.mpr ?_⟩
  have := char_le.mp h.2
  have e1 : '9'.toNat = 57 := rfl
  have e2 : '7'.toNat = 55 := rfl
  omega

theorem value_lt : ∀ (ds : Str) (v : Nat), (∀ x ∈ ds, val x < 16) →
    value 16 v ds < (v + 1) * 16 ^ ds.length := by
  intro ds
  induction ds with
  | nil => intro v _; simp [value]
  | cons c r ih =>
    intro v h
    have h1 := ih (v * 16 + val c) (fun x hx => h x (List.mem_cons_of_mem _ hx))
    have h2 : v * 16 + val c + 1 ≤ (v + 1) * 16 := by have := h c (by simp); omega
    have h3 := Nat.mul_le_mul_right (16 ^ r.length) h2
    rw [value, List.length_cons, Nat.pow_succ]
    calc _ < _ := h1
      _ ≤ _ := h3
      _ = _ := by rw [Nat.mul_assoc, Nat.mul_comm 16]

theorem numChar_eq {n : Nat} (h : n < 256) : numChar n = charOf n := by
  have : n % 256 = n := Nat.mod_eq_of_lt h
  rw [numChar, this, charOf]

/-- The text of a string is read as what it means, up to the quote. -/
theorem strLoop_means {t m : Str} (h : Means t m) (r : Str) : ∀ n, t.length < n →
    strLoop n false (str (t ++ '"' :: r)) = some (m, str r) := by
  induction h with
  | nil =>
    intro n hn
    obtain ⟨k, rfl⟩ : ∃ k, n = k + 1 := ⟨n - 1, by simp at hn; omega⟩
    simp [strLoop, get_str]
  | @char c t m h1 h2 h3 _ ih =>
    intro n hn
    obtain ⟨k, rfl⟩ : ∃ k, n = k + 1 := ⟨n - 1, by simp at hn; omega⟩
    have := ih k (by simpa using hn)
    simp [strLoop, get_str, h1, h2, this]
  | @esc c d t m hm _ ih =>
    intro n hn
    obtain ⟨k, rfl⟩ : ∃ k, n = k + 2 := ⟨n - 2, by simp at hn; omega⟩
    have := ih k (by simp at hn; omega)
    have he : escape c = some d := escape_mem (c, d) hm
    simp [strLoop, get_str, he, this]
  | @oct c ds t m hd hl hend h256 _ ih =>
    intro n hn
    obtain ⟨k, rfl⟩ : ∃ k, n = k + 2 := ⟨n - 2, by simp at hn; omega⟩
    have ih' := ih k (by simp at hn; omega)
    have hc : Oct c := hd c (by simp)
    have he : escape c = none := escape_oct hc
    have hcx : c ≠ 'x' := by
      rintro rfl
      exact absurd hc (by unfold Oct; decide)
    have hcd : ('0' ≤ c ∧ c ≤ '9') := oct_dec hc
    obtain ⟨u, us, hu⟩ : ∃ u us, t ++ '"' :: r = u :: us := by
      cases t with
      | nil => exact ⟨_, _, rfl⟩
      | cons a as => exact ⟨_, _, rfl⟩
    have hdig := digits_eq false u us ds 2
      (fun x hx => digit_dec.mpr (oct_dec (hd x (List.mem_cons_of_mem _ hx)))) hl
      (by
        rcases hend with hend | hend
        · exact .inl hend
        · right
          have : ¬ Dec u := by
            cases t with
            | nil =>
              simp at hu
              rw [← hu.1]; unfold Dec; decide
            | cons a as =>
              simp at hu
              rw [← hu.1]; exact hend a rfl
          cases hx : digit false u with
          | false => rfl
          | true => exact absurd (digit_dec.mp hx) this)
    have hnum : numEsc c (str (ds ++ (t ++ '"' :: r))) =
        (charOf (value 8 0 (c :: ds)), str (t ++ '"' :: r)) := by
      rw [hu, numEsc, if_neg hcx, hdig]
      simp only
      rw [strtoul_eq 8 (c :: ds) (fun x hx => val_oct (hd x hx)), numChar_eq h256]
    have hq : c ≠ '"' := by
      rintro rfl
      exact absurd hc (by unfold Oct; decide)
    have e1 : ('\\' :: c :: (ds ++ t)) ++ '"' :: r = '\\' :: c :: (ds ++ (t ++ '"' :: r)) := by simp
    rw [e1]
    simp only [strLoop, get_str]
    simp only [he, hcx, hcd, hnum, ih']
    simp
  | @hex ds t m hd hl hend _ ih =>
    intro n hn
    obtain ⟨k, rfl⟩ : ∃ k, n = k + 2 := ⟨n - 2, by simp at hn; omega⟩
    have ih' := ih k (by simp at hn; omega)
    obtain ⟨u, us, hu⟩ : ∃ u us, t ++ '"' :: r = u :: us := by
      cases t with
      | nil => exact ⟨_, _, rfl⟩
      | cons a as => exact ⟨_, _, rfl⟩
    have hdig := digits_eq true u us ds 2
      (fun x hx => digit_hex.mpr (hd x hx)) hl
      (by
        rcases hend with hend | hend
        · exact .inl hend
        · right
          have : ¬ Hex u := by
            cases t with
            | nil =>
              simp at hu
              rw [← hu.1]; unfold Hex; decide
            | cons a as =>
              simp at hu
              rw [← hu.1]; exact hend a rfl
          cases hx : digit true u with
          | false => rfl
          | true => exact absurd (digit_hex.mp hx) this)
    have h256 : value 16 0 ds < 256 := by
      have h1 := value_lt ds 0 (fun x hx => (val_hex (hd x hx)).2)
      have h2 : (16 : Nat) ^ ds.length ≤ 16 ^ 2 := Nat.pow_le_pow_right (by decide) hl
      have h3 : (16 : Nat) ^ 2 = 256 := rfl
      omega
    have hnum : numEsc 'x' (str (ds ++ (t ++ '"' :: r))) =
        (charOf (value 16 0 ds), str (t ++ '"' :: r)) := by
      rw [hu, numEsc, if_pos rfl, hdig]
      simp only
      rw [strtoul_eq 16 ds (fun x hx => val_hex (hd x hx)), numChar_eq h256]
    have he : escape 'x' = none := by decide
    have e1 : ('\\' :: 'x' :: (ds ++ t)) ++ '"' :: r = '\\' :: 'x' :: (ds ++ (t ++ '"' :: r)) := by simp
    rw [e1]
    simp only [strLoop, get_str]
    simp only [he, hnum, ih']
    simp

theorem getString_means {t m : Str} (h : Means t m) {s : Stream} {r : Str} {n : Nat}
    (hn : t.length < n) (hq : Q s ('"' :: (t ++ '"' :: r))) : getString n s = some (m, str r) := by
  have hws : s.ws = str ('"' :: (t ++ '"' :: r)) := ws_of (by decide) hq
  rw [getString, hws, get_str]
  exact strLoop_means h r n hn

theorem means_no_zero {t m : Str} (h : Means t m) : ∀ c ∈ m, c ≠ '\x00' := by
  have key0 : ∀ n : Fin 256, 0 < n.val → Char.ofNat n.val ≠ '\x00' := by decide +kernel
  have key : ∀ n : Nat, 0 < n → n < 256 → Char.ofNat n ≠ '\x00' := fun n h0 h => key0 ⟨n, h⟩ h0
  have key1 : ∀ n : Nat, n < 256 → ∀ c ∈ charOf n, c ≠ '\x00' := by
    intro n hn c hc
    unfold charOf at hc
    split at hc
    · cases hc
    · rw [List.mem_singleton.mp hc]; exact key n (by omega) hn
  induction h with
  | nil => simp
  | char _ _ h3 _ ih =>
    intro c hc
    rcases List.mem_cons.mp hc with rfl | hc
    · exact h3
    · exact ih c hc
  | @esc c d t m hm _ ih =>
    intro x hx
    rcases List.mem_cons.mp hx with rfl | hx
    · have : ∀ p ∈ escapes, p.2 ≠ '\x00' := by decide
      exact this _ hm
    · exact ih x hx
  | oct _ _ _ h256 _ ih =>
    intro x hx
    rcases List.mem_append.mp hx with hx | hx
    · exact key1 _ h256 x hx
    · exact ih x hx
  | @hex ds t m hd hl _ _ ih =>
    intro x hx
    rcases List.mem_append.mp hx with hx | hx
    · refine key1 _ ?_ x hx
      have h1 := value_lt ds 0 (fun x hx => (val_hex (hd x hx)).2)
      have h2 : (16 : Nat) ^ ds.length ≤ 16 ^ 2 := Nat.pow_le_pow_right (by decide) hl
      have h3 : (16 : Nat) ^ 2 = 256 := rfl
      omega
    · exact ih x hx

end Verif.Shader.Slx
