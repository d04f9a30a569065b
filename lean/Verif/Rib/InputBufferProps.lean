import Verif.Rib.InputBufferLemmas

/-! Properties C01 and C02: the RIB input buffer. -/
namespace Verif.Rib

/-- The specification of the character interface: a position in an infinite sequence of
characters `s`, and a fixed table `p` of source positions.  There is no buffer here. -/
def Client.spec {α} (s : Nat → Nat) (p : Nat → SPos) : Client α → Nat → α
  | .ret a, _ => a
  | .get k, n => (k (s n)).spec s p (n + 1)
  | .unget k, n => k.spec s p (n - 1)
  | .pos k, n => (k (p n)).spec s p n

/-- The bytes of the stream followed by 255 for ever. -/
def bytesThenEof (l : List Nat) (i : Nat) : Nat := if h : i < l.length then l[i] else 255

theorem bytesThenEof_eq (l : List Nat) : bytesThenEof l = streamAt l := by
  funext i
  simp only [bytesThenEof, streamAt, List.getD_eq_getElem?_getD]
  split <;> simp_all

theorem client_run_inv {α} (l : List Nat) (c : Client α) (b : Buf) (n : Nat) (u : Bool)
    (h : Inv l b n u) (can : Bool) (hcan : can = true → u = false ∧ 0 < n) (hok : c.Ok can) :
    c.run b = some (c.spec (streamAt l) (codePos l) n) := by
  induction c generalizing b n u can with
  | ret a => rfl
  | get k ih =>
    obtain ⟨b', hb', hi⟩ := get_spec h
    simp only [Client.run, hb', Option.bind_some, Client.spec]
    exact ih _ _ _ _ hi true (fun _ => ⟨rfl, by omega⟩) (hok _)
  | unget k ih =>
    obtain ⟨hc, hok'⟩ := hok
    obtain ⟨hu, hn⟩ := hcan hc
    subst hu
    obtain ⟨m, rfl⟩ : ∃ m, n = m + 1 := ⟨n - 1, by omega⟩
    obtain ⟨b', hb', hi⟩ := unget_spec h
    simp only [Client.run, hb', Option.bind_some, Client.spec, Nat.add_sub_cancel]
    exact ih _ _ _ hi false (by simp) hok'
  | pos k ih =>
    simp only [Client.run, Client.spec, h.cur]
    exact ih _ _ _ _ h can hcan (hok _)

/-- **C01.**  Whatever the stream `l`, the read schedule and the indeterminate initial buffer
contents, every client that respects the put-back rule sees exactly the bytes of the stream
followed by 255 for ever; a put-back re-delivers exactly the last character; no assertion fails.
Even the reported positions depend only on the stream (table `p`), never on the schedule. -/
theorem C01_input_transparent (l : List Nat) :
    ∃ p : Nat → SPos, ∀ (sched junk : Nat → Nat) (α : Type) (c : Client α), c.Ok false →
      c.run (Buf.init junk l sched) = some (c.spec (bytesThenEof l) p 0) := by
  refine ⟨codePos l, fun sched junk α c hok => ?_⟩
  rw [bytesThenEof_eq]
  exact client_run_inv l c _ 0 false (inv_init junk l sched) false (by simp) hok

/-- Read `n` characters and return them. -/
def readN : Nat → List Nat → Client (List Nat)
  | 0, acc => .ret acc.reverse
  | n + 1, acc => .get fun c => readN n (c :: acc)

theorem readN_ok (n acc b) : (readN n acc).Ok b := by
  induction n generalizing acc b with
  | zero => trivial
  | succ n ih => intro c; exact ih _ _

/-- **C01** (corollary, no auxiliary notions): reading exactly as many characters as there are
bytes returns the bytes. -/
theorem C01_read_all (l : List Nat) (sched junk : Nat → Nat) :
    (readN l.length []).run (Buf.init junk l sched) = some l := by
  rw [client_run_inv l _ _ 0 false (inv_init junk l sched) false (by simp) (readN_ok _ _ _)]
  have key : ∀ (k n : Nat) (acc : List Nat), n + k = l.length →
      (readN k acc).spec (streamAt l) (codePos l) n = acc.reverse ++ l.drop n := by
    intro k
    induction k with
    | zero => intro n acc h; simp [readN, Client.spec, List.drop_eq_nil_of_le (show l.length ≤ n by omega)]
    | succ k ih =>
      intro n acc h
      simp only [readN, Client.spec]
      rw [ih (n + 1) _ (by omega)]
      have hn : n < l.length := by omega
      rw [List.drop_eq_getElem_cons hn]
      simp [streamAt, List.getD_eq_getElem?_getD, hn]
  rw [key _ 0 [] (by omega)]; simp

/-- Non-vacuity: a client using put-back that satisfies the rule. -/
example : (Client.get fun c => .unget (.get fun d => .ret (c, d))).Ok false := by simp [Client.Ok]

/-! ### Positions -/

/-- Number of line endings in a text: CR, LF and the pair CRLF each count once. -/
def lineEndings : List Nat → Nat
  | [] => 0
  | 13 :: 10 :: r => 1 + lineEndings r
  | c :: r => (if c = 13 ∨ c = 10 then 1 else 0) + lineEndings r

/-- Number of characters after the last CR or LF. -/
def columnOf (l : List Nat) : Nat := (l.reverse.takeWhile fun c => c ≠ 13 ∧ c ≠ 10).length

/-- Read `n` characters and report the position. -/
def readPos : Nat → Client SPos
  | 0 => .pos .ret
  | n + 1 => .get fun _ => readPos n

theorem readPos_ok (n b) : (readPos n).Ok b := by
  induction n generalizing b with
  | zero => intro _; trivial
  | succ n ih => intro c; exact ih _

theorem readPos_run (l : List Nat) (sched junk : Nat → Nat) (n : Nat) :
    (readPos n).run (Buf.init junk l sched) = some (codePos l n) := by
  rw [client_run_inv l _ _ 0 false (inv_init junk l sched) false (by simp) (readPos_ok _ _)]
  have key : ∀ k m, (readPos k).spec (streamAt l) (codePos l) m = codePos l (m + k) := by
    intro k
    induction k with
    | zero => intro m; rfl
    | succ k ih => intro m; simp only [readPos, Client.spec]; rw [ih]; congr 1; omega
  rw [key]; simp

theorem lineEndings_append (xs : List Nat) (c : Nat) :
    lineEndings (xs ++ [c]) =
      lineEndings xs + (if c = 13 ∨ (c = 10 ∧ xs.getLast? ≠ some 13) then 1 else 0) := by
  fun_induction lineEndings xs with
  | case1 => simp [lineEndings]
  | case2 r ih =>
    simp only [List.cons_append, lineEndings, ih]
    cases r with
    | nil => simp; omega
    | cons a r => simp [List.getLast?_cons_cons]; omega
  | case3 x r hne ih =>
    cases r with
    | nil =>
      simp only [List.cons_append, List.nil_append, lineEndings] at *
      by_cases hx : x = 13
      · subst hx
        by_cases hc : c = 10
        · subst hc; simp [lineEndings]
        · by_cases h13 : c = 13
          · subst h13; simp [lineEndings]
          · rw [lineEndings.eq_3]
            · simp [lineEndings, hc, h13]
            · intro r h; simp_all
      · rw [lineEndings.eq_3]
        · simp [lineEndings, hx]
        · intro r h; simp_all
    | cons y r =>
      rw [List.cons_append, lineEndings.eq_3, ih]
      · simp [List.getLast?_cons_cons]; omega
      · intro r' h1 h2
        injection h2 with h3 _
        exact hne r h1 (by rw [h3])

theorem columnOf_append (xs : List Nat) (c : Nat) :
    columnOf (xs ++ [c]) = if c = 13 ∨ c = 10 then 0 else columnOf xs + 1 := by
  simp only [columnOf, List.reverse_append, List.reverse_cons, List.reverse_nil, List.nil_append,
    List.singleton_append, List.takeWhile_cons]
  by_cases h1 : c = 13 <;> by_cases h2 : c = 10 <;> simp [h1, h2]

/-- **C02, partial.**  The reported line and column are the true ones after any number `n` of
characters, provided no LF sits right at a buffer wrap (indices 254, 509, 764, ...) where the
two preceding characters disagree about being CR.  Missing: exactly those streams, for which the
property is false (`C02_line_numbers_violated`). -/
theorem C02_positions_partial (l : List Nat) (sched junk : Nat → Nat) (n : Nat) (hn : n ≤ l.length)
    (hwrap : ∀ k, k < n → k % 255 = 254 → l[k]? = some 10 →
      (l[k - 1]? = some 13 ↔ l[k - 2]? = some 13)) :
    (readPos n).run (Buf.init junk l sched) =
      some ⟨1 + lineEndings (l.take n), columnOf (l.take n)⟩ := by
  rw [readPos_run]
  congr 1
  induction n with
  | zero => simp [codePos, lineEndings, columnOf]
  | succ n ih =>
    have hlt : n < l.length := by omega
    rw [codePos, ih (by omega) (fun k hk => hwrap k (by omega))]
    rw [List.take_succ_eq_append_getElem hlt, lineEndings_append, columnOf_append]
    have hs : streamAt l n = l[n] := by simp [streamAt, List.getD_eq_getElem?_getD, hlt]
    rw [hs]
    have hlast : (l.take n).getLast? = if n = 0 then none else l[n - 1]? := by
      rw [List.getLast?_eq_getElem?]
      simp only [List.length_take, Nat.min_eq_left (show n ≤ l.length by omega)]
      by_cases h0 : n = 0
      · subst h0; simp
      · rw [if_neg h0, List.getElem?_take]; simp [show n - 1 < n by omega]
    have hbef : ∀ m, m < l.length → (before l m = 13 ↔ 0 < m ∧ l[m-1]? = some 13) := by
      intro m hm
      simp only [before]
      by_cases h0 : m = 0
      · simp [h0]
      · simp [h0, streamAt, List.getD_eq_getElem?_getD, show m - 1 < l.length by omega]; omega
    have hlook : l[n] = 10 → (lookback l n = 13 ↔ (l.take n).getLast? = some 13) := by
      intro h10
      rw [hlast]
      simp only [lookback]
      by_cases hw : n % 255 = 254
      · rw [if_pos hw, hbef _ (by omega)]
        have h0 : n ≠ 0 := by omega
        rw [if_neg h0]
        have := hwrap n (by omega) hw (by simp [hlt, h10])
        rw [this]
        constructor
        · rintro ⟨_, h⟩; rw [show n - 2 = n - 1 - 1 by omega]; exact h
        · intro h; exact ⟨by omega, by rw [show n - 1 - 1 = n - 2 by omega]; exact h⟩
      · rw [if_neg hw, hbef _ hlt]
        by_cases h0 : n = 0
        · simp [h0]
        · simp [h0]; omega
    simp only [stepPos]
    by_cases h13 : l[n] = 13
    · simp [h13]; omega
    · by_cases h10 : l[n] = 10
      · have := hlook h10
        simp only [h10, true_and, ne_eq, or_true, if_true]
        by_cases hb : lookback l n = 13
        · simp [hb, this.1 hb]
        · have h' : (l.take n).getLast? ≠ some 13 := fun h => hb (this.2 h)
          simp [hb, h']; omega
      · simp [h13, h10]

/-- Non-vacuity of `C02_positions_partial`: any stream of at most 254 bytes qualifies. -/
example (l : List Nat) (h : l.length ≤ 254) : ∀ k, k < l.length → k % 255 = 254 → l[k]? = some 10 →
      (l[k - 1]? = some 13 ↔ l[k - 2]? = some 13) := by
  intro k hk h1; omega

/-- **C02, violated.**  There is a stream whose only line ending is one CRLF pair and for which,
whatever the read schedule, the position after the pair is reported as line 3, not 2. -/
theorem C02_line_numbers_violated :
    ∃ l : List Nat, l.length = 255 ∧ lineEndings l = 1 ∧ ∀ sched junk : Nat → Nat,
      (readPos l.length).run (Buf.init junk l sched) = some ⟨3, 0⟩ := by
  refine ⟨List.replicate 253 32 ++ [13, 10], by decide +kernel, by decide +kernel, fun sched junk => ?_⟩
  rw [readPos_run]
  decide +kernel

end Verif.Rib
