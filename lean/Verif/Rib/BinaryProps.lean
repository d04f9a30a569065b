import Verif.Rib.BinaryLemmas

/-! Properties C03, C04, C05 (binary RIB round trip) and C09 (termination of the tokenizer). -/
namespace Verif.Rib

/-- The first `n` tokens read by repeated calls. -/
def firstTokens : Nat → TkSt → List Nat → List Tok
  | 0, _, _ => []
  | n + 1, st, l => let x := scan st l; x.1 :: firstTokens n x.2.1 x.2.2

theorem Reads.firstTokens {st l ts st' l'} (h : Reads st l ts st' l') :
    firstTokens ts.length st l = ts := by
  induction h with
  | nil => rfl
  | cons hs _ ih => simp only [List.length_cons, Rib.firstTokens, hs, ih]

/-- **C03.** Every 32-bit integer survives writing and reading; exactly the written bytes are
consumed, whatever follows. -/
theorem C03_binary_int (i : Int) (h1 : -2 ^ 31 ≤ i) (h2 : i < 2 ^ 31) (rest : List Nat) :
    scan .init (binInt i ++ rest) = (.int i, .init, rest) :=
  scan_binInt (by decide) i h1 h2 rest

example : binInt (-1) = [131, 255, 255, 255, 255] := by decide
example : binInt 256 = [129, 1, 0] := by decide

/-- **C04**, floats: the bit pattern survives. -/
theorem C04_binary_float (b : Nat) (h : b < 2 ^ 32) (rest : List Nat) :
    scan .init (binFloat b ++ rest) = (.float (.bits32 b), .init, rest) :=
  scan_binFloat (by decide) b h rest

/-- **C04**, strings: any bytes (below 2^31 of them) survive unchanged. -/
theorem C04_binary_string (s : List Nat) (h : s.length < 2 ^ 31) (rest : List Nat) :
    scan .init (binStr s ++ rest) = (.str s, .init, rest) :=
  scan_binStr (by decide) s h rest

/-- **C04**, float arrays: `[`, the elements, `]`, and nothing else is consumed. -/
theorem C04_binary_float_array (a : List Nat) (h : a.length < 2 ^ 31) (hb : ∀ b ∈ a, b < 2 ^ 32)
    (rest : List Nat) :
    firstTokens (a.length + 2) .init (binArg (.floats a) ++ rest) =
      .arrayBegin :: (a.map (fun b => .float (.bits32 b)) ++ [.arrayEnd]) := by
  have := (reads_arg (st := .init) rfl (.floats a) ⟨h, hb⟩ rest).firstTokens
  simpa [WArg.tokens] using this

/-- **C05**: if the writer finishes without its code counter wrapping, tokenising the output gives
the request names and arguments in order, then end of file.  `WOp.tokens` and `WOp.Ok` (the
meaning and the legality of what is written) are defined without reference to the byte format. -/
theorem C05_binary_stream (ops : List WOp) (hok : ∀ o ∈ ops, o.Ok) (out : List Nat) (w : BinW)
    (h : BinW.init.ops ops = some (out, w)) :
    firstTokens ((ops.flatMap WOp.tokens).length + 1) .init out = ops.flatMap WOp.tokens ++ [.eof] := by
  obtain ⟨st', hr⟩ := reads_ops ops .init .init out w agree_init hok h
  simpa using hr.firstTokens

def WOp.name? : WOp → Option (List Nat)
  | .request n _ => some n
  | .comment _ => none

theorem ops_some (names : List (List Nat)) (hlen : names.length ≤ 255) (ops : List WOp) :
    ∀ w : BinW, (w.codes.map Prod.fst).Nodup → (∀ n ∈ w.codes.map Prod.fst, n ∈ names) →
      w.next = w.codes.length → (∀ o ∈ ops, ∀ n, o.name? = some n → n ∈ names) →
      ∃ out w', w.ops ops = some (out, w') := by
  induction ops with
  | nil => intro w _ _ _ _; exact ⟨[], w, rfl⟩
  | cons o ops ih =>
    intro w hnd hsub hnext hops
    have hrest : ∀ o ∈ ops, ∀ n, o.name? = some n → n ∈ names := fun x hx => hops x (by simp [hx])
    cases o with
    | comment t =>
      obtain ⟨out, w', h⟩ := ih w hnd hsub hnext hrest
      exact ⟨_, _, by simp only [BinW.ops, BinW.op, h]; rfl⟩
    | request name args =>
      have hname : name ∈ names := hops (.request name args) (by simp) name rfl
      cases hl : w.codes.lookup name with
      | some k =>
        obtain ⟨out, w', h⟩ := ih w hnd hsub hnext hrest
        exact ⟨_, _, by simp only [BinW.ops, BinW.op, BinW.beginRequest, hl, h]; rfl⟩
      | none =>
        have hnot : name ∉ w.codes.map Prod.fst := by
          rw [List.lookup_eq_none_iff] at hl
          intro hm
          obtain ⟨p, hp, rfl⟩ := List.mem_map.1 hm
          have := hl p hp
          simp at this
        have hnd' : ((name :: w.codes.map Prod.fst)).Nodup := List.nodup_cons.2 ⟨hnot, hnd⟩
        have hsub' : ∀ n ∈ name :: w.codes.map Prod.fst, n ∈ names := by
          intro n hn
          rcases List.mem_cons.1 hn with rfl | hn
          · exact hname
          · exact hsub n hn
        have hle := hnd'.length_le_of_subset hsub'
        simp only [List.length_cons, List.length_map] at hle
        have hm : (w.next + 1) % 256 = w.next + 1 := Nat.mod_eq_of_lt (by omega)
        obtain ⟨out, w', h⟩ := ih ⟨(name, w.next) :: w.codes, w.next + 1⟩ hnd' hsub'
          (by simp [hnext]) hrest
        refine ⟨204 :: w.next :: (binStr name ++ [166, w.next]) ++ args.flatMap binArg ++ out, w', ?_⟩
        simp only [BinW.ops, BinW.op, BinW.beginRequest, hl, hm]
        rw [if_neg (by omega)]
        dsimp only
        rw [h]

/-- **C05**: with at most 255 distinct request names the code counter never wraps, so the writer
always finishes and the output decodes to what was written. -/
theorem C05_binary_stream_255 (ops : List WOp) (hok : ∀ o ∈ ops, o.Ok) (names : List (List Nat))
    (hlen : names.length ≤ 255) (hnames : ∀ o ∈ ops, ∀ n, o.name? = some n → n ∈ names) :
    ∃ out w, BinW.init.ops ops = some (out, w) ∧
      firstTokens ((ops.flatMap WOp.tokens).length + 1) .init out =
        ops.flatMap WOp.tokens ++ [.eof] := by
  obtain ⟨out, w, h⟩ := ops_some names hlen ops .init (by simp [BinW.init]) (by simp [BinW.init]) rfl hnames
  exact ⟨out, w, h, C05_binary_stream ops hok out w h⟩

/-- Non-vacuity: two requests sharing a name, all kinds of arguments, a comment. -/
example : ∀ o ∈ [WOp.request [65] [.int (-5), .float 7, .str [34, 92], .ints [1, 2], .floats [3], .strs [[0]]],
    .comment [97], .request [65] []], o.Ok := by
  simp [WOp.Ok, WArg.Ok]

/-- Non-vacuity: the second use of a name is two bytes. -/
example : BinW.init.ops [.request [65] [.int 1], .request [65] []] =
    some ([204, 0, 145, 65, 166, 0, 128, 1, 166, 0], ⟨[([65], 0)], 1⟩) := by rfl

/-! ### C09 -/

/-- State after `n` tokens. -/
def after : Nat → TkSt → List Nat → TkSt × List Nat
  | 0, st, l => (st, l)
  | n + 1, st, l => let x := scan st l; after n x.2.1 x.2.2

/-- The `n`-th token. -/
def tokenAt (n : Nat) (st : TkSt) (l : List Nat) : Tok :=
  let p := after n st l; (scan p.1 p.2).1

/-- **C09**, one token: the scan loop (with its recursion) always finishes; any bound above the
number of remaining bytes gives the same answer, and the input never grows. -/
theorem C09_scan_terminates (st : TkSt) (l : List Nat) (f : Nat) (hf : l.length < f) :
    ∃ t st' l', scanNext f st l = some (t, st', l') ∧ scanNext (l.length + 1) st l = some (t, st', l') ∧
      l'.length ≤ l.length ∧ (st.arr < 0 → l ≠ [] → l'.length < l.length) := by
  refine ⟨(scan st l).1, (scan st l).2.1, (scan st l).2.2, scanNext_eq hf, scanNext_eq (by omega), scan_length st l, ?_⟩
  exact scan_length_lt st l

theorem reaches_eof (n : Nat) : ∀ (k : Nat) (st : TkSt) (l : List Nat), l.length = n → (st.arr + 1).toNat = k →
    ∃ m, (after m st l).2 = [] ∧ (after m st l).1.arr < 0 := by
  induction n using Nat.strongRecOn with
  | _ n ihn =>
    intro k
    induction k using Nat.strongRecOn with
    | _ k ihk =>
      intro st l hl hk
      by_cases ha : st.arr < 0
      · by_cases hne : l = []
        · exact ⟨0, by simpa [after] using hne, by simpa [after] using ha⟩
        · have hlt := scan_length_lt st l ha hne
          obtain ⟨m, hm⟩ := ihn (scan st l).2.2.length (by omega) _ (scan st l).2.1 (scan st l).2.2 rfl rfl
          exact ⟨m + 1, by simpa [after] using hm⟩
      · have hle := scan_length st l
        have harr : (scan st l).2.1.arr = st.arr - 1 := by
          rw [scan_array _ _ (by omega)]
          exact ite_elim (fun x : Tok × TkSt × List Nat => x.2.1.arr = st.arr - 1) (fun _ => rfl) (fun _ => rfl)
        rcases Nat.lt_or_ge (scan st l).2.2.length n with hlt | hge
        · obtain ⟨m, hm⟩ := ihn (scan st l).2.2.length hlt _ (scan st l).2.1 (scan st l).2.2 rfl rfl
          exact ⟨m + 1, by simpa [after] using hm⟩
        · obtain ⟨m, hm⟩ := ihk ((scan st l).2.1.arr + 1).toNat (by omega) (scan st l).2.1 (scan st l).2.2 (by omega) rfl
          exact ⟨m + 1, by simpa [after] using hm⟩

theorem after_add (m n st l) : after (m + n) st l = after n (after m st l).1 (after m st l).2 := by
  induction m generalizing st l with
  | zero => simp [after]
  | succ m ih => rw [Nat.succ_add]; simp only [after]; exact ih _ _

theorem after_eof (n : Nat) (st : TkSt) (ha : st.arr < 0) : after n st [] = (st, []) := by
  induction n with
  | zero => rfl
  | succ n ih => simp only [after, scan_nil st ha, ih]

/-- **C09**, whole input: from any state and any finite input, after finitely many tokens every
further token is end-of-file. -/
theorem C09_reaches_eof (st : TkSt) (l : List Nat) : ∃ n, ∀ m, n ≤ m → tokenAt m st l = .eof := by
  obtain ⟨n, h1, h2⟩ := reaches_eof l.length _ st l rfl rfl
  refine ⟨n, fun m hm => ?_⟩
  obtain ⟨k, rfl⟩ := Nat.exists_eq_add_of_le hm
  simp only [tokenAt]
  rw [after_add, h1, after_eof k _ h2, scan_nil _ h2]

/-- Note on C09: byte 255 inside the stream yields an end-of-file token although bytes follow (the
RunProgram convention), so "stays at end of file" holds only once the bytes are exhausted. -/
example : (scan .init [255, 91]).1 = .eof ∧ tokenAt 1 .init [255, 91] = .arrayBegin := by decide

end Verif.Rib
