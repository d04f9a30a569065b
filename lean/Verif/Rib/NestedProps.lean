import Verif.Rib.Nested
import Verif.Rib.BinaryLemmas

/-! Property C11: nested input streams. -/
namespace Verif.Rib

/-- Calls made while reading a nested stream: they may open further streams but close only those. -/
inductive Nested : List TkzOp → Prop
  | nil : Nested []
  | read {o os} : (o = .get ∨ o = .unget ∨ o = .peek) → Nested os → Nested (o :: os)
  | inner {b c os os'} : Nested os → Nested os' → Nested (.push b c :: os ++ .pop :: os')

theorem run_append (m : Tkz) (a b : List TkzOp) : m.run (a ++ b) = (m.run a).bind (·.run b) := by
  induction a generalizing m with
  | nil => rfl
  | cons o os ih =>
    simp only [List.cons_append, Tkz.run]
    cases h : m.step o with
    | none => rfl
    | some m' => simp only [Option.bind_some]; exact ih m'

theorem scan_stack (m : Tkz) (f fs) (h : m.stack = f :: fs) :
    ∃ b, m.scan.stack = { f with buf := b } :: fs := by
  unfold Tkz.scan; rw [h]; exact ⟨_, rfl⟩

/-- Reading inside a nested stream touches only the top frame's buffer. -/
theorem nested_stack {ops} (h : Nested ops) : ∀ (m m' : Tkz) f fs, m.stack = f :: fs →
    m.run ops = some m' → ∃ b, m'.stack = { f with buf := b } :: fs := by
  induction h with
  | nil => intro m m' f fs hs hr; cases hr; exact ⟨f.buf, hs⟩
  | @read o os ho _ ih =>
    intro m m' f fs hs hr
    simp only [Tkz.run] at hr
    obtain ⟨b, hb⟩ := scan_stack m f fs hs
    have : ∃ m1, m.step o = some m1 ∧ ∃ b, m1.stack = { f with buf := b } :: fs := by
      rcases ho with rfl | rfl | rfl
      · simp only [Tkz.step]
        refine ⟨_, rfl, ?_⟩
        by_cases hh : m.haveNext = true
        · simp only [hh, if_true]; exact ⟨f.buf, hs⟩
        · simp only [hh]; exact ⟨b, hb⟩
      · simp only [Tkz.step] at hr ⊢
        by_cases hh : m.haveNext = true
        · simp [hh] at hr
        · exact ⟨_, if_neg hh, f.buf, hs⟩
      · simp only [Tkz.step]
        refine ⟨_, rfl, ?_⟩
        by_cases hh : m.haveNext = true
        · simp only [hh, if_true]; exact ⟨f.buf, hs⟩
        · simp only [hh]; exact ⟨b, hb⟩
    obtain ⟨m1, h1, b1, h2⟩ := this
    rw [h1] at hr
    obtain ⟨b2, h3⟩ := ih m1 m' _ fs h2 hr
    exact ⟨b2, h3⟩
  | @inner b c os os' _ _ ih1 ih2 =>
    intro m m' f fs hs hr
    simp only [List.cons_append, Tkz.run, Tkz.step, Option.bind_some] at hr
    rw [run_append] at hr
    cases hm1 : (Tkz.run _ os) with
    | none => rw [hm1] at hr; simp at hr
    | some m1 =>
      rw [hm1] at hr
      obtain ⟨b1, h1⟩ := ih1 _ m1 _ m.stack rfl hm1
      simp only [Option.bind_some, Tkz.run, Tkz.step, h1] at hr
      exact ih2 { m with tk := m1.tk } m' f fs hs hr

/-- **C11** (what is restored): after a nested stream has been opened, read in any way (with
further nesting) and closed, every member of the tokenizer is exactly as before, except possibly
the binary decoding tables and the encoded-array counter.  Missing from the full property: those
are shared between streams (see `C11_binary_tables_violated`). -/
theorem C11_nested_restores_partial (m m' : Tkz) (bytes : List Nat) (cb : Nat) (ops : List TkzOp) (h : Nested ops)
    (hr : m.run (.push bytes cb :: ops ++ [.pop]) = some m') : m' = { m with tk := m'.tk } := by
  simp only [List.cons_append, Tkz.run, Tkz.step, Option.bind_some] at hr
  rw [run_append] at hr
  cases hm1 : (Tkz.run _ ops) with
  | none => rw [hm1] at hr; simp at hr
  | some m1 =>
    rw [hm1] at hr
    obtain ⟨b1, h1⟩ := nested_stack h _ m1 _ m.stack rfl hm1
    simp only [Option.bind_some, Tkz.run, Tkz.step, h1] at hr
    cases hr
    rfl

/-! ASCII streams leave the decoding state alone. -/

def Ascii (l : List Nat) : Prop := ∀ c ∈ l, c < 128

theorem Ascii.tail {c l} (h : Ascii (c :: l)) : Ascii l := fun x hx => h x (List.mem_cons_of_mem _ hx)
theorem Ascii.suffix {a b} (h : Ascii b) (hs : a <:+ b) : Ascii a := fun x hx => h x (hs.subset hx)

theorem readString_suffix (acc l) : (readString acc l).2 <:+ l := by
  induction hn : l.length using Nat.strongRecOn generalizing acc l with
  | _ n ih =>
    rw [readString.eq_def]
    cases l with
    | nil => simp
    | cons c r =>
      simp only [List.length_cons] at hn
      dsimp only
      split
      · exact List.suffix_cons _ _
      split
      · cases r with
        | nil => simp
        | cons d r' =>
          simp only [List.length_cons] at hn
          exact (ih r'.length (by omega) _ r' rfl).trans ((List.suffix_cons d r').trans (List.suffix_cons c _))
      split
      · cases r with
        | nil => exact (ih 0 (by simp at hn; omega) _ [] rfl).trans (List.nil_suffix)
        | cons d r' =>
          simp only [List.length_cons] at hn
          dsimp only
          split
          · exact (ih r'.length (by omega) _ r' rfl).trans ((List.suffix_cons d r').trans (List.suffix_cons c _))
          · exact (ih (r'.length + 1) (by omega) _ (d :: r') rfl).trans (List.suffix_cons c _)
      split
      · exact List.suffix_cons _ _
      · exact (ih r.length (by omega) _ r rfl).trans (List.suffix_cons c _)

theorem readSign_suffix (l) : (readSign l).2 <:+ l := by
  unfold readSign; split
  · exact List.suffix_cons _ _
  · exact List.suffix_cons _ _
  · exact List.suffix_refl _

theorem dw_suffix {a b : List Nat} (p : Nat → Bool) (h : a <:+ b) : a.dropWhile p <:+ b :=
  (List.dropWhile_suffix p).trans h

theorem readExp_suffix (neg ds fs l) : (readExp neg ds fs l).2 <:+ l := by
  unfold readExp
  have h := dw_suffix isDigit (readSign_suffix l)
  dsimp only
  split
  · exact (List.tail_suffix _).trans h
  split
  · exact h
  · exact h

theorem readNumber_suffix (l) : (readNumber l).2 <:+ l := by
  unfold readNumber
  have h := dw_suffix isDigit (readSign_suffix l)
  dsimp only
  split
  · exact h
  · split
    · rename_i r1 heq
      rw [heq] at h
      have h1 : r1 <:+ l := (List.suffix_cons _ _).trans h
      split
      · exact (List.tail_suffix _).trans h1
      · split
        · rename_i c r3 heq2
          have h2 : c :: r3 <:+ l := heq2 ▸ dw_suffix isDigit h1
          split
          · exact (readExp_suffix ..).trans ((List.suffix_cons _ _).trans h2)
          · dsimp only; rw [heq2]; exact h2
        · exact List.nil_suffix
    · rename_i c r1 _ heq
      rw [heq] at h
      have h1 : r1 <:+ l := (List.suffix_cons _ _).trans h
      split
      · exact (readExp_suffix ..).trans h1
      split
      · exact h1
      · dsimp only; rw [heq]; exact h
    · split <;> exact List.nil_suffix

theorem scanChar_ascii (st c r) (hc : c < 128) :
    (scanChar st c r).2.1 = st ∧ (scanChar st c r).2.2 <:+ c :: r := by
  unfold scanChar
  split
  · exact ⟨rfl, List.suffix_cons _ _⟩
  split
  · exact ⟨rfl, dw_suffix _ (List.suffix_cons _ _)⟩
  split
  · exact ⟨rfl, readNumber_suffix _⟩
  split
  · exact ⟨rfl, (readString_suffix _ _).trans (List.suffix_cons _ _)⟩
  split
  · exact ⟨rfl, List.suffix_cons _ _⟩
  split
  · exact ⟨rfl, List.suffix_cons _ _⟩
  try rw [if_pos hc]
  exact ⟨rfl, dw_suffix _ (List.suffix_refl _)⟩

theorem scanNext_ascii (f st l x) (ha : st.arr < 0) (hl : Ascii l) (h : scanNext f st l = some x) :
    x.2.1 = st ∧ x.2.2 <:+ l := by
  induction f generalizing l x with
  | zero => simp [scanNext] at h
  | succ f ih =>
    rw [scanNext] at h
    unfold scanBody at h
    rw [if_neg (by omega)] at h
    cases l with
    | nil => simp only [Option.some.injEq] at h; subst h; exact ⟨rfl, List.suffix_refl _⟩
    | cons c r =>
      have hc := hl c (List.mem_cons_self ..)
      dsimp only at h
      rw [if_neg (by omega), if_neg (by omega)] at h
      obtain ⟨h1, h2⟩ := scanChar_ascii st c r hc
      rcases hsc : scanChar st c r with ⟨t, st', r'⟩
      rw [hsc] at h h1 h2
      dsimp only at h1 h2
      subst h1
      cases t with
      | some t => simp only [Option.some.injEq] at h; subst h; exact ⟨rfl, h2⟩
      | none =>
        dsimp only at h
        obtain ⟨h3, h4⟩ := ih r' x (hl.suffix h2) h
        exact ⟨h3, h4.trans h2⟩

theorem scan_ascii (st l) (ha : st.arr < 0) (hl : Ascii l) : (scan st l).2.1 = st ∧ (scan st l).2.2 <:+ l :=
  scanNext_ascii (l.length + 1) st l _ ha hl (scanNext_eq (by omega))

/-- All streams opened by these calls are ASCII RIB. -/
def AsciiPushes (ops : List TkzOp) : Prop := ∀ b c, .push b c ∈ ops → Ascii b

theorem nested_ascii {ops} (h : Nested ops) : AsciiPushes ops → ∀ (m m' : Tkz) f fs, m.stack = f :: fs →
    Ascii f.buf → m.tk.arr < 0 → m.run ops = some m' →
    m'.tk = m.tk ∧ ∃ b, Ascii b ∧ m'.stack = { f with buf := b } :: fs := by
  induction h with
  | nil => intro _ m m' f fs hs hf _ hr; cases hr; exact ⟨rfl, f.buf, hf, hs⟩
  | @read o os ho _ ih =>
    intro hp m m' f fs hs hf ha hr
    have hp' : AsciiPushes os := fun b c hb => hp b c (List.mem_cons_of_mem _ hb)
    simp only [Tkz.run] at hr
    have hscan : m.scan.tk = m.tk ∧ ∃ b, Ascii b ∧ m.scan.stack = { f with buf := b } :: fs := by
      obtain ⟨h1, h2⟩ := scan_ascii m.tk f.buf ha hf
      unfold Tkz.scan; rw [hs]
      exact ⟨h1, _, hf.suffix h2, rfl⟩
    have : ∃ m1, m.step o = some m1 ∧ m1.tk = m.tk ∧ ∃ b, Ascii b ∧ m1.stack = { f with buf := b } :: fs := by
      rcases ho with rfl | rfl | rfl
      · simp only [Tkz.step]
        refine ⟨_, rfl, ?_⟩
        by_cases hh : m.haveNext = true
        · simp only [hh, if_true]; exact ⟨trivial, f.buf, hf, hs⟩
        · simp only [hh]; exact hscan
      · simp only [Tkz.step] at hr ⊢
        by_cases hh : m.haveNext = true
        · simp [hh] at hr
        · exact ⟨_, if_neg hh, rfl, f.buf, hf, hs⟩
      · simp only [Tkz.step]
        refine ⟨_, rfl, ?_⟩
        by_cases hh : m.haveNext = true
        · simp only [hh, if_true]; exact ⟨trivial, f.buf, hf, hs⟩
        · simp only [hh]; exact hscan
    obtain ⟨m1, h1, h2, b1, h3, h4⟩ := this
    rw [h1] at hr
    obtain ⟨h5, b2, h6, h7⟩ := ih hp' m1 m' _ fs h4 h3 (by rw [h2]; exact ha) hr
    exact ⟨h5.trans h2, b2, h6, h7⟩
  | @inner b c os os' _ _ ih1 ih2 =>
    intro hp m m' f fs hs hf ha hr
    have hp1 : AsciiPushes os := fun b' c' hb => hp b' c' (by simp [hb])
    have hp2 : AsciiPushes os' := fun b' c' hb => hp b' c' (by simp [hb])
    have hb : Ascii b := hp b c (by simp)
    simp only [List.cons_append, Tkz.run, Tkz.step, Option.bind_some] at hr
    rw [run_append] at hr
    cases hm1 : (Tkz.run _ os) with
    | none => rw [hm1] at hr; simp at hr
    | some m1 =>
      rw [hm1] at hr
      obtain ⟨h0, b1, _, h1⟩ := ih1 hp1 _ m1 _ m.stack rfl (by exact hb) (by exact ha) hm1
      simp only [Option.bind_some, Tkz.run, Tkz.step, h1] at hr
      obtain ⟨h2, b2, h3, h4⟩ := ih2 hp2 { m with tk := m1.tk } m' f fs hs hf (by rw [h0]; exact ha) hr
      exact ⟨h2.trans h0, b2, h3, h4⟩

/-- **C11** for ASCII RIB: if the nested streams (at any depth) are ASCII and the outer stream is
not inside an encoded float array, then opening, reading in any way, and closing them restores the
tokenizer completely, so every later call behaves as if the nested stream had not been there. -/
theorem C11_ascii_nested_transparent (m : Tkz) (bytes : List Nat) (cb : Nat) (ops : List TkzOp) (h : Nested ops)
    (hb : Ascii bytes) (ho : AsciiPushes ops) (ha : m.tk.arr < 0) (rest : List TkzOp) (m' : Tkz)
    (hr : m.run (.push bytes cb :: ops ++ [.pop]) = some m') :
    m' = m ∧ m.run ((.push bytes cb :: ops ++ [.pop]) ++ rest) = m.run rest := by
  have hm' := C11_nested_restores_partial m m' bytes cb ops h hr
  have htk : m'.tk = m.tk := by
    simp only [List.cons_append, Tkz.run, Tkz.step, Option.bind_some] at hr
    rw [run_append] at hr
    cases hm1 : (Tkz.run _ ops) with
    | none => rw [hm1] at hr; simp at hr
    | some m1 =>
      rw [hm1] at hr
      obtain ⟨h0, b1, _, h1⟩ := nested_ascii h ho _ m1 _ m.stack rfl (by exact hb) (by exact ha) hm1
      simp only [Option.bind_some, Tkz.run, Tkz.step, h1] at hr
      cases hr
      exact h0
  have heq : m' = m := by rw [hm', htk]
  exact ⟨heq, by rw [run_append, hr, heq]; rfl⟩

/-- A tokenizer just created, ribtokenizer.cpp:79-90. -/
def Tkz.init : Tkz := ⟨[], none, none, .err .reserved, false, 0, .init⟩

/-- Nesting in the middle of a stream, with a pushed-back token. -/
example : ((Tkz.init.run [.push [65, 32, 66, 32, 67] 1, .get, .peek, .push [88, 32, 91] 2, .get, .get, .get, .pop, .get]).map
    (fun m => (m.nextTok, m.haveNext, m.callback, m.stack.map (·.buf)))) = some (.req [66], false, 1, [[32, 67]]) := by decide

/-! ### Lookahead within one stream -/

/-- What the caller sees of one call: the token returned by `get` and `peek`, and the position
reported afterwards. -/
def Tkz.seen (m : Tkz) : TkzOp → Option Tok × Option Nat
  | .get | .peek => (some m.nextTok, m.currPos)
  | _ => (none, m.currPos)

/-- The calls one after the other, with what is seen of each. -/
def Tkz.observe (m : Tkz) : List TkzOp → Option (List (Option Tok × Option Nat))
  | [] => some []
  | o :: os => (m.step o).bind fun m' => (m'.observe os).map (m'.seen o :: ·)

/-- Reads within one stream; a token is put back only straight after it was taken. -/
def OneBack : Bool → List TkzOp → Prop
  | _, [] => True
  | _, .get :: os => OneBack true os
  | _, .peek :: os => OneBack false os
  | b, .unget :: os => b = true ∧ OneBack false os
  | _, _ => False

/-- Decoder state, remaining bytes and position of the latest token after `n` tokens. -/
def afterToks (st : TkSt) (l : List Nat) (p : Option Nat) : Nat → TkSt × List Nat × Option Nat
  | 0 => (st, l, p)
  | n + 1 =>
    let s := afterToks st l p n
    ((scan s.1 s.2.1).2.1, (scan s.1 s.2.1).2.2, startOf (s.2.1.length + 1) s.1 s.2.1 s.2.2)

/-- The `n`-th token of the stream with its position. -/
def streamTok (st : TkSt) (l : List Nat) (p : Option Nat) (n : Nat) : Tok × Option Nat :=
  ((scan (afterToks st l p n).1 (afterToks st l p n).2.1).1, (afterToks st l p (n + 1)).2.2)

/-- A cursor moving over a sequence of tokens: what the calls ought to show. -/
def cursor (T : Nat → Tok × Option Nat) : List TkzOp → Nat → Option Nat → List (Option Tok × Option Nat)
  | [], _, _ => []
  | .get :: os, i, _ => (some (T i).1, (T i).2) :: cursor T os (i + 1) (T i).2
  | .peek :: os, i, p => (some (T i).1, p) :: cursor T os i p
  | .unget :: os, i, p => (none, p) :: cursor T os (i - 1) p
  | _ :: os, i, p => (none, p) :: cursor T os i p

theorem observe_cursor (st : TkSt) (l : List Nat) (p0 : Option Nat) (ops : List TkzOp) :
    ∀ (b : Bool) (i : Nat) (m : Tkz) (f : InFrame) (fs : List InFrame), OneBack b ops → m.stack = f :: fs →
      ((m.haveNext = false ∧ (m.tk, f.buf, m.nextPos) = afterToks st l p0 i ∧
          (b = true → ∃ k, i = k + 1 ∧ m.nextTok = (streamTok st l p0 k).1)) ∨
        (m.haveNext = true ∧ b = false ∧ (m.tk, f.buf, m.nextPos) = afterToks st l p0 (i + 1) ∧
          m.nextTok = (streamTok st l p0 i).1)) →
      m.observe ops = some (cursor (streamTok st l p0) ops i m.currPos) := by
  induction ops with
  | nil => intro b i m f fs _ _ _; rfl
  | cons o os ih =>
    intro b i m f fs hok hst hinv
    have hscan : m.haveNext = false → (m.tk, f.buf, m.nextPos) = afterToks st l p0 i →
        m.scan.stack = { f with buf := (afterToks st l p0 (i + 1)).2.1 } :: fs ∧
        m.scan.tk = (afterToks st l p0 (i + 1)).1 ∧ m.scan.nextPos = (afterToks st l p0 (i + 1)).2.2 ∧
        m.scan.nextTok = (streamTok st l p0 i).1 ∧ m.scan.currPos = m.currPos := by
      intro _ he
      have e1 : m.tk = (afterToks st l p0 i).1 := by rw [← he]
      have e2 : f.buf = (afterToks st l p0 i).2.1 := by rw [← he]
      have e3 : m.nextPos = (afterToks st l p0 i).2.2 := by rw [← he]
      rw [Tkz.scan, hst]
      simp [afterToks, streamTok, e1, e2, e3]
    cases o with
    | push _ _ => exact hok.elim
    | pop => exact hok.elim
    | get =>
      rcases hinv with ⟨hn, he, _⟩ | ⟨hn, hb, he, ht⟩
      · obtain ⟨h1, h2, h3, h4, h5⟩ := hscan hn he
        simp only [Tkz.observe, Tkz.step, hn, Bool.false_eq_true, if_false, Option.bind_some]
        rw [ih true (i + 1) { m.scan with haveNext := false, currPos := m.scan.nextPos } _ fs hok h1 (Or.inl ⟨rfl, by simp [h2, h3], fun _ => ⟨i, rfl, h4⟩⟩)]
        simp [cursor, Tkz.seen, h4, h3, streamTok]
      · simp only [Tkz.observe, Tkz.step, hn, if_true, Option.bind_some]
        have e3 : m.nextPos = (afterToks st l p0 (i + 1)).2.2 := by rw [← he]
        rw [ih true (i + 1) { m with haveNext := false, currPos := m.nextPos } f fs hok hst (Or.inl ⟨rfl, by simpa using he, fun _ => ⟨i, rfl, ht⟩⟩)]
        simp [cursor, Tkz.seen, ht, e3, streamTok]
    | peek =>
      rcases hinv with ⟨hn, he, _⟩ | ⟨hn, hb, he, ht⟩
      · obtain ⟨h1, h2, h3, h4, h5⟩ := hscan hn he
        simp only [Tkz.observe, Tkz.step, hn, Bool.false_eq_true, if_false, Option.bind_some]
        rw [ih false i { m.scan with haveNext := true } _ fs hok h1 (Or.inr ⟨rfl, rfl, by simp [h2, h3], h4⟩)]
        simp [cursor, Tkz.seen, h4, h5]
      · simp only [Tkz.observe, Tkz.step, hn, if_true, Option.bind_some]
        rw [ih false i _ f fs hok hst (Or.inr ⟨hn, rfl, he, ht⟩)]
        simp [cursor, Tkz.seen, ht]
    | unget =>
      rcases hinv with ⟨hn, he, hk⟩ | ⟨hn, hb, he, ht⟩
      · obtain ⟨k, rfl, ht⟩ := hk hok.1
        simp only [Tkz.observe, Tkz.step, hn, Bool.false_eq_true, if_false, Option.bind_some]
        rw [ih false k { m with haveNext := true } f fs hok.2 hst (Or.inr ⟨rfl, rfl, by simpa using he, ht⟩)]
        simp [cursor, Tkz.seen]
      · exact absurd hok.1 (by simp [hb])

/-- **C11**, lookahead: in a newly opened stream, `get`, `peek` and putting back one token act as a
cursor on the sequence of tokens: every call returns the token under the cursor, and the position
reported is that of the token last taken — (1,1) before any. -/
theorem C11_lookahead (m : Tkz) (bytes : List Nat) (cb : Nat) (ops : List TkzOp) (h : OneBack false ops) :
    m.observe (.push bytes cb :: ops) =
      some ((none, none) :: cursor (streamTok m.tk bytes none) ops 0 none) := by
  simp only [Tkz.observe, Tkz.step, Option.bind_some]
  rw [observe_cursor m.tk bytes none ops false 0 _ _ m.stack h rfl (Or.inl ⟨rfl, rfl, by simp⟩)]
  rfl

example : OneBack false [.peek, .get, .unget, .peek, .get, .get] := by simp [OneBack]

/-- `A B` read with looking ahead and putting back. -/
example : Tkz.init.observe [.push [65, 32, 66] 0, .peek, .get, .unget, .peek, .get, .get, .get] =
    some [(none, none), (some (.req [65]), none), (some (.req [65]), some 3), (none, some 3),
      (some (.req [65]), some 3), (some (.req [65]), some 3), (some (.req [66]), some 1),
      (some .eof, some 0)] := by decide +kernel

/-- **C11**, positions: in an ASCII stream the position of a token is that of its first byte, after
blanks. -/
theorem C11_token_position (st : TkSt) (ha : st.arr < 0) (ws : List Nat)
    (hws : ∀ c ∈ ws, c = 32 ∨ c = 9 ∨ c = 10 ∨ c = 13) (c : Nat) (r : List Nat)
    (hc : c < 128 ∧ c ≠ 32 ∧ c ≠ 9 ∧ c ≠ 10 ∧ c ≠ 13 ∧ c ≠ 35) (p : Option Nat) :
    (streamTok st (ws ++ c :: r) p 0).2 = some (r.length + 1) := by
  have key : ∀ (ws : List Nat), (∀ c ∈ ws, c = 32 ∨ c = 9 ∨ c = 10 ∨ c = 13) → ∀ f p, ws.length < f →
      startOf f st (ws ++ c :: r) p = some (r.length + 1) := by
    intro ws
    induction ws with
    | nil =>
      intro _ f p hf
      obtain ⟨f, rfl⟩ : ∃ g, f = g + 1 := ⟨f - 1, by omega⟩
      have hsp : isSpace c = false := by simp [isSpace]; omega
      rw [List.nil_append, startOf, if_neg (by omega)]
      simp only []
      rw [if_neg (by omega), if_neg (by omega)]
      have : ∃ t x y, scanChar st c r = (some t, x, y) := by
        unfold scanChar
        rw [hsp, if_neg (by simp), if_neg (by omega)]
        by_cases h1 : isNumStart c = true
        · rw [if_pos h1]; exact ⟨_, _, _, rfl⟩
        rw [if_neg h1]
        by_cases h2 : c = 34
        · rw [if_pos h2]; exact ⟨_, _, _, rfl⟩
        rw [if_neg h2]
        by_cases h3 : c = 91
        · rw [if_pos h3]; exact ⟨_, _, _, rfl⟩
        rw [if_neg h3]
        by_cases h4 : c = 93
        · rw [if_pos h4]; exact ⟨_, _, _, rfl⟩
        rw [if_neg h4, if_pos hc.1]
        exact ⟨_, _, _, rfl⟩
      obtain ⟨t, x, y, e⟩ := this
      rw [e]
      simp
    | cons d ws ih =>
      intro hws f p hf
      obtain ⟨f, rfl⟩ : ∃ g, f = g + 1 := ⟨f - 1, by omega⟩
      have hd := hws d (by simp)
      have hsp : isSpace d = true := by simp [isSpace]; omega
      rw [List.cons_append, startOf, if_neg (by omega)]
      simp only []
      rw [if_neg (by omega), if_neg (by omega)]
      have : scanChar st d (ws ++ c :: r) = (none, st, ws ++ c :: r) := by
        unfold scanChar; rw [hsp, if_pos rfl]
      rw [this]
      exact ih (fun c h => hws c (List.mem_cons_of_mem _ h)) f _ (by simp at hf; omega)
  show startOf ((ws ++ c :: r).length + 1) st (ws ++ c :: r) p = _
  exact key ws hws _ _ (by simp; omega)

example : (streamTok .init [32, 10, 65, 66] none 0).2 = some 2 :=
  C11_token_position .init (by decide) [32, 10] (by simp) 65 [66] (by omega) none

/-- What a tokenizer reads after the given calls. -/
def Tkz.nextToken (ops : List TkzOp) : Option Tok := (Tkz.init.run (ops ++ [.get])).map (·.nextTok)

/-- **C11 is violated** for binary RIB: request codes are shared between streams.  The outer stream
is what the binary writer emits for the requests `A A`, the nested stream what it emits for `B`;
both are legal binary RIB.  Without the nesting the second token is `A`, with it, `B`. -/
theorem C11_binary_tables_violated : ∃ outer inner : List Nat,
    (∃ w, BinW.init.ops [.request [65] [], .request [65] []] = some (outer, w)) ∧
    (∃ w, BinW.init.ops [.request [66] []] = some (inner, w)) ∧
    Tkz.nextToken [.push outer 0, .get] = some (.req [65]) ∧
    Tkz.nextToken [.push outer 0, .get, .push inner 0, .get, .get, .pop] = some (.req [66]) := by
  refine ⟨_, _, ⟨_, rfl⟩, ⟨_, rfl⟩, ?_, ?_⟩ <;> decide +kernel

/-- **C11 is violated** when the outer lookahead is the start of an encoded float array: the nested
stream's bytes are then decoded as array elements. -/
theorem C11_array_counter_violated : ∃ outer inner : List Nat, Ascii inner ∧
    Tkz.nextToken [.push inner 0] = some (.req [65, 65, 65, 65]) ∧
    Tkz.nextToken [.push outer 0, .peek, .push inner 0] = some (.float (.bits32 0x41414141)) := by
  refine ⟨[200, 1, 0, 0, 0, 0], [65, 65, 65, 65], by intro c hc; simp at hc; omega, ?_, ?_⟩ <;> decide +kernel

end Verif.Rib
