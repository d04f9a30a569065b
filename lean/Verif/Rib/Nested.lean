import Verif.Rib.Tokenizer

/-!
# Model of the tokenizer's stack of input streams

`/repo/libs/riutil/ribtokenizer.cpp:51-121` and `ribtokenizer.h:183-206`.
-/
namespace Verif.Rib

/-- ribtokenizer.cpp:54-74 `InputState`: the stream's buffer (its remaining bytes) and the saved
state of the stream below.  A source position is the number of bytes from there to the end of the
stream, or `none` for the position (1,1) a stream starts with; the comment callback is an opaque
identifier. -/
structure InFrame where
  buf : List Nat
  currPos : Option Nat
  nextPos : Option Nat
  nextTok : Tok
  haveNext : Bool
  callback : Nat
deriving DecidableEq, Repr

/-- The members of `RibTokenizer` (ribtokenizer.h:151-175); `m_inBuf` is the buffer of the top
frame, or null when the stack is empty. -/
structure Tkz where
  stack : List InFrame
  currPos : Option Nat
  nextPos : Option Nat
  nextTok : Tok
  haveNext : Bool
  callback : Nat
  tk : TkSt

/-- The calls a lexer makes. ribtokenizer.cpp:92-121, ribtokenizer.h:183-206. -/
inductive TkzOp where
  | push (bytes : List Nat) (callback : Nat)
  | pop
  | get
  | unget
  | peek
deriving DecidableEq, Repr

/-- The last position stored by `scanNext` at ribtokenizer.cpp:166, after the first character of
each round of the loop has been read; `p` is the position before.  Elements of encoded arrays
(145-160) do not store one.  The first argument bounds the rounds as in `scanNext`. -/
def startOf : Nat → TkSt → List Nat → Option Nat → Option Nat
  | 0, _, _, p => p
  | f + 1, st, l, p =>
    if 0 ≤ st.arr then p
    else
      match l with
      | [] => some 0
      | c :: r =>
        if c = 204 then
          let q := startOf f st (getc r).2 (some l.length)
          match scanNext f st (getc r).2 with
          | some (.str s, st', r') =>
            if s = [] then q else startOf f { st' with reqs := update st'.reqs (getc r).1 s } r' q
          | _ => q
        else if c = 205 ∨ c = 206 then
          let d := decodeInt (c - 205 + 1) r
          let q := startOf f st d.2 (some l.length)
          match scanNext f st d.2 with
          | some (.str s, st', r') => startOf f { st' with strs := update st'.strs d.1 (some s) } r' q
          | _ => q
        else
          match scanChar st c r with
          | (some _, _, _) => some l.length
          | (none, st', r') => startOf f st' r' (some l.length)

/-- `scanNext(m_nextTok)` (ribtokenizer.cpp:138-355). -/
def Tkz.scan (m : Tkz) : Tkz :=
  match m.stack with
  | [] => { m with nextTok := .eof }
  | f :: fs =>
    let x := Rib.scan m.tk f.buf
    { m with stack := { f with buf := x.2.2 } :: fs, nextTok := x.1, tk := x.2.1,
             nextPos := startOf (f.buf.length + 1) m.tk f.buf m.nextPos }

/-- One call; `none` is a failed `assert` (`unget` twice, `popInput` with an empty stack).
pushInput: ribtokenizer.cpp:92-103, popInput: 105-121, get/unget/peek: ribtokenizer.h:183-206. -/
def Tkz.step (m : Tkz) : TkzOp → Option Tkz
  | .push bytes cb => some
      { m with stack := ⟨bytes, m.currPos, m.nextPos, m.nextTok, m.haveNext, m.callback⟩ :: m.stack,
               currPos := none, nextPos := none, haveNext := false, callback := cb }
  | .pop =>
    match m.stack with
    | [] => none
    | f :: fs => some
      { m with stack := fs, currPos := f.currPos, nextPos := f.nextPos, nextTok := f.nextTok,
               haveNext := f.haveNext, callback := f.callback }
  | .get =>
    let m' := if m.haveNext then m else m.scan
    some { m' with haveNext := false, currPos := m'.nextPos }
  | .unget => if m.haveNext then none else some { m with haveNext := true }
  | .peek => some (if m.haveNext then m else { m.scan with haveNext := true })

/-- A sequence of calls of ribtokenizer.cpp:92-121, ribtokenizer.h:183-206. -/
def Tkz.run (m : Tkz) : List TkzOp → Option Tkz
  | [] => some m
  | o :: os => (m.step o).bind (·.run os)

end Verif.Rib
