import Verif.Rib.Tokenizer

/-!
# Model of the RIB lexer and parser loop

`/repo/libs/riutil/riblexer.cpp`, `ribtokenizer.h:183-206`, `ribparser.cpp:210-260`.

The tokens of one input stream are a list; past its end every further token is end-of-file
(`C09_reaches_eof`).  The parser stops at the first end-of-file token of a stream, so a list
without end-of-file tokens followed by end-of-file for ever is the general case for one stream.
Pools of argument buffers (`m_stringPool` and so on) are replaced by values.
-/
namespace Verif.Rib

/-- The tokenizer as the lexer sees it: the tokens still to be scanned, `m_nextTok` and
`m_haveNext` (ribtokenizer.h:162-164). -/
structure LexSt where
  rest : List Tok
  nextTok : Tok
  haveNext : Bool
deriving DecidableEq, Repr

/-- State just after `pushInput` (ribtokenizer.cpp:92-103). -/
def LexSt.start (l : List Tok) (t : Tok) : LexSt := ⟨l, t, false⟩

/-- `scanNext(m_nextTok)`. ribtokenizer.cpp:138-355. -/
def LexSt.scanNext (s : LexSt) : LexSt :=
  match s.rest with
  | [] => { s with nextTok := .eof }
  | t :: r => { s with rest := r, nextTok := t }

/-- ribtokenizer.h:183-190 `get`. -/
def LexSt.get (s : LexSt) : Tok × LexSt :=
  let s' := if s.haveNext then s else s.scanNext
  (s'.nextTok, { s' with haveNext := false })

/-- ribtokenizer.h:198-206 `peek`. -/
def LexSt.peek (s : LexSt) : Tok × LexSt :=
  let s' := if s.haveNext then s else { s.scanNext with haveNext := true }
  (s'.nextTok, s')

/-- Outcome of a lexer call: a value, an exception, the `assert` of `unget` failing, undefined
behaviour (a number overflowed in the tokenizer), or the model's loop bound exceeded.
Outcomes of riblexer.cpp:71-386. -/
inductive Res (α : Type) where
  | ok (a : α)
  | throw
  | assertFail
  | ub
  | fuel
deriving DecidableEq, Repr

/-- Programs reading arguments, riblexer.cpp:71-386. -/
abbrev Lex (α : Type) := LexSt → Res α × LexSt

/-- A program that reads nothing. -/
def Lex.pure {α} (a : α) : Lex α := fun s => (.ok a, s)

/-- Sequencing; an exception ends the program, riblexer.cpp:344-386. -/
def Lex.bind {α β} (m : Lex α) (k : α → Lex β) : Lex β := fun s =>
  match m s with
  | (.ok a, s') => k a s'
  | (.throw, s') => (.throw, s')
  | (.assertFail, s') => (.assertFail, s')
  | (.ub, s') => (.ub, s')
  | (.fuel, s') => (.fuel, s')

/-- `tokenError`, riblexer.cpp:344-386. -/
def Lex.fail {α} : Lex α := fun s => (.throw, s)

/-- ribtokenizer.h:192-196 `unget`. -/
def unget : Lex Unit := fun s =>
  if s.haveNext then (.assertFail, s) else (.ok (), { s with haveNext := true })

/-- ribtokenizer.h:183-190. -/
def getTok : Lex Tok := fun s => let p := s.get; (.ok p.1, p.2)
/-- ribtokenizer.h:198-206. -/
def peekTok : Lex Tok := fun s => let p := s.peek; (.ok p.1, p.2)

/-- riblexer.cpp:344-386 `tokenError` (the message is not modelled). -/
def tokenError {α} (bad : Tok) : Lex α :=
  match bad with
  | .eof => unget.bind fun _ => Lex.fail
  | .req _ => unget.bind fun _ => Lex.fail
  | .ub => fun s => (.ub, s)
  | _ => Lex.fail

/-- A number as the lexer delivers it for float arguments: an integer token is converted, a float
token taken as it is. riblexer.cpp:129-142. -/
inductive Num where
  | ofInt (i : Int)
  | ofFloat (f : FVal)
deriving DecidableEq, Repr

/-- riblexer.cpp:121-127 -/
def getInt : Lex Int := getTok.bind fun
  | .int i => Lex.pure i
  | t => tokenError t

/-- riblexer.cpp:129-142 -/
def getFloat : Lex Num := getTok.bind fun
  | .int i => Lex.pure (.ofInt i)
  | .float f => Lex.pure (.ofFloat f)
  | t => tokenError t

/-- riblexer.cpp:144-152 -/
def getString : Lex (List Nat) := getTok.bind fun
  | .str s => Lex.pure s
  | t => tokenError t

/-- The element loops of riblexer.cpp:173-189, 201-220, 250-266: `elem` says which tokens are
elements; the buffer `acc` is kept in reverse. -/
def arrayLoop {α} (elem : Tok → Option α) : Nat → List α → Lex (List α)
  | 0, _ => fun s => (.fuel, s)
  | f + 1, acc => getTok.bind fun t =>
    match elem t with
    | some a => arrayLoop elem f (a :: acc)
    | none => if t = .arrayEnd then Lex.pure acc.reverse else tokenError t

/-- riblexer.cpp:179-187. -/
def intElem : Tok → Option Int
  | .int i => some i
  | _ => none

/-- riblexer.cpp:207-218. -/
def numElem : Tok → Option Num
  | .int i => some (.ofInt i)
  | .float f => some (.ofFloat f)
  | _ => none

/-- riblexer.cpp:256-264. -/
def strElem : Tok → Option (List Nat)
  | .str s => some s
  | _ => none

/-- A bound for the element loops that is always large enough: one round per remaining token, plus
a pushed back token, plus end-of-file. For the loops of riblexer.cpp:173-266. -/
def withBound {α} (m : Nat → Lex α) : Lex α := fun s => m (s.rest.length + 2) s

/-- riblexer.cpp:166-191 -/
def getIntArray : Lex (List Int) := getTok.bind fun t =>
  if t = .arrayBegin then withBound (arrayLoop intElem · []) else tokenError t

/-- riblexer.cpp:243-268 -/
def getStringArray : Lex (List (List Nat)) := getTok.bind fun t =>
  if t = .arrayBegin then withBound (arrayLoop strElem · []) else tokenError t

/-- The loop of riblexer.cpp:233-234. -/
def getFloats : Nat → List Num → Lex (List Num)
  | 0, acc => Lex.pure acc.reverse
  | n + 1, acc => getFloat.bind fun x => getFloats n (x :: acc)

/-- riblexer.cpp:193-241; a negative `length` means any length.  The comparison at 222 is
`static_cast<int>(buf.size()) != length`; arrays of 2^31 elements or more are out of scope. -/
def getFloatArray (length : Int) : Lex (List Num) := peekTok.bind fun t =>
  if t = .arrayBegin then
    getTok.bind fun _ => (withBound (arrayLoop numElem · [])).bind fun buf =>
      if 0 ≤ length ∧ (buf.length : Int) ≠ length then Lex.fail else Lex.pure buf
  else if 0 ≤ length then getFloats length.toNat []
  else getTok.bind fun t => tokenError t

/-- riblexer.h `TokenType`. -/
inductive PeekType where
  | array | string | int | float | requestEnd
deriving DecidableEq, Repr

/-- riblexer.cpp:270-285; looking ahead at an overflowing number is undefined behaviour. -/
def peekNextType : Lex PeekType := peekTok.bind fun
  | .arrayBegin => Lex.pure .array
  | .str _ => Lex.pure .string
  | .int _ => Lex.pure .int
  | .float _ => Lex.pure .float
  | .ub => fun s => (.ub, s)
  | _ => Lex.pure .requestEnd

/-- riblexer.cpp:287-296 -/
def getIntParam : Lex (List Int) := peekTok.bind fun
  | .int _ => getTok.bind fun
    | .int i => Lex.pure [i]
    | _ => fun s => (.assertFail, s)
  | _ => getIntArray

/-- riblexer.cpp:298-317 -/
def getFloatParam : Lex (List Num) := peekTok.bind fun
  | .int _ => getTok.bind fun
    | .int i => Lex.pure [.ofInt i]
    | _ => fun s => (.assertFail, s)
  | .float _ => getTok.bind fun
    | .float f => Lex.pure [.ofFloat f]
    | _ => fun s => (.assertFail, s)
  | _ => getFloatArray (-1)

/-- riblexer.cpp:319-329 -/
def getStringParam : Lex (List (List Nat)) := peekTok.bind fun
  | .str _ => getTok.bind fun
    | .str s => Lex.pure [s]
    | _ => fun s => (.assertFail, s)
  | _ => getStringArray

/-! ### Parameter lists -/

/-- `storageType()` as used at ribparser.cpp:327-346. -/
inductive Storage where
  | int | float | string
deriving DecidableEq, Repr

/-- Values of ribparser.cpp:327-346. -/
inductive ParamVal where
  | ints (a : List Int)
  | floats (a : List Num)
  | strings (a : List (List Nat))
deriving DecidableEq, Repr

/-- ribparser.cpp:327-346. -/
def getParam : Storage → Lex ParamVal
  | .int => getIntParam.bind fun a => Lex.pure (.ints a)
  | .float => getFloatParam.bind fun a => Lex.pure (.floats a)
  | .string => getStringParam.bind fun a => Lex.pure (.strings a)

/-- ribparser.cpp:309-352 `readParamList`.  `decl` stands for `getDeclaration` (it may throw) and
for the rejection of pointer storage (338-342); the pair is the name as written and its value. -/
def paramLoop (decl : List Nat → Option Storage) : Nat → List (List Nat × ParamVal) →
    Lex (List (List Nat × ParamVal))
  | 0, _ => fun s => (.fuel, s)
  | f + 1, acc => peekNextType.bind fun t =>
    if t = .requestEnd then Lex.pure acc.reverse
    else getString.bind fun n =>
      match decl n with
      | none => Lex.fail
      | some st => (getParam st).bind fun v => paramLoop decl f ((n, v) :: acc)

/-- ribparser.cpp:309-352. -/
def readParamList (decl : List Nat → Option Storage) : Lex (List (List Nat × ParamVal)) :=
  withBound (paramLoop decl · [])

/-! ### Request handlers and the parse loop -/

/-- A request handler (ribparser.cpp:398-1386): an arbitrary program that reads arguments with the
lexer functions, may look ahead, may throw, and ends by calling the renderer.  `deliver call throws
next`: the call made, whether the renderer throws an `XqException` from it, and the parser state
afterwards when it does not (`m_numColorComps`, ribparser.cpp:430-431). -/
inductive Handler (σ γ : Type) where
  | deliver (call : γ) (throws : Bool) (next : σ)
  | fail
  | getInt (k : Int → Handler σ γ)
  | getFloat (k : Num → Handler σ γ)
  | getString (k : List Nat → Handler σ γ)
  | getIntArray (k : List Int → Handler σ γ)
  | getFloatArray (length : Int) (k : List Num → Handler σ γ)
  | getStringArray (k : List (List Nat) → Handler σ γ)
  | peek (k : PeekType → Handler σ γ)
  | params (decl : List Nat → Option Storage) (k : List (List Nat × ParamVal) → Handler σ γ)

/-- How a handler ends when it does not throw while reading. ribparser.cpp:430-431. -/
structure Done (σ γ : Type) where
  call : γ
  throws : Bool
  next : σ
deriving DecidableEq, Repr

/-- ribparser.cpp:228-229. -/
def Handler.run {σ γ} : Handler σ γ → Lex (Done σ γ)
  | .deliver c t n => Lex.pure ⟨c, t, n⟩
  | .fail => Lex.fail
  | .getInt k => Rib.getInt.bind fun a => (k a).run
  | .getFloat k => Rib.getFloat.bind fun a => (k a).run
  | .getString k => Rib.getString.bind fun a => (k a).run
  | .getIntArray k => Rib.getIntArray.bind fun a => (k a).run
  | .getFloatArray n k => (Rib.getFloatArray n).bind fun a => (k a).run
  | .getStringArray k => Rib.getStringArray.bind fun a => (k a).run
  | .peek k => peekNextType.bind fun a => (k a).run
  | .params d k => (readParamList d).bind fun a => (k a).run

/-- riblexer.cpp:97-119 `nextRequest`; `none` is the null pointer returned at end of file. -/
def nextRequest : Lex (Option (List Nat)) := getTok.bind fun
  | .eof => Lex.pure none
  | .req n => Lex.pure (some n)
  | t => tokenError t

/-- riblexer.cpp:71-79 `discardUntilRequest`. -/
def discardLoop : Nat → Lex Unit
  | 0 => fun s => (.fuel, s)
  | f + 1 => peekTok.bind fun
    | .req _ => Lex.pure ()
    | .eof => Lex.pure ()
    | .ub => fun s => (.ub, s)
    | _ => getTok.bind fun _ => discardLoop f

/-- riblexer.cpp:71-79. -/
def discardUntilRequest : Lex Unit := withBound discardLoop

/-- What the parser does, as seen from outside. Effects of ribparser.cpp:210-260. -/
inductive Event (γ : Type) where
  | call (c : γ)
  | error
  | assertFail
  | ub
  | fuel
deriving DecidableEq, Repr

/-- Handling of an exception at ribparser.cpp:231-250: report, then `discardUntilRequest`, then
go round the loop again. -/
def recover {σ γ} (again : σ → LexSt → List (Event γ) × σ) (st : σ) (s : LexSt) : List (Event γ) × σ :=
  match discardUntilRequest s with
  | (.ok _, s') => let r := again st s'; (.error :: r.1, r.2)
  | (.throw, s') => let r := again st s'; (.error :: r.1, r.2)
  | (.assertFail, _) => ([.error, .assertFail], st)
  | (.ub, _) => ([.error, .ub], st)
  | (.fuel, _) => ([.error, .fuel], st)

/-- ribparser.cpp:210-260 `parseStream` between `pushInput` and `popInput`.  `handlers` is the
request table (an unknown name is an error); `st` is the parser's own state. -/
def parseLoop {σ γ} (handlers : σ → List Nat → Option (Handler σ γ)) : Nat → σ → LexSt →
    List (Event γ) × σ
  | 0, st, _ => ([.fuel], st)
  | f + 1, st, s =>
    match nextRequest s with
    | (.ok none, _) => ([], st)
    | (.ok (some n), s1) =>
      match handlers st n with
      | none => recover (parseLoop handlers f) st s1
      | some h =>
        match h.run s1 with
        | (.ok d, s2) =>
          if d.throws then let r := recover (parseLoop handlers f) st s2; (.call d.call :: r.1, r.2)
          else let r := parseLoop handlers f d.next s2; (.call d.call :: r.1, r.2)
        | (.throw, s2) => recover (parseLoop handlers f) st s2
        | (.assertFail, _) => ([.assertFail], st)
        | (.ub, _) => ([.ub], st)
        | (.fuel, _) => ([.fuel], st)
    | (.throw, s1) => recover (parseLoop handlers f) st s1
    | (.assertFail, _) => ([.assertFail], st)
    | (.ub, _) => ([.ub], st)
    | (.fuel, _) => ([.fuel], st)

/-- Parse a whole token stream; one round per token (and one for end-of-file) is enough.
ribparser.cpp:210-260. -/
def parse {σ γ} (handlers : σ → List Nat → Option (Handler σ γ)) (st : σ) (l : List Tok) :
    List (Event γ) × σ :=
  parseLoop handlers (l.length + 1) st (.start l .eof)

end Verif.Rib
