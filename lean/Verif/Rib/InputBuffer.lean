/-
Model of `RibInputBuffer`, the character source below the RIB tokenizer.

Source: /repo/libs/riutil/ribinputbuffer.h lines 72-168 and
/repo/libs/riutil/ribinputbuffer.cpp lines 47-123.
-/
namespace Verif.Rib

/-- A source position: line and column.
`struct SourcePos`, ribinputbuffer.h lines 50-55. -/
structure SPos where
  line : Int
  col : Int
deriving DecidableEq, Repr

/-- State of a `RibInputBuffer` together with the stream below it.
ribinputbuffer.h lines 103-122.

* `mem` is `m_buffer[256]`; only indices below 256 are meaningful.
* `pos`, `fin` are `m_bufPos`, `m_bufEnd`.
* `src` is what the underlying `std::istream` has not delivered yet.
* `sched k` is the number of characters the `k`-th call of `readsome` is willing to
  deliver; it stands for everything that is not under the control of aqsis
  (pipe fill state, stream buffer size).  `calls` counts the calls made so far.

Simplifications: gzip detection and decompression (cpp lines 59-73) are left out, so
`src` is the decompressed stream; the stream name is left out. -/
structure Buf where
  mem : Nat → Nat
  pos : Nat
  fin : Nat
  cur : SPos
  prev : SPos
  src : List Nat
  sched : Nat → Nat
  calls : Nat

/-- The constructor, ribinputbuffer.cpp lines 47-58.  The contents of `m_buffer` beyond
the two zeroed putback characters are indeterminate; `junk` stands for them. -/
def Buf.init (junk : Nat → Nat) (src : List Nat) (sched : Nat → Nat) : Buf :=
  { mem := fun i => if i = 0 ∨ i = 1 then 0 else junk i
    pos := 1, fin := 2
    cur := ⟨1, 0⟩, prev := ⟨-1, -1⟩
    src := src, sched := sched, calls := 0 }

/-- `bufferNextChars`, ribinputbuffer.cpp lines 88-123.  `none` is a failed assertion
(line 92).  The end of the stream shows as the byte 255 (line 120). -/
def Buf.fill (b : Buf) : Option Buf :=
  if b.pos ≠ b.fin then none else
  -- lines 95-104: wrap to the start, copying two characters
  let mem := if b.fin = 256 then
      fun i => if i = 0 then b.mem 254 else if i = 1 then b.mem 255 else b.mem i
    else b.mem
  let pos := if b.fin = 256 then 1 else b.pos
  -- line 107: readsome(m_buffer + m_bufPos, m_bufSize - m_bufPos)
  let numRead := min (b.sched b.calls) (min (256 - pos) b.src.length)
  if numRead > 0 then
    some { b with
      mem := fun i => if pos ≤ i ∧ i < pos + numRead then b.src.getD (i - pos) 255 else mem i
      pos := pos, fin := pos + numRead
      src := b.src.drop numRead, calls := b.calls + 1 }
  else
    -- lines 118-121: one blocking get()
    some { b with
      mem := fun i => if i = pos then b.src.headD 255 else mem i
      pos := pos, fin := pos + 1
      src := b.src.tail, calls := b.calls + 1 }

/-- Line/column bookkeeping of one character `c` preceded by `before`,
ribinputbuffer.h lines 140-147. -/
def stepPos (p : SPos) (c before : Nat) : SPos :=
  if c = 13 ∨ (c = 10 ∧ before ≠ 13) then ⟨p.line + 1, 0⟩
  else if c = 10 then ⟨p.line, 0⟩
  else ⟨p.line, p.col + 1⟩

/-- `RibInputBuffer::get`, ribinputbuffer.h lines 130-149. -/
def Buf.get (b : Buf) : Option (Nat × Buf) :=
  let b1 := { b with pos := b.pos + 1 }
  (if b1.pos ≥ b1.fin then b1.fill else some b1).map fun b2 =>
    let c := b2.mem b2.pos
    (c, { b2 with prev := b2.cur, cur := stepPos b2.cur c (b2.mem (b2.pos - 1)) })

/-- `RibInputBuffer::unget`, ribinputbuffer.h lines 151-158; `none` is the failed
assertion of line 155. -/
def Buf.unget (b : Buf) : Option Buf :=
  if b.pos ≥ 1 then some { b with pos := b.pos - 1, cur := b.prev } else none

/-- An arbitrary deterministic, adaptive client of the character interface: an
interaction tree whose next operation may depend on everything seen so far.
Any user of ribinputbuffer.h:130-168. -/
inductive Client (α : Type) where
  | ret (a : α)
  | get (k : Nat → Client α)
  | unget (k : Client α)
  | pos (k : SPos → Client α)

/-- The usage rule of the interface: a character is put back only if the previous
get/unget operation was a `get` (ribinputbuffer.cpp lines 97-99 promise room for one). -/
def Client.Ok {α} : Bool → Client α → Prop
  | _, .ret _ => True
  | _, .get k => ∀ c, (k c).Ok true
  | canUnget, .unget k => canUnget = true ∧ k.Ok false
  | canUnget, .pos k => ∀ p, (k p).Ok canUnget

/-- Run a client on the buffer. Any user of ribinputbuffer.h:130-168. -/
def Client.run {α} : Client α → Buf → Option α
  | .ret a, _ => some a
  | .get k, b => (b.get).bind fun (c, b') => (k c).run b'
  | .unget k, b => (b.unget).bind fun b' => k.run b'
  | .pos k, b => (k b.cur).run b

end Verif.Rib
