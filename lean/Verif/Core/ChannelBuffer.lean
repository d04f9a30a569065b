/-!
# Channel buffers

Model of `CqChannelBuffer` (libs/core/channelbuffer.h:48-166).

Memory is a list of bytes; `none` is a byte that was never written.  A channel
value (`TqFloat`, libs/core/ddmanager/iddmanager.h:52) takes four bytes.

Simplifications: sizes and coordinates are natural numbers and arithmetic on
them does not overflow; the members `m_width`, `m_height`, which the constructor
leaves unset, are 0 at first (their product is used only together with old data,
of which there is none).
-/

namespace Verif.Core.ChannelBuffer

/-- A cell of `std::vector<TqUchar>`, libs/core/channelbuffer.h:69-74; `none` is an indeterminate value. -/
abbrev Byte := Option Nat

/-- libs/core/channelbuffer.h:69-74. -/
structure Buf where
  width : Nat
  height : Nat
  elem : Nat
  channels : List (String × Nat × Nat)
  data : Option (List Byte)

/-- Outcomes: undefined behaviour, a failed assertion, an exception.
Asserts and exceptions of channelbuffer.h:97-164. -/
inductive Res (α : Type) where
  | ok (a : α)
  | ub
  | assert
  | throws
  deriving DecidableEq, Repr

/-- libs/core/channelbuffer.h:91-95. -/
def create : Buf := { width := 0, height := 0, elem := 0, channels := [], data := none }

/-- libs/core/channelbuffer.h:82-89. -/
def clearChannels (b : Buf) : Buf := { b with channels := [], data := none, elem := 0 }

/-- libs/core/channelbuffer.h:97-107. -/
def addChannel (b : Buf) (name : String) (size : Nat) : Res (Nat × Buf) :=
  match b.channels.lookup name with
  | some _ => .throws
  | none => .ok (b.elem, { b with
      channels := (name, b.elem, size) :: b.channels
      elem := b.elem + size })

/-- libs/core/channelbuffer.h:109-117. -/
def getChannelIndex (b : Buf) (name : String) : Nat :=
  match b.channels.lookup name with
  | some (off, _) => off
  | none => 0

/-- libs/core/channelbuffer.h:126, 129: memory for `n` values, of which the first
`n` *bytes* are set to zero. -/
def freshBytes (n : Nat) : List Byte :=
  List.replicate n (some 0) ++ List.replicate (4 * n - n) none

/-- libs/core/channelbuffer.h:119-136. -/
def allocate (b : Buf) (w h : Nat) : Res Buf :=
  let oldsize := b.width * b.height * b.elem
  let n := w * h * b.elem
  let new := freshBytes n
  match b.data with
  | none => .ok { b with width := w, height := h, data := some new }
  | some old =>
    -- libs/core/channelbuffer.h:132: `memcpy` of `oldsize` bytes
    if old.length < oldsize ∨ new.length < oldsize then .ub
    else .ok { b with width := w, height := h, data := some (old.take oldsize ++ new.drop oldsize) }

/-- libs/core/channelbuffer.h:158-164. -/
def indexOffset (b : Buf) (x y index : Nat) : Res Nat :=
  if index < b.elem ∧ x < b.width ∧ y < b.height then .ok ((y * b.width + x) * b.elem + index)
  else .assert

/-- Storing a value through the pointer from libs/core/channelbuffer.h:138-141:
`buffer(x, y, index)[i] = v`. -/
def write (b : Buf) (x y index i : Nat) (v : List Nat) : Res Buf :=
  match indexOffset b x y index with
  | .ok o =>
    match b.data with
    | none => .ub
    | some d =>
      if 4 * (o + i) + 4 ≤ d.length then
        .ok { b with data := some (d.take (4 * (o + i)) ++ v.map some ++ d.drop (4 * (o + i) + 4)) }
      else .ub
  | .assert => .assert
  | _ => .ub

/-- Reading a value through the pointer. libs/core/channelbuffer.h:138-146. -/
def read (b : Buf) (x y index i : Nat) : Res (List Byte) :=
  match indexOffset b x y index with
  | .ok o =>
    match b.data with
    | none => .ub
    | some d => if 4 * (o + i) + 4 ≤ d.length then .ok ((d.drop (4 * (o + i))).take 4) else .ub
  | .assert => .assert
  | _ => .ub

end Verif.Core.ChannelBuffer
