import Verif.Tex.Mixed

/-!
# What an image buffer is

Pixels and channels of a buffer by coordinates, written without the functions of the model that walk
over the memory.
-/

namespace Verif.Tex.Mixed

/-- Bytes of the channels before channel `i` in a pixel. -/
def before (is : List Info) (i : Nat) : Nat := ((is.take i).map fun c => size c.ty).sum

/-- Bytes of a pixel. -/
def whole (is : List Info) : Nat := (is.map fun c => size c.ty).sum

/-- A list of channels whose offsets are those of its channels packed one after the other. -/
def Packed (l : CList) : Prop :=
  l.offsets = (List.range l.chans.length).map (before l.chans) ∧ l.bpp = whole l.chans

/-- The type of channel `i`. -/
def tyOf (is : List Info) (i : Nat) : Ty := (is[i]?.map Info.ty).getD .unknown

/-- Where channel `i` of the pixel in column `x` and row `y` begins. -/
def place (is : List Info) (w i x y : Nat) : Nat := (y * w + x) * whole is + before is i

/-- The bytes of a channel of a pixel. -/
def cell (is : List Info) (w : Nat) (d : List Nat) (i x y : Nat) : List Nat :=
  (d.drop (place is w i x y)).take (size (tyOf is i))

/-- A buffer of `w` times `h` pixels: packed channels of known types, and as many bytes as its
pixels need. -/
structure Good (b : Buf) (w h : Nat) : Prop where
  packed : Packed b.list
  types : ∀ i ∈ b.list.chans, i.ty ≠ .f16 ∧ i.ty ≠ .unknown
  width : b.w = w
  height : b.h = h
  bytes : b.data.length = h * w * whole b.list.chans

/-- The value of a channel of a pixel. -/
def value (k : Codec) (b : Buf) (w i x y : Nat) : ℚ :=
  toFloat k (tyOf b.list.chans i) (ofBytes (cell b.list.chans w b.data i x y))

/-- The bytes for a value in a type. -/
def asBytes (k : Codec) (t : Ty) (v : ℚ) : List Nat := toBytes (size t) (fromFloat k t v)

/-- `b'` is `b` with the cells given by `new` replaced by them. -/
def Replaced (b b' : Buf) (w h : Nat) (new : Nat → Nat → Nat → Option (List Nat)) : Prop :=
  Good b' w h ∧ b'.list = b.list ∧
    ∀ i < b.list.chans.length, ∀ x < w, ∀ y < h,
      cell b.list.chans w b'.data i x y = (new i x y).getD (cell b.list.chans w b.data i x y)

/-- The column or row of the source that is laid over column or row `x` of the destination, if there
is one: the source begins at `offset` and has `n` columns. -/
def under (offset : ℤ) (n x : Nat) : Option Nat :=
  if 0 ≤ (x : ℤ) - offset ∧ (x : ℤ) - offset < n then some ((x : ℤ) - offset).toNat else none

end Verif.Tex.Mixed
