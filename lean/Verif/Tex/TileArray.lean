import Verif.Tex.Support

/-!
# Pixel iterators of plain and tiled textures

Model of `CqTextureBuffer::CqIterator`
(include/aqsis/tex/buffers/texturebuffer.h:528-575) and
`CqTileArray::CqIterator` (include/aqsis/tex/buffers/tilearray.h:551-628) with
`IqTiledTexInputFile::readTile` (include/aqsis/tex/io/itiledtexinputfile.h:195-214).

Simplifications: integers do not overflow, pixels are known by their
coordinates in the image (`fetch` is the pixel found in the file), reading a
tile succeeds.  Failed assertions and out of range tile indices are the outcome
`fail`.
-/

namespace Verif.Tex.Tile

/-- include/aqsis/tex/buffers/tilearray.h:164-183, without the tiles. -/
structure Arr where
  width : Int
  height : Int
  tw : Int
  th : Int
  deriving DecidableEq, Repr

/-- include/aqsis/tex/buffers/tilearray.h:488-489.  C++ division truncates. -/
def Arr.widthInTiles (A : Arr) : Int := (A.width - 1).tdiv A.tw + 1
/-- include/aqsis/tex/buffers/tilearray.h:489. -/
def Arr.heightInTiles (A : Arr) : Int := (A.height - 1).tdiv A.th + 1

/-- A tile: its origin and the size of its buffer. include/aqsis/tex/buffers/tilearray.h:534-548. -/
structure Buf where
  x0 : Int
  y0 : Int
  w : Int
  h : Int
  deriving DecidableEq, Repr

/-- include/aqsis/tex/buffers/tilearray.h:534-548 and
include/aqsis/tex/io/itiledtexinputfile.h:195-214: the tile with its buffer
resized.  `none`: an assertion fails (negative indices are not caught by an
assertion but would be out of bounds). -/
def getTile (A : Arr) (x y : Int) : Option Buf :=
  if x < A.widthInTiles ∧ y < A.heightInTiles ∧ 0 ≤ x ∧ 0 ≤ y then
    let w := if (x + 1) * A.tw > A.width then A.width - x * A.tw else A.tw
    let h := if (y + 1) * A.th > A.height then A.height - y * A.th else A.th
    if w > 0 ∧ h > 0 then some { x0 := x * A.tw, y0 := y * A.th, w := w, h := h } else none
  else none

/-- include/aqsis/tex/buffers/texturebuffer.h:261-279: position of an iterator
over a plain buffer, with the wrapper for the origin of the tile
(include/aqsis/tex/buffers/tilearray.h:410-473). -/
structure Pos where
  buf : Buf
  support : Support
  x : Int
  y : Int
  deriving DecidableEq, Repr

/-- include/aqsis/tex/buffers/texturebuffer.h:433-439, 568-575 and
include/aqsis/tex/buffers/tilearray.h:393-398. -/
def Buf.start (b : Buf) (s : Support) : Pos :=
  let rel := Support.mk4 (s.sx.start - b.x0) (s.sx.stop - b.x0)
    (s.sy.start - b.y0) (s.sy.stop - b.y0)
  let m := (Support.mk4 0 b.w 0 b.h).intersect rel
  { buf := b, support := m, x := m.sx.start, y := if m.sx.isEmpty then m.sy.stop else m.sy.start }

/-- include/aqsis/tex/buffers/texturebuffer.h:531-541. -/
def Pos.next (p : Pos) : Pos :=
  if p.x + 1 ≥ p.support.sx.stop then { p with x := p.support.sx.start, y := p.y + 1 }
  else { p with x := p.x + 1 }

/-- include/aqsis/tex/buffers/texturebuffer.h:543-547. -/
def Pos.inSupport (p : Pos) : Bool := decide (p.y < p.support.sy.stop)

/-- include/aqsis/tex/buffers/texturebuffer.h:561-566 with `value`, 423-431. -/
def Pos.deref {α : Type} (fetch : Int → Int → α) (p : Pos) : Option α :=
  if 0 ≤ p.x ∧ p.x < p.buf.w ∧ 0 ≤ p.y ∧ p.y < p.buf.h then
    some (fetch (p.buf.x0 + p.x) (p.buf.y0 + p.y))
  else none

/-- include/aqsis/tex/buffers/tilearray.h:228-247: position of an iterator over a
tiled array. -/
structure Iter where
  support : Support
  tileX0 : Int
  tileXEnd : Int
  tileYEnd : Int
  tileX : Int
  tileY : Int
  curr : Pos
  deriving DecidableEq, Repr

/-- include/aqsis/tex/buffers/tilearray.h:610-628, 518-524: `begin`. -/
def Arr.start (A : Arr) (s : Support) : Option Iter :=
  let s := s.intersect (Support.mk4 0 A.width 0 A.height)
  let tx := s.sx.start.tdiv A.tw
  let ty := s.sy.start.tdiv A.th
  let ye := (s.sy.stop - 1).tdiv A.th + 1
  match getTile A (if s.sx.isEmpty then 0 else tx) (if s.sy.isEmpty then 0 else ty) with
  | none => none
  | some b =>
    some { support := s, tileX0 := tx, tileXEnd := (s.sx.stop - 1).tdiv A.tw + 1, tileYEnd := ye,
           tileX := tx, tileY := if s.isEmpty then ye else ty, curr := b.start s }

/-- include/aqsis/tex/buffers/tilearray.h:585-589. -/
def Iter.inSupport (i : Iter) : Bool := decide (i.tileY < i.tileYEnd)

/-- include/aqsis/tex/buffers/tilearray.h:568-583. -/
def nextTile (A : Arr) (i : Iter) : Option Iter :=
  let j := if i.tileX + 1 ≥ i.tileXEnd then { i with tileX := i.tileX0, tileY := i.tileY + 1 }
    else { i with tileX := i.tileX + 1 }
  if j.inSupport then
    match getTile A j.tileX j.tileY with
    | none => none
    | some b => some { j with curr := b.start j.support }
  else some j

/-- include/aqsis/tex/buffers/tilearray.h:553-562. -/
def next (A : Arr) (i : Iter) : Option Iter :=
  if i.curr.next.inSupport then some { i with curr := i.curr.next }
  else nextTile A { i with curr := i.curr.next }

/-- Outcome of going through all pixels. Of the loops over tilearray.h:551-608. -/
inductive Out (α : Type) where
  | done (l : List α)
  | fail
  | more
  deriving DecidableEq, Repr

/-- Adds something in front. One turn of such a loop, tilearray.h:551-608. -/
def Out.cons {α : Type} (a : α) : Out α → Out α
  | .done l => .done (a :: l)
  | .fail => .fail
  | .more => .more

/-- The loop of the users of the iterator, for example
libs/tex/filtering (include/aqsis/tex/filtering/filtertexture.h):
`for(i = begin(support); i.inSupport(); ++i) use i.x(), i.y(), *i`.  `more` when
the given number of steps is not enough. -/
def loop {α : Type} (fetch : Int → Int → α) (A : Arr) : Nat → Iter → Out ((Int × Int) × α)
  | 0, _ => .more
  | f + 1, i =>
    if i.inSupport then
      match i.curr.deref fetch with
      | none => .fail
      | some a =>
        match next A i with
        | none => .fail
        | some i' => (loop fetch A f i').cons ((i.curr.buf.x0 + i.curr.x, i.curr.buf.y0 + i.curr.y), a)
    else .done []

/-- From `begin` to the end. As at filtertexture.h:232-233. -/
def visit {α : Type} (fetch : Int → Int → α) (A : Arr) (s : Support) (fuel : Nat) :
    Out ((Int × Int) × α) :=
  match A.start s with
  | none => .fail
  | some i => loop fetch A fuel i

end Verif.Tex.Tile
