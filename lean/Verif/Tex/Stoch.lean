import Verif.Tex.TileArray
import Mathlib.Data.Rat.Floor

/-!
# Random pixels of a region

Model of `CqTextureBuffer::CqStochasticIterator` (include/aqsis/tex/buffers/texturebuffer.h:577-642),
`CqTileArray::CqStochasticIterator` (include/aqsis/tex/buffers/tilearray.h:631-747), `Cq2dQuasiRandomTable`
(libs/tex/filtering/randomtable.h:63-123) and of the choice between all pixels and random ones
(libs/tex/filtering/shadowsampler.cpp:53-83).

Simplifications: integers do not overflow; numbers are rational and exact; the numbers of the two generators
(`m_random` of the iterators and `m_rand` of the table) are given as sequences, and a place in each sequence is carried by the
iterator.
-/

namespace Verif.Tex.Stoch

open Verif.Tex.Tile

/-- The numbers drawn: `coin` by `m_random` of the iterators (tilearray.h:633-634), `tabX`, `tabY` the table and `offX`, `offY` by
`m_rand` for it, libs/tex/filtering/randomtable.h:76-89. -/
structure Draws where
  coin : Nat → ℚ
  tabX : Nat → ℚ
  tabY : Nat → ℚ
  offX : Nat → ℚ
  offY : Nat → ℚ

/-- `Cq2dQuasiRandomTable::x` and `y`, libs/tex/filtering/randomtable.h:113-123, with the table's size at 78. -/
def lookup (tab : Nat → ℚ) (off : ℚ) (index : Nat) : ℚ :=
  let res := tab (index % 1024) + off
  res - (if res ≥ 1 then 1 else 0)

/-- `CqTextureBuffer::CqStochasticIterator`, include/aqsis/tex/buffers/texturebuffer.h:325-336, with the tile around it
(tilearray.h:413-437); `turn` counts the calls of `randomize`. -/
structure Pos where
  buf : Buf
  support : Support
  x : Int
  y : Int
  numSamples : Int
  sampleNum : Nat
  turn : Nat
  deriving DecidableEq, Repr

/-- The position for a sample number, include/aqsis/tex/buffers/texturebuffer.h:585-588. -/
def place (D : Draws) (m : Support) (turn k : Nat) : Int × Int :=
  (m.sx.start + ⌊(m.sx.range : ℚ) * lookup D.tabX (D.offX turn) k⌋,
   m.sy.start + ⌊(m.sy.range : ℚ) * lookup D.tabY (D.offY turn) k⌋)

/-- `operator++`, include/aqsis/tex/buffers/texturebuffer.h:580-590. -/
def Pos.next (D : Draws) (p : Pos) : Pos :=
  { p with sampleNum := p.sampleNum + 1, x := (place D p.support p.turn (p.sampleNum + 1)).1,
           y := (place D p.support p.turn (p.sampleNum + 1)).2 }

/-- `inSupport`, include/aqsis/tex/buffers/texturebuffer.h:592-596. -/
def Pos.inSupport (p : Pos) : Bool := decide ((p.sampleNum : Int) < p.numSamples)

/-- `beginStochastic` of a tile and of its buffer and the constructor, include/aqsis/tex/buffers/tilearray.h:399-406;
include/aqsis/tex/buffers/texturebuffer.h:441-449, 627-642: the sample number is set to -1 and moved on by one. -/
def start (D : Draws) (b : Buf) (s : Support) (numSamples : Int) (turn : Nat) : Pos :=
  let rel := Support.mk4 (s.sx.start - b.x0) (s.sx.stop - b.x0) (s.sy.start - b.y0) (s.sy.stop - b.y0)
  let m := (Support.mk4 0 b.w 0 b.h).intersect rel
  { buf := b, support := m, x := (place D m turn 0).1, y := (place D m turn 0).2,
    numSamples := numSamples, sampleNum := 0, turn := turn }

/-- `operator*`, include/aqsis/tex/buffers/texturebuffer.h:598-603 with `value`, 423-431; `none`: an assertion fails. -/
def Pos.deref {α : Type} (fetch : Int → Int → α) (p : Pos) : Option α :=
  if 0 ≤ p.x ∧ p.x < p.buf.w ∧ 0 ≤ p.y ∧ p.y < p.buf.h then some (fetch (p.buf.x0 + p.x) (p.buf.y0 + p.y)) else none

/-- `CqTileArray::CqStochasticIterator`, include/aqsis/tex/buffers/tilearray.h:306-325. The current position is missing before the
first tile. `coins` and `turns` count the numbers drawn. -/
structure Iter where
  support : Support
  tileX0 : Int
  tileXEnd : Int
  tileYEnd : Int
  tileX : Int
  tileY : Int
  remainingArea : Int
  remainingSamples : Int
  curr : Option Pos
  coins : Nat
  turns : Nat
  deriving DecidableEq, Repr

/-- The part of the support in a tile, include/aqsis/tex/buffers/tilearray.h:674-678. -/
def tileArea (A : Arr) (s : Support) (tx ty : Int) : Int :=
  (s.intersect (Support.mk4 (tx * A.tw) ((tx + 1) * A.tw) (ty * A.th) ((ty + 1) * A.th))).area

/-- The number of samples for a tile, include/aqsis/tex/buffers/tilearray.h:679-685. -/
def share (remaining area remainingArea : Int) (coin : ℚ) : Int :=
  let desired : ℚ := remaining * area / remainingArea
  ⌊desired⌋ + (if coin < desired - ⌊desired⌋ then 1 else 0)

/-- How a function ends: well, by a failed assertion or a division by zero, or not within the given number of turns.
Of tilearray.h:651-695. -/
inductive Res (α : Type) where
  | ok (a : α)
  | fail
  | more
  deriving DecidableEq, Repr

/-- The loop of `nextTile`, include/aqsis/tex/buffers/tilearray.h:659-690: the iterator at the tile found, and the number of samples
for it. Division by an area of zero is `fail`. -/
def search (D : Draws) (A : Arr) : Nat → Iter → Res (Iter × Int)
  | 0, _ => .more
  | f + 1, i =>
    let wrap := decide (i.tileX + 1 ≥ i.tileXEnd)
    let tx := if wrap then i.tileX0 else i.tileX + 1
    let ty := if wrap then i.tileY + 1 else i.tileY
    let area := tileArea A i.support tx ty
    if i.remainingArea = 0 then .fail
    else
      let n := share i.remainingSamples area i.remainingArea (D.coin i.coins)
      let j := { i with tileX := tx, tileY := ty, remainingArea := i.remainingArea - area, coins := i.coins + 1 }
      if n = 0 then search D A f j else .ok (j, n)

/-- `nextTile`, include/aqsis/tex/buffers/tilearray.h:651-695. -/
def nextTile (D : Draws) (A : Arr) (fuel : Nat) (i : Iter) : Res Iter :=
  if i.remainingSamples = 0 then .ok { i with tileY := i.tileYEnd }
  else
    match search D A fuel i with
    | .fail => .fail
    | .more => .more
    | .ok (j, n) =>
      match getTile A j.tileX j.tileY with
      | none => .fail
      | some b =>
        .ok { j with curr := some (start D b j.support n j.turns), turns := j.turns + 1,
                     remainingSamples := j.remainingSamples - n }

/-- `inSupport`, include/aqsis/tex/buffers/tilearray.h:697-701. -/
def Iter.inSupport (i : Iter) : Bool := decide (i.tileY < i.tileYEnd)

/-- `operator++`, include/aqsis/tex/buffers/tilearray.h:636-646. -/
def next (D : Draws) (A : Arr) (fuel : Nat) (i : Iter) : Res Iter :=
  match i.curr with
  | none => .fail
  | some p =>
    if (p.next D).inSupport then .ok { i with curr := some (p.next D) }
    else nextTile D A fuel { i with curr := some (p.next D) }

/-- `beginStochastic` and the constructor, include/aqsis/tex/buffers/tilearray.h:526-532, 722-747. -/
def begin (D : Draws) (A : Arr) (s : Support) (numSamps : Int) (fuel : Nat) : Res Iter :=
  let s := s.intersect (Support.mk4 0 A.width 0 A.height)
  let x0 := s.sx.start.tdiv A.tw
  let ye := (s.sy.stop - 1).tdiv A.th + 1
  let i : Iter :=
    { support := s, tileX0 := x0, tileXEnd := (s.sx.stop - 1).tdiv A.tw + 1, tileYEnd := ye, tileX := x0,
      tileY := s.sy.start.tdiv A.th, remainingArea := s.area, remainingSamples := numSamps, curr := none, coins := 0, turns := 0 }
  if s.isEmpty then .ok { i with tileY := ye } else nextTile D A fuel { i with tileX := x0 - 1 }

/-- The loop over the samples, include/aqsis/tex/filtering/filtertexture.h:288-290: the places and values accumulated. -/
def loop {α : Type} (fetch : Int → Int → α) (D : Draws) (A : Arr) (fuel : Nat) : Nat → Iter → Res (List ((Int × Int) × α))
  | 0, _ => .more
  | f + 1, i =>
    if i.inSupport then
      match i.curr with
      | none => .fail
      | some p =>
        match p.deref fetch with
        | none => .fail
        | some a =>
          match next D A fuel i with
          | .fail => .fail
          | .more => .more
          | .ok i' =>
            match loop fetch D A fuel f i' with
            | .fail => .fail
            | .more => .more
            | .ok l => .ok (((p.buf.x0 + p.x, p.buf.y0 + p.y), a) :: l)
    else .ok []

/-- `filterTextureNowrapStochastic`, include/aqsis/tex/filtering/filtertexture.h:279-291. -/
def visit {α : Type} (fetch : Int → Int → α) (D : Draws) (A : Arr) (s : Support) (numSamples : Int) (fuel : Nat) :
    Res (List ((Int × Int) × α)) :=
  match begin D A s numSamples fuel with
  | .fail => .fail
  | .more => .more
  | .ok i => loop fetch D A fuel fuel i

/-- What `applyPCF` looks at, libs/tex/filtering/shadowsampler.cpp:53-83: all pixels of the support or random ones. -/
def pcfPixels {α : Type} (fetch : Int → Int → α) (D : Draws) (A : Arr) (s : Support) (numSamples : Int) (fuel : Nat) :
    Res (List ((Int × Int) × α)) :=
  if s.area ≤ numSamples ∨ numSamples < 0 then
    match Tile.visit fetch A s fuel with
    | .done l => .ok l
    | .fail => .fail
    | .more => .more
  else visit fetch D A s numSamples fuel

end Verif.Tex.Stoch
