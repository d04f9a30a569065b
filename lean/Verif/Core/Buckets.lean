import Mathlib.Data.Rat.Floor
/-!
# Buckets

Model of the division of the image into buckets and of the distribution of surfaces and
micropolygons over them: `CqImageBuffer`, libs/core/imagebuffer.cpp and imagebuffer.h.

Simplifications: floats are rational numbers; `int` arithmetic does not overflow; depth of field is
off (it only makes the bounds larger before the steps modelled here); surfaces and micropolygons are
numbers.
-/
namespace Verif.Core.Buckets

/-- The position data of a `CqBucket` (libs/core/bucket.h:181-192). -/
structure Bucket where
  col : Int
  row : Int
  x : Int
  y : Int
  w : Int
  h : Int
deriving DecidableEq, Repr

/-- `CqRegion` (include/aqsis/math/region.h:41-60); the maxima are exclusive. -/
structure Region where
  xMin : Int
  yMin : Int
  xMax : Int
  yMax : Int
deriving DecidableEq, Repr

/-- libs/core/imagebuffer.cpp:184-185: number of buckets along one direction. -/
def numBuckets (res size : Int) : Int := (res - 1).tdiv size + 1

/-- libs/core/imagebuffer.cpp:207-221: the loop over the buckets of one row. -/
def rowLoop (xRes bw row rowPos rowSize : Int) : Nat → Int → Int → List Bucket
  | 0, _, _ => []
  | n + 1, column, colPos =>
    let colSize := xRes - colPos
    let colSize := if colSize > bw then bw else colSize
    { col := column, row := row, x := colPos, y := rowPos, w := colSize, h := rowSize } ::
      rowLoop xRes bw row rowPos rowSize n (column + 1) (colPos + bw)

/-- libs/core/imagebuffer.cpp:196-224: the loop over the rows. -/
def gridLoop (xRes yRes bw bh : Int) (nx : Nat) : Nat → Int → Int → List (List Bucket)
  | 0, _, _ => []
  | n + 1, row, rowPos =>
    let rowSize := yRes - rowPos
    let rowSize := if rowSize > bh then bh else rowSize
    rowLoop xRes bw row rowPos rowSize nx 0 0 :: gridLoop xRes yRes bw bh nx n (row + 1) (rowPos + bh)

/-- `m_Buckets` after `SetImage` (libs/core/imagebuffer.cpp:174-228). -/
def grid (xRes yRes bw bh : Int) : List (List Bucket) :=
  gridLoop xRes yRes bw bh (numBuckets xRes bw).toNat (numBuckets yRes bh).toNat 0 0

/-- `Bucket(x, y)`, libs/core/imagebuffer.h:127-130; `none`: out of range, undefined. -/
def bucketAt (g : List (List Bucket)) (c r : Int) : Option Bucket :=
  if c < 0 ∨ r < 0 then none else (g[r.toNat]?).bind fun row => row[c.toNat]?

/-- `m_bucketRegion`, libs/core/imagebuffer.cpp:190-194. -/
def bucketRegion (crop : Region) (bw bh : Int) : Region :=
  { xMin := crop.xMin.tdiv bw
    yMin := crop.yMin.tdiv bh
    xMax := (crop.xMax - 1).tdiv bw + 1
    yMax := (crop.yMax - 1).tdiv bh + 1 }

/-- `clamp`, include/aqsis/math/math.h:99-104. -/
def clamp (v lo hi : Int) : Int := if v < lo then lo else if v > hi then hi else v

/-- One limit of the crop window in pixels, `initialiseCropWindow`, libs/core/renderer.cpp:1619-1627. -/
def cropPixel (res : Int) (c : ℚ) : Int := clamp ⌈(res : ℚ) * c⌉ 0 res

/-- `initialiseCropWindow` for `CropWindow x0 x1 y0 y1`. libs/core/renderer.cpp:1619-1627. -/
def cropWindow (xRes yRes : Int) (x0 x1 y0 y1 : ℚ) : Region :=
  { xMin := cropPixel xRes x0
    yMin := cropPixel yRes y0
    xMax := cropPixel xRes x1
    yMax := cropPixel yRes y1 }

/-- `NextBucket`, libs/core/imagebuffer.cpp:791-802 (the rest is in `#if 0`). -/
def nextBucket (r : Region) (p : Int × Int) : Bool × (Int × Int) :=
  let col := p.1 + 1
  if col ≥ r.xMax then
    let row := p.2 + 1
    if row ≥ r.yMax then (false, (r.xMin, row)) else (true, (r.xMin, row))
  else (true, (col, p.2))

/-- The buckets processed by `RenderImage` in order (libs/core/imagebuffer.cpp:707-765), starting at
the current one and never told to quit.  That several are handed out before waiting for them does not change the order.
`fuel` bounds their number. -/
def visits (r : Region) : Nat → Int × Int → List (Int × Int)
  | 0, _ => []
  | n + 1, p => p :: (match nextBucket r p with
    | (true, q) => visits r n q
    | (false, _) => [])

/-! ## Surfaces and micropolygons -/

/-- `static_cast<TqInt>` of a float. As used at libs/core/imagebuffer.cpp:408-411, 556-559. -/
def trunc (q : ℚ) : Int := if 0 ≤ q then ⌊q⌋ else ⌈q⌉

/-- A bound in the raster plane. `CqBound`, as used at libs/core/imagebuffer.cpp:399-411. -/
structure Bound where
  xMin : ℚ
  yMin : ℚ
  xMax : ℚ
  yMax : ℚ

/-- The end of `CullSurface`, libs/core/imagebuffer.cpp:325-342: the raster bound of a surface is
enlarged by half the filter width; `none`: the surface is thrown away. -/
def cullSurface (crop : Region) (fx fy : ℚ) (b : Bound) : Option Bound :=
  let b : Bound := { xMin := b.xMin - fx / 2, yMin := b.yMin - fy / 2
                     xMax := b.xMax + fx / 2, yMax := b.yMax + fy / 2 }
  if b.xMin > crop.xMax ∨ b.yMin > crop.yMax ∨ b.xMax < crop.xMin ∨ b.yMax < crop.yMin then none
  else some b

/-- The first bucket of one row not processed yet, `xb` onwards
(libs/core/imagebuffer.cpp:428-437, inner loop). -/
def scanRow (processed : Int → Int → Bool) (yb xMax : Int) : Nat → Int → Option (Int × Int)
  | 0, _ => none
  | n + 1, xb =>
    if xb ≤ xMax then
      if processed xb yb = false then some (xb, yb) else scanRow processed yb xMax n (xb + 1)
    else none

/-- libs/core/imagebuffer.cpp:426-440: the outer loop. -/
def scanRows (processed : Int → Int → Bool) (xMin xMax yMax : Int) : Nat → Int → Int → Option (Int × Int)
  | 0, _, _ => none
  | n + 1, xb, yb =>
    if yb ≤ yMax then
      match scanRow processed yb xMax (xMax + 1 - xb).toNat xb with
      | some p => some p
      | none => scanRows processed xMin xMax yMax n xMin (yb + 1)
    else none

/-- `PostSurface` after culling, libs/core/imagebuffer.cpp:399-446: the bucket the surface is put
into; `none`: it is not put anywhere. -/
def postSurface (reg : Region) (bw bh : Int) (processed : Int → Int → Bool) (undiceable : Bool)
    (b : Bound) : Option (Int × Int) :=
  let xMinb := if undiceable then 0 else (trunc b.xMin).tdiv bw
  let yMinb := if undiceable then 0 else (trunc b.yMin).tdiv bh
  let xMaxb := if undiceable then 0 else (trunc b.xMax).tdiv bw
  let yMaxb := if undiceable then 0 else (trunc b.yMax).tdiv bh
  let xMinb := clamp xMinb reg.xMin (reg.xMax - 1)
  let yMinb := clamp yMinb reg.yMin (reg.yMax - 1)
  let xMaxb := clamp xMaxb reg.xMin (reg.xMax - 1)
  let yMaxb := clamp yMaxb reg.yMin (reg.yMax - 1)
  if processed xMinb yMinb = true then
    scanRows processed xMinb xMaxb yMaxb (yMaxb + 1 - yMinb).toNat (xMinb + 1) yMinb
  else some (xMinb, yMinb)

/-- `RepostSurface`, libs/core/imagebuffer.cpp:449-483. -/
def repostSurface (reg : Region) (bw : Int) (old : Bucket) (b : Bound) : Option (Int × Int) :=
  if old.col + 1 < reg.xMax ∧ b.xMax ≥ ((old.x + old.w : Int) : ℚ) then some (old.col + 1, old.row)
  else
    let nextY := old.row + 1
    let nextX := max reg.xMin (⌊b.xMin⌋.tdiv bw)
    if nextX < reg.xMax ∧ nextY < reg.yMax ∧ b.yMax ≥ ((old.y + old.h : Int) : ℚ) then
      some (nextX, nextY)
    else none

/-- `AddMPG`, libs/core/imagebuffer.cpp:532-590: the buckets the micropolygon is added to. -/
def addMPG (crop reg : Region) (bw bh : Int) (fx fy : ℚ) (processed : Int → Int → Bool) (b : Bound) :
    List (Int × Int) :=
  if b.xMax < crop.xMin - fx / 2 ∨ b.yMax < crop.yMin - fy / 2 ∨ b.xMin > crop.xMax + fx / 2 ∨
      b.yMin > crop.yMax + fy / 2 then []
  else
    let sx : ℚ := (⌊fx / 2⌋ : Int)
    let sy : ℚ := (⌊fy / 2⌋ : Int)
    let xa := trunc ((b.xMin - sx) / bw)
    let ya := trunc ((b.yMin - sy) / bh)
    let xb := trunc ((b.xMax + sx) / bw)
    let yb := trunc ((b.yMax + sy) / bh)
    if xb < reg.xMin ∨ yb < reg.yMin ∨ xa ≥ reg.xMax ∨ ya ≥ reg.yMax then []
    else
      let xa := if xa < reg.xMin then reg.xMin else xa
      let ya := if ya < reg.yMin then reg.yMin else ya
      let xb := if xb ≥ reg.xMax then reg.xMax - 1 else xb
      let yb := if yb ≥ reg.yMax then reg.yMax - 1 else yb
      (List.range (xb + 1 - xa).toNat).flatMap fun i : Nat =>
        (List.range (yb + 1 - ya).toNat).filterMap fun j : Nat =>
          if processed (xa + (i : Int)) (ya + (j : Int)) = false then some (xa + (i : Int), ya + (j : Int)) else none

end Verif.Core.Buckets
