import Verif.Core.Buckets
/-!
# Passing samples from bucket to bucket

Model of the part of `CqBucketProcessor` (libs/core/bucketprocessor.cpp) that decides which pixels a
bucket samples itself and which it takes over from its neighbours.

Simplifications: a pixel (`CqImagePixel`) is a value, either `none` (cleared) or the position whose
samples it holds; arrays of pixels are indexed by column and row instead of by row times width plus
column; the rendering between `preProcess` and `postProcess` only fills in samples of the pixels in the
sample region (libs/core/bucketprocessor.cpp:1122-1128, 1338-1344) and is left out.
-/
namespace Verif.Core.BucketCache

open Verif.Core.Buckets (Region Bucket numBuckets grid bucketAt bucketRegion visits)

/-- `SqBucketCacheSegment::EqBucketCacheSide`, libs/core/bucket.h:49-62. -/
inductive Side
  | left | right | top | bottom | topLeft | topRight | bottomLeft | bottomRight
deriving DecidableEq, Repr

/-- The pixel whose samples are held. `CqImagePixelPtr`, libs/core/bucketprocessor.h:159. -/
abbrev Pix := Option (Int × Int)

/-- Pixels by column and row. `m_aieImage`, libs/core/bucketprocessor.h:159. -/
abbrev Image := Int → Int → Pix

/-- What goes wrong.
Outcomes of bucketprocessor.cpp:1645-1662, bucket.h:220-225 and imagebuffer.h:172-188. -/
inductive Err
  | badSize       -- `resize` with a negative number: `std::length_error`
  | assertFail    -- `assert` in `setCacheSegment`, libs/core/bucket.h:223
  | noBucket      -- `m_Buckets` indexed out of range
deriving DecidableEq, Repr

/-- Resolution, bucket size, `m_DiscreteShiftX`, `m_DiscreteShiftY` and crop window.
libs/core/bucketprocessor.h:152-153, bucketprocessor.cpp:56-60. -/
structure Params where
  xRes : Int
  yRes : Int
  bw : Int
  bh : Int
  sx : Int
  sy : Int
  crop : Region

/-- The state of the buckets and of the one bucket processor.
`m_aieImage` (bucketprocessor.h:159), `m_cacheSegments` and `m_bProcessed` (bucket.h:207, 179). -/
structure World where
  img : Image
  segs : Int → Int → Side → Option Image
  processed : Int → Int → Bool

/-- `setupCacheInformation`, libs/core/bucketprocessor.cpp:54-70. -/
def cacheRegion (P : Params) (side : Side) : Region :=
  let overlapx := P.sx * 2
  let overlapy := P.sy * 2
  let width := P.bw + overlapx
  let height := P.bh + overlapy
  match side with
  | .topLeft => ⟨0, 0, overlapx, overlapy⟩
  | .top => ⟨overlapx, 0, width - overlapx, overlapy⟩
  | .topRight => ⟨width - overlapx, 0, width, overlapy⟩
  | .left => ⟨0, overlapy, overlapx, height - overlapy⟩
  | .right => ⟨width - overlapx, overlapy, width, height - overlapy⟩
  | .bottomLeft => ⟨0, height - overlapy, overlapx, height⟩
  | .bottom => ⟨overlapx, height - overlapy, width - overlapx, height⟩
  | .bottomRight => ⟨width - overlapx, height - overlapy, width, height⟩

/-- Position in a region. The loop bounds at bucketprocessor.cpp:161-179. -/
def Inside (g : Region) (x y : Int) : Prop := g.xMin ≤ x ∧ x < g.xMax ∧ g.yMin ≤ y ∧ y < g.yMax

instance (g : Region) (x y : Int) : Decidable (Inside g x y) := by unfold Inside; infer_instance

/-- `buildCacheSegment`, libs/core/bucketprocessor.cpp:1645-1662: the segment and the image after. -/
def build (P : Params) (side : Side) (img : Image) : Except Err (Image × Image) :=
  let g := cacheRegion P side
  if (g.xMax - g.xMin) * (g.yMax - g.yMin) < 0 then .error .badSize
  else .ok (fun x y => if Inside g (x + g.xMin) (y + g.yMin) then img (x + g.xMin) (y + g.yMin) else none,
            fun x y => if Inside g x y then none else img x y)

/-- `applyCacheSegment`, libs/core/bucketprocessor.cpp:1664-1679. -/
def apply (P : Params) (side : Side) (seg : Image) (img : Image) : Image :=
  let g := cacheRegion P side
  fun x y => if Inside g x y then seg (x - g.xMin) (y - g.yMin) else img x y

/-- `dropSegment`, libs/core/bucketprocessor.cpp:1682-1694. -/
def drop (P : Params) (side : Side) (img : Image) : Image :=
  let g := cacheRegion P side
  fun x y => if Inside g x y then none else img x y

/-- `setCacheSegment`, libs/core/bucket.h:220-225. -/
def setSeg (segs : Int → Int → Side → Option Image) (c r : Int) (side : Side) (seg : Image) :
    Except Err (Int → Int → Side → Option Image) :=
  if (segs c r side).isSome then .error .assertFail
  else .ok fun c' r' side' => if c' = c ∧ r' = r ∧ side' = side then some seg else segs c' r' side'

/-- The sample region, libs/core/bucketprocessor.cpp:112-137. -/
def sampleRegion (P : Params) (b : Bucket) (segs : Side → Option Image) : Region :=
  let sminx := b.x - P.sx
  let sminy := b.y - P.sy
  let smaxx := b.x + b.w + P.sx
  let smaxy := b.y + b.h + P.sy
  let sminx := if sminx < P.crop.xMin - P.sx then P.crop.xMin - P.sx else sminx
  let sminy := if sminy < P.crop.yMin - P.sy then P.crop.yMin - P.sy else sminy
  let smaxx := if smaxx > P.crop.xMax + P.sx then P.crop.xMax + P.sx else smaxx
  let smaxy := if smaxy > P.crop.yMax + P.sy then P.crop.yMax + P.sy else smaxy
  let sminx := if (segs .left).isSome then sminx + P.sx * 2 else sminx
  let smaxx := if (segs .right).isSome then smaxx - P.sx * 2 else smaxx
  let sminy := if (segs .top).isSome then sminy + P.sy * 2 else sminy
  let smaxy := if (segs .bottom).isSome then smaxy - P.sy * 2 else smaxy
  ⟨sminx, sminy, smaxx, smaxy⟩

/-- libs/core/bucketprocessor.cpp:161-179: the pixels of the sample region are cleared and get their
sample positions. -/
def setSamples (P : Params) (b : Bucket) (s : Region) (img : Image) : Image :=
  fun i j =>
    let x := i - P.sx + b.x
    let y := j - P.sy + b.y
    if Inside s x y then some (x, y) else img i j

/-- Apply a segment if there is one. bucketprocessor.cpp:182-198. -/
def applyIf (P : Params) (segs : Side → Option Image) (img : Image) (side : Side) : Image :=
  match segs side with
  | some seg => apply P side seg img
  | none => img

/-- The image after `preProcess`, libs/core/bucketprocessor.cpp:95-206. -/
def preProcess (P : Params) (b : Bucket) (segs : Side → Option Image) (img : Image) : Image :=
  [.left, .right, .top, .bottom, .topLeft, .topRight, .bottomLeft, .bottomRight].foldl (applyIf P segs)
    (setSamples P b (sampleRegion P b segs) img)

/-- The variables of `postProcess`: the image, the segments of all buckets, and the local variables
`top_left`, `top_right`, `bottom_left`, `bottom_right`. bucketprocessor.cpp:259-262. -/
structure Post where
  img : Image
  segs : Int → Int → Side → Option Image
  loc : Side → Option Image

/-- A corner segment for the neighbour `(nc, nr)`, e.g. libs/core/bucketprocessor.cpp:269-274 (`fresh`:
to the left and right it is always built) and 304-313 (above and below one built before is used). -/
def corner (P : Params) (fresh : Bool) (nc nr : Int) (side nside : Side) (s : Post) : Except Err Post :=
  if (s.segs nc nr nside).isSome then .ok s
  else
    match (if fresh then none else s.loc side) with
    | some seg =>
      match setSeg s.segs nc nr nside seg with
      | .error e => .error e
      | .ok segs => .ok { s with segs := segs }
    | none =>
      match build P side s.img with
      | .error e => .error e
      | .ok (seg, img) =>
        match setSeg s.segs nc nr nside seg with
        | .error e => .error e
        | .ok segs =>
          .ok { img := img, segs := segs, loc := fun k => if k = side then some seg else s.loc k }

/-- One of the four parts of `postProcess` for the neighbour `(nc, nr)` on `side`, e.g.
libs/core/bucketprocessor.cpp:263-281. -/
def neighbour (P : Params) (processed : Int → Int → Bool) (present : Bool) (fresh : Bool) (nc nr : Int)
    (side nside c1 n1 c2 n2 : Side) (s : Post) : Except Err Post :=
  if present = true ∧ processed nc nr = false then
    match build P side s.img with
    | .error e => .error e
    | .ok (seg, img) =>
      match setSeg s.segs nc nr nside seg with
      | .error e => .error e
      | .ok segs =>
        match corner P fresh nc nr c1 n1 { s with img := img, segs := segs } with
        | .error e => .error e
        | .ok s => corner P fresh nc nr c2 n2 s
  else .ok s

/-- `postProcess`, libs/core/bucketprocessor.cpp:260-359, with the tests of `axialNeighbours`,
libs/core/imagebuffer.h:172-188. -/
def postProcess (P : Params) (b : Bucket) (w : World) : Except Err World :=
  match neighbour P w.processed (decide (b.col > 0)) true (b.col - 1) b.row
      .left .right .topLeft .topRight .bottomLeft .bottomRight
      { img := w.img, segs := w.segs, loc := fun _ => none } with
  | .error e => .error e
  | .ok s =>
    match neighbour P w.processed (decide (b.col < numBuckets P.xRes P.bw - 1)) true (b.col + 1) b.row
        .right .left .topRight .topLeft .bottomRight .bottomLeft s with
    | .error e => .error e
    | .ok s =>
      match neighbour P w.processed (decide (b.row > 0)) false b.col (b.row - 1)
          .top .bottom .topLeft .bottomLeft .topRight .bottomRight s with
      | .error e => .error e
      | .ok s =>
        match neighbour P w.processed (decide (b.row < numBuckets P.yRes P.bh - 1)) false b.col (b.row + 1)
            .bottom .top .bottomLeft .topLeft .bottomRight .topRight s with
        | .error e => .error e
        | .ok s =>
          let dropIf := fun (img : Image) (side : Side) =>
            if (s.segs b.col b.row side).isSome then drop P side img else img
          .ok {
            img := [Side.left, .right, .top, .bottom, .topLeft, .topRight, .bottomLeft,
              .bottomRight].foldl dropIf s.img
            segs := fun c r k => if c = b.col ∧ r = b.row then none else s.segs c r k
            processed := fun c r => if c = b.col ∧ r = b.row then true else w.processed c r }

/-- What the filter sees of one bucket. Observation of bucketprocessor.cpp:95-206. -/
structure Shot where
  bucket : Bucket
  sampled : Region
  img : Image

/-- The loop of `RenderImage` (libs/core/imagebuffer.cpp:707-765) over a list of buckets. -/
def renderLoop (P : Params) : List (Int × Int) → World → Except Err (List Shot)
  | [], _ => .ok []
  | p :: ps, w =>
    match bucketAt (grid P.xRes P.yRes P.bw P.bh) p.1 p.2 with
    | none => .error .noBucket
    | some b =>
      let img := preProcess P b (w.segs p.1 p.2) w.img
      match postProcess P b { w with img := img } with
      | .error e => .error e
      | .ok w' =>
        match renderLoop P ps w' with
        | .error e => .error e
        | .ok shots =>
          .ok ({ bucket := b, sampled := sampleRegion P b (w.segs p.1 p.2), img := img } :: shots)

/-- The whole image: the buckets of the region in order. libs/core/imagebuffer.cpp:706-765. -/
def render (P : Params) (fuel : Nat) : Except Err (List Shot) :=
  let g := bucketRegion P.crop P.bw P.bh
  renderLoop P (visits g fuel (g.xMin, g.yMin))
    { img := fun _ _ => none, segs := fun _ _ _ => none, processed := fun _ _ => false }

end Verif.Core.BucketCache
