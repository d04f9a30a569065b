import Verif.Core.HitTest

/-!
# Moving micropolygons

Model of the keys of moving micropolygons (`CqMicroPolyGrid::Split`, libs/core/micropolygon.cpp:664-700, 842-845), of
their bounds over parts of the shutter interval (`CqMicroPolygonMotion::BuildBoundList`,
libs/core/micropolygon.cpp:1689-1756), of the test of a sample (`CqMicroPolygonMotion::Sample`,
libs/core/micropolygon.cpp:1768-1914) and of the choice of the samples (`CqBucketProcessor::RenderMPG_MBOrDof`,
libs/core/bucketprocessor.cpp:1221-1469).

Simplifications: numbers are rational; depth, depth of field, level of detail and triangular grids are left out.
-/

namespace Verif.Core.Motion

open Verif.Core.HitTest

/-! ## Keys -/

/-- `keyframeTimes`, a `std::map` from times to indices (libs/core/micropolygon.cpp:667): insertion or change of an entry,
in the order of the times. -/
def setKey (t : ℚ) (i : Nat) : List (ℚ × Nat) → List (ℚ × Nat)
  | [] => [(t, i)]
  | (u, j) :: l => if t < u then (t, i) :: (u, j) :: l else if t = u then (u, i) :: l else (u, j) :: setKey t i l

/-- Adding the times of one transform with their indices, libs/core/micropolygon.cpp:669-670, 672-673. -/
def addTimes (ts : List ℚ) (m : List (ℚ × Nat)) : List (ℚ × Nat) :=
  (ts.zipIdx).foldl (fun m p => setKey p.1 p.2 m) m

/-- `keyframeTimes` for the times of the transforms of object and camera, libs/core/micropolygon.cpp:665-673. -/
def keyframeTimes (object camera : List ℚ) : List (ℚ × Nat) :=
  let m := addTimes object []
  if camera.length > 1 then addTimes camera m else m

/-- The filling of `aaPtimes`: the entry with the index of a key time gets the points at that time, which `P` gives
(libs/core/micropolygon.cpp:685-700). -/
def fillPoints {α : Type} (P : ℚ → α) (m : List (ℚ × Nat)) : Nat → Option α :=
  m.foldl (fun a p i => if i = p.2 then some (P p.1) else a i) (fun _ => none)

/-- The keys appended to a micropolygon, libs/core/micropolygon.cpp:843-844. -/
def keys {α : Type} (P : ℚ → α) (object camera : List ℚ) : List (ℚ × Option α) :=
  let m := keyframeTimes object camera
  m.map fun p => (p.1, fillPoints P m p.2)

/-! ## Bounds over time -/

/-- A key: `m_Times` and `m_Keys`, libs/core/micropolygon.cpp:1952-1959. -/
structure Key where
  time : ℚ
  q : Quad

/-- `Encapsulate` of another bound, libs/core/bound.cpp:117-126. -/
def encapsulate (a b : Bound) : Bound :=
  ⟨min a.xMin b.xMin, min a.yMin b.yMin, max a.xMax b.xMax, max a.yMax b.yMax⟩

/-- `mid`, libs/core/micropolygon.cpp:1732-1734. -/
def midBound (a b : Bound) (mix : ℚ) : Bound :=
  ⟨a.xMin + mix * (b.xMin - a.xMin), a.yMin + mix * (b.yMin - a.yMin),
   a.xMax + mix * (b.xMax - a.xMax), a.yMax + mix * (b.yMax - a.yMax)⟩

/-- The loop `while(time > m_Times[endKey] && endKey < m_Keys.size() - 1)`, libs/core/micropolygon.cpp:1720-1721; the number
of rounds is below `n`. -/
def advance (ks : Nat → Key) (n : Nat) (time : ℚ) : Nat → Nat → Nat
  | 0, e => e
  | fuel + 1, e => if time > (ks e).time ∧ e < n - 1 then advance ks n time fuel (e + 1) else e

/-- The loop `while(startKey < endKey_1)`, libs/core/micropolygon.cpp:1741-1746. -/
def absorb (ks : Nat → Key) (start stop : Nat) (b : Bound) : Bound :=
  (List.range (stop - start)).foldl (fun b j => encapsulate b (bound (ks (start + 1 + j)).q)) b

/-- The variables of the loop of `BuildBoundList`, libs/core/micropolygon.cpp:1709-1712. -/
structure BuildState where
  time : ℚ
  startKey : Nat
  endKey : Nat
  bound : Bound

/-- One round, libs/core/micropolygon.cpp:1719-1752: the bound and its time, and the next state. -/
def buildStep (ks : Nat → Key) (n : Nat) (dt : ℚ) (s : BuildState) : (Bound × ℚ) × BuildState :=
  let endKey := advance ks n s.time n s.endKey
  let k0 := ks (endKey - 1)
  let k1 := ks endKey
  let mix := (s.time - k0.time) / (k1.time - k0.time)
  let mid := midBound (bound k0.q) (bound k1.q) mix
  let b := absorb ks s.startKey (endKey - 1) (encapsulate s.bound mid)
  ((b, s.time - dt), ⟨s.time + dt, max s.startKey (endKey - 1), endKey, mid⟩)

/-- The loop over the divisions, libs/core/micropolygon.cpp:1717-1753. -/
def buildLoop (ks : Nat → Key) (n : Nat) (dt : ℚ) : Nat → BuildState → List (Bound × ℚ)
  | 0, _ => []
  | k + 1, s => let r := buildStep ks n dt s; r.1 :: buildLoop ks n dt k r.2

/-- The number of divisions, libs/core/micropolygon.cpp:1700-1707; `none`: the quotient is infinite or not a number, and
its conversion to an integer undefined. The integer part of the root of `x` is that of the integer part of `x`. -/
def divisions (ks : Nat → Key) (n timeRanges : Nat) : Option Nat :=
  let b := bound (ks 0).q
  let polyLen2 := (b.xMax - b.xMin) ^ 2 + (b.yMax - b.yMin) ^ 2
  let p := (ks 0).q.p0
  let p' := (ks (n - 1)).q.p0
  let moveDist2 := (p.x - p'.x) ^ 2 + (p.y - p'.y) ^ 2
  if polyLen2 = 0 then none else some (min (max 1 (Nat.sqrt ⌊moveDist2 / polyLen2⌋.toNat)) timeRanges)

/-- The bounds for `d` divisions, libs/core/micropolygon.cpp:1708-1753. -/
def bounds (ks : Nat → Key) (n d : Nat) (opentime closetime : ℚ) : List (Bound × ℚ) :=
  let dt := (closetime - opentime) / d
  buildLoop ks n dt d ⟨opentime + dt, 0, 1, bound (ks 0).q⟩

/-- `BuildBoundList`, libs/core/micropolygon.cpp:1689-1756; `none` also for a single key, where `m_Times[1]` is read. -/
def buildBoundList (ks : Nat → Key) (n timeRanges : Nat) (opentime closetime : ℚ) : Option (List (Bound × ℚ)) :=
  if n < 2 then none else (divisions ks n timeRanges).map fun d => bounds ks n d opentime closetime

/-! ## Sampling -/

/-- The loop `while ( time >= m_Times[ iIndex + 1 ] )`, libs/core/micropolygon.cpp:1786-1787; `fuel` is more than the
number of keys. -/
def findKey (ks : Nat → Key) (time : ℚ) : Nat → Nat → Nat
  | 0, i => i
  | fuel + 1, i => if time ≥ (ks (i + 1)).time then findKey ks time fuel (i + 1) else i

/-- `iIndex`, `Fraction` and `Exact`, libs/core/micropolygon.cpp:1774-1791. -/
def position (ks : Nat → Key) (n : Nat) (time : ℚ) : Nat × ℚ × Bool :=
  if time > (ks 0).time then
    if time ≥ (ks (n - 1)).time then (n - 1, 0, true)
    else
      let i := findKey ks time n 0
      (i, (time - (ks i).time) / ((ks (i + 1)).time - (ks i).time), decide ((ks i).time = time))
  else (0, 0, true)

/-- `( 1 - f ) * a + f * b`, libs/core/micropolygon.cpp:1805-1806, 1852-1855. -/
def mix (f a b : ℚ) : ℚ := (1 - f) * a + f * b

/-- The tight bound, libs/core/micropolygon.cpp:1795-1808. -/
def tightBound (ks : Nat → Key) (n : Nat) (time : ℚ) : Bound :=
  let (i, f, exact) := position ks n time
  let a := bound (ks i).q
  if exact then a
  else
    let b := bound (ks (i + 1)).q
    ⟨mix f a.xMin b.xMin, mix f a.yMin b.yMin, mix f a.xMax b.xMax, mix f a.yMax b.yMax⟩

/-- A point between two, libs/core/micropolygon.cpp:1852-1855. -/
def mixPoint (f : ℚ) (a b : P3) : P3 := ⟨mix f a.x b.x, mix f a.y b.y, mix f a.z b.z⟩

/-- The vertices at a time, libs/core/micropolygon.cpp:1839-1856. -/
def quadAt (ks : Nat → Key) (n : Nat) (time : ℚ) : Quad :=
  let (i, f, exact) := position ks n time
  let a := (ks i).q
  if exact then a
  else
    let b := (ks (i + 1)).q
    ⟨mixPoint f a.p0 b.p0, mixPoint f a.p1 b.p1, mixPoint f a.p2 b.p2, mixPoint f a.p3 b.p3⟩

/-- `CqMicroPolygonMotion::Sample` without depth of field, libs/core/micropolygon.cpp:1768-1875: the order of the vertices is
that of the first key (libs/core/micropolygon.cpp:1681-1684; micropolygon.h:889-893). -/
def sample (ks : Nat → Key) (n : Nat) (time x y : ℚ) : Bool :=
  (tightBound ks n time).contains x y && (fContains (edges (quadAt ks n time) (indexCode (ks 0).q)) 0 x y).1

/-- `isClose`, include/aqsis/math/math.h:174-182: the tolerance is ten times the epsilon of `float`. -/
def isClose (a b : ℚ) : Bool :=
  decide (|a - b| ≤ 10 / 2 ^ 23 * |a| ∨ |a - b| ≤ 10 / 2 ^ 23 * |b|)

/-- `indexT0` and `indexT1`, libs/core/bucketprocessor.cpp:1239-1247, 1273-1282. -/
def indices (numSamples : Nat) (opentime closetime time0 time1 : ℚ) : ℤ × ℤ :=
  if isClose closetime opentime then (0, numSamples)
  else
    let timePerSample := numSamples / (closetime - opentime)
    (max 0 ⌊(time0 - opentime) * timePerSample⌋, lceil ((time1 - opentime) * timePerSample))

/-- The pixels in one direction, libs/core/bucketprocessor.cpp:1336-1344. -/
def pixels (lo hi : ℚ) (rlo rhi : ℤ) : List ℤ :=
  upto (if ⌊lo⌋ < rlo then rlo else ⌊lo⌋) (if lceil hi > rhi then rhi else lceil hi)

/-- The sample region and the sample counts, libs/core/bucketprocessor.cpp:1234-1235, 1338-1344. -/
structure Region where
  x0 : ℤ
  x1 : ℤ
  y0 : ℤ
  y1 : ℤ
  xs : Nat
  ys : Nat

/-- A visit of a sample: bound, start and end of its time, pixel and index. -/
structure Visit where
  b : Bound
  time0 : ℚ
  time1 : ℚ
  px : ℤ
  py : ℤ
  index : ℤ

/-- The samples visited for one bound: a `do … while (index < indexT1)` in each of the pixels
(libs/core/bucketprocessor.cpp:1265-1283, 1336-1383, 1464). -/
def visitsOf (r : Region) (opentime closetime : ℚ) (b : Bound) (time0 time1 : ℚ) : List Visit :=
  if time1 < opentime ∨ time0 > closetime then []
  else
    let t := indices (r.xs * r.ys) opentime closetime time0 time1
    (pixels b.yMin b.yMax r.y0 r.y1).flatMap fun py => (pixels b.xMin b.xMax r.x0 r.x1).flatMap fun px =>
      (t.1 :: upto (t.1 + 1) t.2).map fun i => ⟨b, time0, time1, px, py, i⟩

/-- The loop over the bounds; each ends where the next one begins, the last at the close of the shutter
(libs/core/bucketprocessor.cpp:1253-1268). -/
def visits (r : Region) (opentime closetime : ℚ) : List (Bound × ℚ) → List Visit
  | [] => []
  | [(b, t)] => visitsOf r opentime closetime b t closetime
  | (b, t) :: (b', t') :: l => visitsOf r opentime closetime b t t' ++ visits r opentime closetime ((b', t') :: l)

/-- The tests of a visited sample, libs/core/bucketprocessor.cpp:1387-1390, 1432-1433, 1456-1462. -/
def Visit.test (v : Visit) (ks : Nat → Key) (n : Nat) (pos : ℤ → ℤ → ℤ → ℚ × ℚ) (tm : ℤ → ℤ → ℤ → ℚ) : Bool :=
  let t := tm v.px v.py v.index
  let p := pos v.px v.py v.index
  !(decide (t < v.time0) || decide (t > v.time1)) && v.b.contains p.1 p.2 && sample ks n t p.1 p.2

/-- `RenderMPG_MBOrDof` for a moving micropolygon without depth of field, libs/core/bucketprocessor.cpp:1221-1469, for given
bounds: the samples that `StoreSample` is called for. `none`: a sample is read outside of the array of a pixel. -/
def renderBounds (ks : Nat → Key) (n : Nat) (r : Region) (opentime closetime : ℚ) (pos : ℤ → ℤ → ℤ → ℚ × ℚ)
    (tm : ℤ → ℤ → ℤ → ℚ) (bs : List (Bound × ℚ)) : Option (List (ℤ × ℤ × ℤ)) :=
  let vs := visits r opentime closetime bs
  if vs.all fun v => decide (0 ≤ v.index ∧ v.index < (r.xs * r.ys : Nat)) then
    some ((vs.filter fun v => v.test ks n pos tm).map fun v => (v.px, v.py, v.index))
  else none

/-- The whole, with `timeRanges` as at libs/core/bucketprocessor.cpp:1249-1250. -/
def renderMotion (ks : Nat → Key) (n : Nat) (r : Region) (opentime closetime : ℚ) (pos : ℤ → ℤ → ℤ → ℚ × ℚ)
    (tm : ℤ → ℤ → ℤ → ℚ) : Option (List (ℤ × ℤ × ℤ)) :=
  (buildBoundList ks n (max 4 (r.xs * r.ys)) opentime closetime).bind
    (renderBounds ks n r opentime closetime pos tm)

/-- `indexT1` of the last bound as computed with rounding, libs/core/bucketprocessor.cpp:1246, 1281: `fl` rounds to `float`. -/
def lastIndexRounded (fl : ℚ → ℚ) (numSamples : Nat) (opentime closetime : ℚ) : ℤ :=
  let timePerSample := fl (numSamples / fl (closetime - opentime))
  lceil (fl (fl (closetime - opentime) * timePerSample))

end Verif.Core.Motion
