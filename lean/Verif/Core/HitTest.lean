import Mathlib.Algebra.Order.Field.Rat
import Mathlib.Data.Rat.Floor

/-!
# Does a sample point hit a micropolygon?

Model of the test of a static micropolygon against a sample point, `CqMicroPolygon::ComputeVertexOrder`,
`cachePointInPolyTest`, `fContains` and `CalculateBound` (libs/core/micropolygon.cpp), the inverse of
bilinear interpolation (libs/core/bilinear.h), and of the choice of the sample points to be tested,
`CqBucketProcessor::RenderMPG_Static` (libs/core/bucketprocessor.cpp:1097-1209).

Simplifications: numbers are rational; trim curves, level of detail, depth of field and motion are left out.
-/

namespace Verif.Core.HitTest

/-- A point: raster coordinates and depth. `CqVector3D`, include/aqsis/math/vector3d.h:56. -/
structure P3 where
  x : ℚ
  y : ℚ
  z : ℚ
deriving DecidableEq, Repr

/-- The square of the distance, `( a - b ).Magnitude2()`. libs/core/micropolygon.cpp:1226, 1236, 1246, 1254. -/
def dist2 (a b : P3) : ℚ := (a.x - b.x) ^ 2 + (a.y - b.y) ^ 2 + (a.z - b.z) ^ 2

/-- The four vertices in the order of the grid: `P[0]` to `P[3]` (libs/core/micropolygon.cpp:1196-1205, 1401-1404). -/
structure Quad where
  p0 : P3
  p1 : P3
  p2 : P3
  p3 : P3
deriving DecidableEq, Repr

/-- Indexing the array `P`; only the last two bits of an index are ever used
(libs/core/micropolygon.cpp:1363-1366). -/
def Quad.at (q : Quad) (i : Nat) : P3 :=
  match i % 4 with
  | 0 => q.p0
  | 1 => q.p1
  | 2 => q.p2
  | _ => q.p3

/-- `Degeneracy_Mask`, libs/core/micropolygon.h:791. -/
def degeneracyMask : Nat := 0x8000000

/-- The codes A, B, C and D after the degenerate cases (libs/core/micropolygon.cpp:1219-1261); `none` is -1.
The indices into the grid follow the codes. -/
def codes (q : Quad) : Nat × Nat × Nat × Option Nat :=
  if dist2 (q.at 0) (q.at 1) < 1 / 10 ^ 8 then (0, 3, 2, none)
  else if dist2 (q.at 1) (q.at 3) < 1 / 10 ^ 8 then (0, 3, 2, none)
  else if dist2 (q.at 3) (q.at 2) < 1 / 10 ^ 8 then (0, 1, 2, none)
  else if dist2 (q.at 2) (q.at 0) < 1 / 10 ^ 8 then (0, 1, 3, none)
  else (0, 1, 3, some 2)

/-- `fFlip`, libs/core/micropolygon.cpp:1268. -/
def flip (a b c : P3) : Bool := decide ((a.x - b.x) * (b.y - c.y) ≥ (a.y - b.y) * (b.x - c.x))

/-- Packing the order of the points into `m_IndexCode`, libs/core/micropolygon.cpp:1270-1283. -/
def pack (f : Bool) (a b c : Nat) : Option Nat → Nat
  | none =>
    if f = false then (a &&& 3) ||| ((c &&& 3) <<< 2) ||| ((b &&& 3) <<< 4) ||| degeneracyMask
    else (a &&& 3) ||| ((b &&& 3) <<< 2) ||| ((c &&& 3) <<< 4) ||| degeneracyMask
  | some d =>
    if f = false then (a &&& 3) ||| ((d &&& 3) <<< 2) ||| ((c &&& 3) <<< 4) ||| ((b &&& 3) <<< 6)
    else (a &&& 3) ||| ((b &&& 3) <<< 2) ||| ((c &&& 3) <<< 4) ||| ((d &&& 3) <<< 6)

/-- `m_IndexCode` as set by `ComputeVertexOrder`, libs/core/micropolygon.cpp:1207-1284. -/
def indexCode (q : Quad) : Nat :=
  let k := codes q
  pack (flip (q.at k.1) (q.at k.2.1) (q.at k.2.2.1)) k.1 k.2.1 k.2.2.1 k.2.2.2

/-- The numbers cached for one edge: `m_YMultiplier`, `m_XMultiplier`, `m_X`, `m_Y`
(libs/core/micropolygon.h:528-532). -/
structure Edge where
  ym : ℚ
  xm : ℚ
  x : ℚ
  y : ℚ
deriving DecidableEq, Repr

/-- The edge from `a` to `b`, libs/core/micropolygon.cpp:1371-1374, 1384-1387. -/
def mkEdge (a b : P3) : Edge := ⟨b.x - a.x, b.y - a.y, a.x, a.y⟩

/-- The reordered points, libs/core/micropolygon.cpp:1362-1367. -/
def points (q : Quad) (code : Nat) (i : Nat) : P3 :=
  match i with
  | 0 => q.at ((code >>> 2) &&& 3)
  | 1 => q.at ((code >>> 4) &&& 3)
  | 2 => q.at ((code >>> 6) &&& 3)
  | _ => q.at (code &&& 3)

/-- The four edges, libs/core/micropolygon.cpp:1368-1389. -/
def edges (q : Quad) (code : Nat) (i : Nat) : Edge :=
  if code &&& degeneracyMask ≠ 0 ∧ 2 ≤ i then mkEdge (points q code 1) (points q code 3)
  else mkEdge (points q code (if i = 0 then 3 else i - 1)) (points q code i)

/-- The left side of the tests, libs/core/micropolygon.cpp:1315-1316. -/
def Edge.side (e : Edge) (x y : ℚ) : ℚ := (y - e.y) * e.ym - (x - e.x) * e.xm

/-- The loop of `fContains` with `n` rounds left: whether the point is inside, and the new `m_LastFailedEdge`
(libs/core/micropolygon.cpp:1306-1335, 1341). -/
def testLoop (E : Nat → Edge) (x y : ℚ) (last : Nat) : Nat → Nat → Bool × Nat
  | 0, _ => (true, last)
  | n + 1, e =>
    if e &&& 2 ≠ 0 then
      if (E e).side x y < 0 then (false, e) else testLoop E x y last n ((e + 1) &&& 3)
    else
      if (E e).side x y ≤ 0 then (false, e) else testLoop E x y last n ((e + 1) &&& 3)

/-- `fContains` without depth: libs/core/micropolygon.cpp:1295-1342. -/
def fContains (E : Nat → Edge) (last : Nat) (x y : ℚ) : Bool × Nat := testLoop E x y last 4 last

/-- Does the point hit the micropolygon (tested first)? libs/core/micropolygon.cpp:1391, 1591. -/
def hits (q : Quad) (x y : ℚ) : Bool := (fContains (edges q (indexCode q)) 0 x y).1

/-! ## Parameters and depth -/

/-- `CqInvBilinear` after `setVertices`: `m_A`, `m_E`, `m_F`, `m_G`, `m_linear`
(libs/core/bilinear.h:135-139). -/
structure InvBilinear where
  ax : ℚ
  ay : ℚ
  ex : ℚ
  ey : ℚ
  fx : ℚ
  fy : ℚ
  gx : ℚ
  gy : ℚ
  linear : Bool

/-- `maxNorm`, include/aqsis/math/vector2d.h:382-385 (the larger of the absolute values), as used at
libs/core/bilinear.h:271-272. -/
def maxNorm (x y : ℚ) : ℚ := max |x| |y|

/-- `setVertices`, libs/core/bilinear.h:260-275. -/
def setVertices (q : Quad) : InvBilinear :=
  let ex := q.p1.x - q.p0.x
  let ey := q.p1.y - q.p0.y
  let fx := q.p2.x - q.p0.x
  let fy := q.p2.y - q.p0.y
  let gx := -ex - q.p2.x + q.p3.x
  let gy := -ey - q.p2.y + q.p3.y
  { ax := q.p0.x, ay := q.p0.y, ex := ex, ey := ey, fx := fx, fy := fy, gx := gx, gy := gy
    linear := decide (maxNorm gx gy < 1 / 100 * max (maxNorm fx fy) (maxNorm ex ey)) }

/-- One step of Newton's method; `none`: division by zero in `solve<true>`
(libs/core/bilinear.h:282, 287, 298-310).  `safe` is `!unsafeInvert`. -/
def newton (b : InvBilinear) (safe : Bool) (u v x y : ℚ) : Option (ℚ × ℚ) :=
  let m1x := b.ex + b.gx * v
  let m1y := b.ey + b.gy * v
  let m2x := b.fx + b.gx * u
  let m2y := b.fy + b.gy * u
  let bx := b.ax + b.ex * u + b.fx * v + b.gx * u * v - x
  let by' := b.ay + b.ey * u + b.fy * v + b.gy * u * v - y
  let det := m1x * m2y - m1y * m2x
  if safe = false ∧ det = 0 then none
  else
    let det := if safe = false ∨ det ≠ 0 then 1 / det else det
    some (u - det * (bx * m2y - by' * m2x), v - det * -(bx * m1y - by' * m1x))

/-- `operator()`: libs/core/bilinear.h:277-290. -/
def toUV (b : InvBilinear) (x y : ℚ) : Option (ℚ × ℚ) :=
  (newton b false (1 / 2) (1 / 2) x y).bind fun uv =>
    if b.linear then some uv else newton b true uv.1 uv.2 x y

/-- `bilerp`, libs/core/bilinear.h:228-236. -/
def bilerp (a b c d u v : ℚ) : ℚ := (1 - v) * (1 - u) * a + (1 - v) * u * b + v * (1 - u) * c + v * u * d

/-- The depth at a hit, libs/core/micropolygon.cpp:1337-1339. -/
def depth (q : Quad) (x y : ℚ) : Option ℚ :=
  (toUV (setVertices q) x y).map fun uv => bilerp q.p0.z q.p1.z q.p2.z q.p3.z uv.1 uv.2

/-! ## The sample points that are tested -/

/-- A bound in the plane. `CqBound`, libs/core/bound.h:124-151. -/
structure Bound where
  xMin : ℚ
  yMin : ℚ
  xMax : ℚ
  yMax : ℚ

/-- `CalculateBound`, libs/core/micropolygon.cpp:1663-1673. -/
def bound (q : Quad) : Bound :=
  ⟨min (min (min q.p0.x q.p1.x) q.p3.x) q.p2.x, min (min (min q.p0.y q.p1.y) q.p3.y) q.p2.y,
   max (max (max q.p0.x q.p1.x) q.p3.x) q.p2.x, max (max (max q.p0.y q.p1.y) q.p3.y) q.p2.y⟩

/-- `Contains2D`, libs/core/bound.h:144-151. -/
def Bound.contains (b : Bound) (x y : ℚ) : Bool :=
  !(decide (x < b.xMin) || decide (x > b.xMax) || decide (y < b.yMin) || decide (y > b.yMax))

/-- A conversion to an integer: `static_cast<TqLong>`. include/aqsis/math/math.h:49, 61. -/
def trunc (x : ℚ) : ℤ := if 0 ≤ x then ⌊x⌋ else ⌈x⌉

/-- `lceil`, include/aqsis/math/math.h:58-62. -/
def lceil (x : ℚ) : ℤ := trunc x + (if x > 0 ∧ x ≠ trunc x then 1 else 0)

/-- Pixels and subpixels in one direction: first and end pixel, first subpixel of the first pixel and end
subpixel of the last one (libs/core/bucketprocessor.cpp:1120-1138), for a bound from `lo` to `hi`, a sample
region from `rlo` to `rhi` and `n` samples per pixel. -/
def span (lo hi : ℚ) (rlo rhi : ℤ) (n : Nat) : ℤ × ℤ × ℤ × ℤ :=
  let e := if lceil hi > rhi then rhi else lceil hi
  let s := if ⌊lo⌋ < rlo then rlo else ⌊lo⌋
  let i := if lo < s then 0 else ⌊(lo - s) * n⌋
  let em := if hi > e then (n : ℤ) else lceil ((hi - (e - 1 : ℤ)) * n)
  (s, e, i, em)

/-- The integers from `a` up to but not including `b`: a loop `for (; a < b; a++)`
(libs/core/bucketprocessor.cpp:1146, 1151, 1163, 1166). -/
def upto (a b : ℤ) : List ℤ := (List.range (b - a).toNat).map fun (k : Nat) => a + k

/-- The samples that are looked at, by pixel and index (libs/core/bucketprocessor.cpp:1142-1166, 1207). -/
def candidates (b : Bound) (rx0 rx1 ry0 ry1 : ℤ) (xs ys : Nat) : List (ℤ × ℤ × ℤ) :=
  let (sX, eX, im, em) := span b.xMin b.xMax rx0 rx1 xs
  let (sY, eY, in', en) := span b.yMin b.yMax ry0 ry1 ys
  if sX ≥ eX ∨ sY ≥ eY then []
  else
    (upto sY eY).flatMap fun iY => (upto sX eX).flatMap fun iX =>
      let n := if iY = sY then in' else 0
      let endN := if iY = eY - 1 then en else (ys : ℤ)
      let startM := if iX = sX then im else 0
      let endM := if iX = eX - 1 then em else (xs : ℤ)
      (upto n endN).flatMap fun n' => (upto startM endM).map fun m => (iX, iY, n' * xs + m)

/-- The loop of `RenderMPG_Static`: the samples with a hit, in the order of the test, which `StoreSample` is called
for; the state is the last failed edge (libs/core/bucketprocessor.cpp:1106-1107, 1163-1206). Culling by depth and
level of detail is left out (see `Verif.Core.Samples` for the former). -/
def renderLoop (E : Nat → Edge) (b : Bound) (pos : ℤ × ℤ × ℤ → ℚ × ℚ) : Nat → List (ℤ × ℤ × ℤ) → List (ℤ × ℤ × ℤ)
  | _, [] => []
  | last, s :: ss =>
    if b.contains (pos s).1 (pos s).2 = false then renderLoop E b pos last ss
    else
      let r := fContains E last (pos s).1 (pos s).2
      if r.1 then s :: renderLoop E b pos r.2 ss else renderLoop E b pos r.2 ss

/-- `RenderMPG_Static`, libs/core/bucketprocessor.cpp:1097-1209: the samples hit by the micropolygon. The sample
region has the pixels from `rx0` to `rx1` and from `ry0` to `ry1`. -/
def renderStatic (q : Quad) (rx0 rx1 ry0 ry1 : ℤ) (xs ys : Nat) (pos : ℤ × ℤ × ℤ → ℚ × ℚ) : List (ℤ × ℤ × ℤ) :=
  renderLoop (edges q (indexCode q)) (bound q) pos 0 (candidates (bound q) rx0 rx1 ry0 ry1 xs ys)

end Verif.Core.HitTest
