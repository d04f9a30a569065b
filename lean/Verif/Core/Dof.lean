import Verif.Core.Motion
import Mathlib.Analysis.Real.Sqrt

/-!
# Depth of field

Model of the lens positions (`CqImagePixel::projectToCircle`, libs/core/imagepixel.h:429-436), of the bounds of the cells
they come from (`CqBucketProcessor::CalculateDofBounds`, libs/core/bucketprocessor.cpp:858-913), of the circle of confusion
(libs/core/renderer.h:401-406; renderer.cpp:1602-1617), of the test of a sample (`CqMicroPolygon::Sample`,
libs/core/micropolygon.cpp:1531-1591) and of the choice of the samples (`CqBucketProcessor::RenderMPG_MBOrDof`,
libs/core/bucketprocessor.cpp:1221-1469) for a micropolygon that does not move.

Simplifications: lens positions and the bounds of the cells are real numbers, all others rational; the choice of the samples
takes the lens positions and the bounds as given (rational); level of detail, occlusion, trimming and triangular grids are
left out.
-/

namespace Verif.Core.Dof

open Verif.Core.HitTest Verif.Core.Motion

/-! ## Lens positions -/

/-- `projectToCircle`, libs/core/imagepixel.h:429-436. -/
noncomputable def projectToCircle (p : ℝ × ℝ) : ℝ × ℝ :=
  let r := √(p.1 ^ 2 + p.2 ^ 2)
  if r = 0 then (0, 0)
  else
    let adj := max |p.1| |p.2| / r
    (adj * p.1, adj * p.2)

/-- A bound in the plane. -/
structure RBound where
  xMin : ℝ
  yMin : ℝ
  xMax : ℝ
  yMax : ℝ

/-- `Encapsulate` of a point, libs/core/bound.cpp:151-158. -/
noncomputable def RBound.encapsulate (b : RBound) (p : ℝ × ℝ) : RBound :=
  ⟨min b.xMin p.1, min b.yMin p.2, max b.xMax p.1, max b.yMax p.2⟩

/-- The condition of the two tests for a cell around an axis, libs/core/bucketprocessor.cpp:884-885, 892-893. -/
def straddles (a b : ℝ) : Prop := (a > 0 ∧ b < 0) ∨ (a < 0 ∧ b > 0)

open Classical in
/-- The bound for one cell, libs/core/bucketprocessor.cpp:876-905. -/
noncomputable def cellBound (minX minY dx dy : ℝ) : RBound :=
  let topLeft := projectToCircle (minX, minY)
  let topRight := projectToCircle (minX + dx, minY)
  let bottomLeft := projectToCircle (minX, minY + dy)
  let bottomRight := projectToCircle (minX + dx, minY + dy)
  let sy := straddles topLeft.2 bottomLeft.2
  let topLeft := if sy then (minX, topLeft.2) else topLeft
  let bottomLeft := if sy then (minX, bottomLeft.2) else bottomLeft
  let topRight := if sy then (minX + dx, topRight.2) else topRight
  let bottomRight := if sy then (minX + dx, bottomRight.2) else bottomRight
  let sx := straddles topLeft.1 topRight.1
  let topLeft := if sx then (topLeft.1, minY) else topLeft
  let bottomLeft := if sx then (bottomLeft.1, minY + dy) else bottomLeft
  let topRight := if sx then (topRight.1, minY) else topRight
  let bottomRight := if sx then (bottomRight.1, minY + dy) else bottomRight
  (((⟨topLeft.1, topLeft.2, topLeft.1, topLeft.2⟩ : RBound).encapsulate topRight).encapsulate bottomLeft).encapsulate bottomRight

/-- `minX` in column `i` of `n`, `minY` in a row: libs/core/bucketprocessor.cpp:863-864, 869-870, 908, 910-911. -/
noncomputable def edge (n : Nat) : Nat → ℝ
  | 0 => -1
  | i + 1 => edge n i + 2 / n

/-- `m_DofBounds[which]`, libs/core/bucketprocessor.cpp:871-912. -/
noncomputable def dofBound (xs ys which : Nat) : RBound :=
  cellBound (edge xs (which % xs)) (edge ys (which / xs)) (2 / xs) (2 / ys)

/-! ## Circle of confusion -/

/-- `m_DofMultiplier`, `m_OneOverFocalDistance`, `m_DepthOfFieldScale` (libs/core/renderer.h:557-560). -/
structure Lens where
  mult : ℚ
  invFocal : ℚ
  sx : ℚ
  sy : ℚ

/-- `SetDepthOfFieldData`, libs/core/renderer.h:368-377, for a finite `fstop`. -/
def mkLens (fstop focalLength focalDistance sx sy : ℚ) : Lens :=
  let lensDiameter := focalLength / fstop
  ⟨1 / 2 * lensDiameter * focalDistance / (focalDistance + lensDiameter), 1 / focalDistance, sx, sy⟩

/-- `GetCircleOfConfusion`, libs/core/renderer.h:401-406. -/
def coc (l : Lens) (depth : ℚ) : ℚ × ℚ :=
  let c := l.mult * |1 / depth - l.invFocal|
  (l.sx * c, l.sy * c)

/-- `MinCoCForBound`, libs/core/renderer.cpp:1602-1617, for the depths of the bound. -/
def minCoc (l : Lens) (z1 z2 : ℚ) : ℚ :=
  let focalDist := 1 / l.invFocal
  if (z1 - focalDist) * (z2 - focalDist) < 0 then 0
  else l.mult * min l.sx l.sy * min |1 / z1 - l.invFocal| |1 / z2 - l.invFocal|

/-! ## The test of a sample -/

/-- `max` of two vectors, include/aqsis/math/vector2d.h:367-370. -/
def maxVec (a b : ℚ × ℚ) : ℚ × ℚ := (max a.1 b.1, max a.2 b.2)

/-- `min` of two vectors, include/aqsis/math/vector2d.h:362-365. -/
def minVec (a b : ℚ × ℚ) : ℚ × ℚ := (min a.1 b.1, min a.2 b.2)

/-- `cocMultMin` and `cocMultMax`, libs/core/micropolygon.cpp:1414-1422. -/
def cocRange (l : Lens) (q : Quad) : (ℚ × ℚ) × (ℚ × ℚ) :=
  (minVec (minVec (coc l q.p0.z) (coc l q.p1.z)) (minVec (coc l q.p2.z) (coc l q.p3.z)),
   maxVec (maxVec (coc l q.p0.z) (coc l q.p1.z)) (maxVec (coc l q.p2.z) (coc l q.p3.z)))

/-- `Intersects`, libs/core/bound.h:153-160. -/
def intersects (b : Bound) (lo hi : ℚ × ℚ) : Bool :=
  !(decide (lo.1 > b.xMax) || decide (lo.2 > b.yMax) || decide (hi.1 < b.xMin) || decide (hi.2 < b.yMin))

/-- `dofSampleInBound`, libs/core/micropolygon.cpp:1531-1550. -/
def dofSampleInBound (b : Bound) (range : (ℚ × ℚ) × (ℚ × ℚ)) (dof pos : ℚ × ℚ) : Bool :=
  let cocMin := (pos.1 + range.1.1 * dof.1, pos.2 + range.1.2 * dof.2)
  let cocMax := (pos.1 + range.2.1 * dof.1, pos.2 + range.2.2 * dof.2)
  let x := if dof.1 < 0 then (cocMax.1, cocMin.1) else (cocMin.1, cocMax.1)
  let y := if dof.2 < 0 then (cocMax.2, cocMin.2) else (cocMin.2, cocMax.2)
  intersects b (x.1, y.1) (x.2, y.2)

/-- A vertex moved against the lens position, libs/core/micropolygon.cpp:1581-1584. -/
def shift (l : Lens) (dof : ℚ × ℚ) (p : P3) : P3 := ⟨p.x - (coc l p.z).1 * dof.1, p.y - (coc l p.z).2 * dof.2, p.z⟩

/-- The micropolygon as seen from a lens position, libs/core/micropolygon.cpp:1577-1585. -/
def shifted (l : Lens) (dof : ℚ × ℚ) (q : Quad) : Quad := ⟨shift l dof q.p0, shift l dof q.p1, shift l dof q.p2, shift l dof q.p3⟩

/-- `CqMicroPolygon::Sample` with depth of field, libs/core/micropolygon.cpp:1561-1591; the vertices keep the order they have
without (micropolygon.cpp:1362-1367). -/
def sampleDof (l : Lens) (q : Quad) (dof pos : ℚ × ℚ) : Bool :=
  dofSampleInBound (bound q) (cocRange l q) dof pos &&
    (fContains (edges (shifted l dof q) (indexCode q)) 0 pos.1 pos.2).1

/-! ## The choice of the samples -/

/-- Least and greatest depth of a micropolygon. -/
def zMin (q : Quad) : ℚ := min (min (min q.p0.z q.p1.z) q.p2.z) q.p3.z
def zMax (q : Quad) : ℚ := max (max (max q.p0.z q.p1.z) q.p2.z) q.p3.z

/-- `maxCocX` and `maxCocY`, libs/core/bucketprocessor.cpp:1304-1307. -/
def maxCoc (l : Lens) (q : Quad) : ℚ × ℚ := maxVec (coc l (zMin q)) (coc l (zMax q))

/-- The bound moved for the lens positions of one cell, libs/core/bucketprocessor.cpp:1321-1330. -/
def shiftBound (b D : Bound) (c : ℚ × ℚ) : Bound :=
  ⟨b.xMin - D.xMax * c.1, b.yMin - D.yMax * c.2, b.xMax - D.xMin * c.1, b.yMax - D.yMin * c.2⟩

/-- The bound used to find the buckets of a micropolygon, libs/core/imagebuffer.cpp:520-530. -/
def expand (b : Bound) (c : ℚ × ℚ) : Bound := ⟨b.xMin - c.1, b.yMin - c.2, b.xMax + c.1, b.yMax + c.2⟩

/-- The samples of a pixel: the index of the sample for each cell of the lens (`m_DofOffsetIndices`), and the positions and
lens positions of the samples. -/
structure Samples where
  cell : ℤ → ℤ → Nat → Nat
  pos : ℤ → ℤ → Nat → ℚ × ℚ
  dof : ℤ → ℤ → Nat → ℚ × ℚ

/-- `RenderMPG_MBOrDof` for a micropolygon that does not move, with depth of field: the samples that `StoreSample` is called
for, in the order of the calls (libs/core/bucketprocessor.cpp:1302-1429, 1464). `D` are the bounds of the cells. -/
def renderDof (l : Lens) (q : Quad) (D : Nat → Bound) (r : Region) (s : Samples) : List (ℤ × ℤ × Nat) :=
  (List.range (r.xs * r.ys)).flatMap fun which =>
    let b := shiftBound (bound q) (D which) (maxCoc l q)
    (pixels b.yMin b.yMax r.y0 r.y1).flatMap fun py => (pixels b.xMin b.xMax r.x0 r.x1).filterMap fun px =>
      let i := s.cell px py which
      if b.contains (s.pos px py i).1 (s.pos px py i).2 && sampleDof l q (s.dof px py i) (s.pos px py i) then some (px, py, i)
      else none

end Verif.Core.Dof
