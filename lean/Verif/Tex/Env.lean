import Verif.Tex.Ewa
import Mathlib.Analysis.SpecialFunctions.Complex.Arg
import Mathlib.Analysis.SpecialFunctions.Trigonometric.Inverse

/-!
# Regions of textures and of environment maps

include/aqsis/tex/filtering/samplequad.h, libs/tex/filtering/texturesampler.h,
libs/tex/filtering/cubeenvironmentsampler.h, libs/tex/filtering/latlongenvironmentsampler.h: the
regions a texture is filtered over, and the way from directions to coordinates of textures.

Simplifications: numbers of type `TqFloat` are real numbers.
-/

namespace Verif.Tex.Env

open Verif.Tex.Ewa

/-- `CqVector2D::operator+`. -/
def add2 (u v : V2) : V2 := ⟨u.x + v.x, u.y + v.y⟩

/-- `CqVector2D::operator-`. -/
def sub2 (u v : V2) : V2 := ⟨u.x - v.x, u.y - v.y⟩

/-- The product of a number and a `CqVector2D`. -/
def mul2 (k : ℝ) (u : V2) : V2 := ⟨k * u.x, k * u.y⟩

/-- `SqSampleQuad`, include/aqsis/tex/filtering/samplequad.h:69-75. -/
@[ext] structure Quad where
  v1 : V2
  v2 : V2
  v3 : V2
  v4 : V2

/-- `SqSampleQuad::center`, include/aqsis/tex/filtering/samplequad.h:271-274. -/
noncomputable def Quad.center (q : Quad) : V2 :=
  mul2 0.25 (add2 (add2 (add2 q.v1 q.v2) q.v3) q.v4)

/-- `SqSampleQuad::remapPeriodic`, include/aqsis/tex/filtering/samplequad.h:254-269. -/
noncomputable def Quad.remapPeriodic (q : Quad) (xPeriodic yPeriodic : Bool) : Quad :=
  if xPeriodic || yPeriodic then
    let x := if xPeriodic then min (min (min q.v1.x q.v2.x) q.v3.x) q.v4.x else 0
    let y := if yPeriodic then min (min (min q.v1.y q.v2.y) q.v3.y) q.v4.y else 0
    if x < 0 ∨ y < 0 ∨ x ≥ 1 ∨ y ≥ 1 then
      let v : V2 := ⟨⌊x⌋, ⌊y⌋⟩
      ⟨sub2 q.v1 v, sub2 q.v2 v, sub2 q.v3 v, sub2 q.v4 v⟩
    else q
  else q

/-- `SqSampleQuad::scaleWidth`, include/aqsis/tex/filtering/samplequad.h:311-330. -/
noncomputable def Quad.scaleWidth (q : Quad) (xWidth yWidth : ℝ) : Quad :=
  if xWidth ≠ 1 ∨ yWidth ≠ 1 then
    let c := q.center
    let cx := (1 - xWidth) * c.x
    let cy := (1 - yWidth) * c.y
    ⟨⟨xWidth * q.v1.x + cx, yWidth * q.v1.y + cy⟩, ⟨xWidth * q.v2.x + cx, yWidth * q.v2.y + cy⟩,
      ⟨xWidth * q.v3.x + cx, yWidth * q.v3.y + cy⟩, ⟨xWidth * q.v4.x + cx, yWidth * q.v4.y + cy⟩⟩
  else q

/-- The constructor of parallelograms from quadrilaterals,
include/aqsis/tex/filtering/samplequad.h:350-354. -/
noncomputable def ofQuad (q : Quad) : Pllgram :=
  ⟨q.center, mul2 0.5 (sub2 (add2 (sub2 q.v2 q.v1) q.v4) q.v3),
    mul2 0.5 (sub2 (add2 (sub2 q.v1 q.v3) q.v2) q.v4)⟩

/-- `SqSamplePllgram::remapPeriodic`, include/aqsis/tex/filtering/samplequad.h:356-366. -/
noncomputable def remapPeriodic (p : Pllgram) (xPeriodic yPeriodic : Bool) : Pllgram :=
  if xPeriodic || yPeriodic then
    if p.c.x < 0 ∨ p.c.y < 0 ∨ p.c.x ≥ 1 ∨ p.c.y ≥ 1 then
      { p with c := sub2 p.c ⟨⌊p.c.x⌋, ⌊p.c.y⌋⟩ }
    else p
  else p

/-- `SqSamplePllgram::scaleWidth`, include/aqsis/tex/filtering/samplequad.h:368-377: an assignment
after the other. -/
noncomputable def scaleWidth (p : Pllgram) (xWidth yWidth : ℝ) : Pllgram :=
  if xWidth ≠ 1 ∨ yWidth ≠ 1 then
    let p := { p with s1 := { p.s1 with x := p.s1.x * xWidth } }
    let p := { p with s1 := { p.s1 with y := p.s1.y * yWidth } }
    let p := { p with s2 := { p.s2 with x := p.s1.x * xWidth } }
    { p with s2 := { p.s2 with y := p.s1.y * yWidth } }
  else p

/-- The region `CqTextureSampler::sample` gives to the filter,
libs/tex/filtering/texturesampler.h:85-93. -/
noncomputable def textureRegion (p : Pllgram) (sWidth tWidth : ℝ) (sPeriodic tPeriodic : Bool) :
    Pllgram :=
  remapPeriodic (scaleWidth p sWidth tWidth) sPeriodic tPeriodic

/-- `CqVector3D`. -/
@[ext] structure V3 where
  x : ℝ
  y : ℝ
  z : ℝ

/-- `Sq3DSamplePllgram`, include/aqsis/tex/filtering/samplequad.h:216-223. -/
structure Pllgram3 where
  c : V3
  s1 : V3
  s2 : V3

/-- The variables of `CqCubeEnvironmentSampler::sample`,
libs/tex/filtering/cubeenvironmentsampler.h:119-131. -/
structure Cube where
  s : ℝ
  t : ℝ
  sScale : ℝ
  tScale : ℝ
  sOffset : ℝ
  tOffset : ℝ
  m11 : ℝ
  m12 : ℝ
  m13 : ℝ
  m21 : ℝ
  m22 : ℝ
  m23 : ℝ

/-- The choice of the face, libs/tex/filtering/cubeenvironmentsampler.h:133-198. -/
noncomputable def cubeFace (R : V3) : Cube :=
  if |R.x| ≥ |R.y| ∧ |R.x| ≥ |R.z| then
    let i := 1 / R.x
    let s := R.z * i
    let t := R.y * i
    { s := s, t := t, sScale := 1 * -1, tScale := if R.x < 0 then -1 * -1 else -1,
      sOffset := 1 / 6, tOffset := if R.x < 0 then 0.75 else 0.25,
      m11 := -s * i, m12 := 0, m13 := i, m21 := -t * i, m22 := i, m23 := 0 }
  else if |R.y| ≥ |R.x| ∧ |R.y| ≥ |R.z| then
    let i := 1 / R.y
    let s := R.x * i
    let t := R.z * i
    { s := s, t := t, sScale := if R.y < 0 then 1 * -1 else 1, tScale := -1 * -1,
      sOffset := 0.5, tOffset := if R.y < 0 then 0.75 else 0.25,
      m11 := i, m12 := -s * i, m13 := 0, m21 := 0, m22 := -t * i, m23 := i }
  else
    let i := 1 / R.z
    let s := R.x * i
    let t := R.y * i
    { s := s, t := t, sScale := 1, tScale := if R.z < 0 then -1 * -1 else -1,
      sOffset := 5 / 6, tOffset := if R.z < 0 then 0.75 else 0.25,
      m11 := i, m12 := 0, m13 := -s * i, m21 := 0, m22 := i, m23 := -t * i }

/-- The region on the texture, libs/tex/filtering/cubeenvironmentsampler.h:200-224. -/
noncomputable def cubeRegion (fovCotan : ℝ) (r : Pllgram3) : Pllgram :=
  let k := cubeFace r.c
  let sScale := k.sScale * (0.5 / 3 * fovCotan)
  let tScale := k.tScale * (0.5 / 2 * fovCotan)
  let m11 := k.m11 * sScale
  let m12 := k.m12 * sScale
  let m13 := k.m13 * sScale
  let m21 := k.m21 * tScale
  let m22 := k.m22 * tScale
  let m23 := k.m23 * tScale
  ⟨⟨k.s * sScale + k.sOffset, k.t * tScale + k.tOffset⟩,
    ⟨m11 * r.s1.x + m12 * r.s1.y + m13 * r.s1.z, m21 * r.s1.x + m22 * r.s1.y + m23 * r.s1.z⟩,
    ⟨m11 * r.s2.x + m12 * r.s2.y + m13 * r.s2.z, m21 * r.s2.x + m22 * r.s2.y + m23 * r.s2.z⟩⟩

/-- `blurVariance`, libs/tex/filtering/cubeenvironmentsampler.h:200-203 and 227-250. -/
noncomputable def cubeBlur (fovCotan : ℝ) (R : V3) (sBlur tBlur : ℝ) : M2 :=
  let k := cubeFace R
  let s1 := k.s * k.sScale
  let t1 := k.t * k.tScale
  let blurAmp := (sBlur + tBlur) * 0.25
  if blurAmp > 0 then
    M2.smul (blurAmp * blurAmp * fovCotan * fovCotan * (s1 * s1 + t1 * t1 + 1))
      ⟨s1 * s1 + 1, 1.5 * t1 * s1, 1.5 * t1 * s1, 2.25 * (t1 * t1 + 1)⟩
  else M2.diag 0 0

/-- `CqVector3D::Magnitude2`, include/aqsis/math/vector3d.h. -/
def mag2 (v : V3) : ℝ := v.x * v.x + v.y * v.y + v.z * v.z

/-- `directionToLatLong`, libs/tex/filtering/latlongenvironmentsampler.h:106-163: the region. -/
noncomputable def latLong (r : Pllgram3) : Pllgram :=
  let R := r.c
  let phi := 0.5 + (Complex.mk R.x R.y).arg * (1.0 / (2 * Real.pi))
  let R2 := mag2 R
  let RLen := √R2
  let theta := if R2 ≠ 0 then Real.arccos (R.z / RLen) * (1.0 / Real.pi) else 0
  let Rxy2 := R.x * R.x + R.y * R.y
  let RxyLen := √Rxy2
  let mult1 := 1 / (2 * Real.pi * Rxy2)
  let mult2 := 1 / (Real.pi * R2 * RxyLen)
  let m11 := if Rxy2 ≠ 0 then -R.y * mult1 else 0
  let m12 := if Rxy2 ≠ 0 then R.x * mult1 else 0
  let m21 := if Rxy2 ≠ 0 ∧ R2 ≠ 0 then R.x * R.z * mult2 else 0
  let m22 := if Rxy2 ≠ 0 ∧ R2 ≠ 0 then R.y * R.z * mult2 else 0
  let m23 := if Rxy2 ≠ 0 ∧ R2 ≠ 0 then (R.z * R.z - R2) * mult2 else 0
  ⟨⟨phi, theta⟩,
    ⟨m11 * r.s1.x + m12 * r.s1.y, m21 * r.s1.x + m22 * r.s1.y + m23 * r.s1.z⟩,
    ⟨m11 * r.s2.x + m12 * r.s2.y, m21 * r.s2.x + m22 * r.s2.y + m23 * r.s2.z⟩⟩

/-- The blur along `s`, libs/tex/filtering/latlongenvironmentsampler.h:149-151. -/
noncomputable def latLongSBlur (R : V3) (sBlur : ℝ) : ℝ :=
  sBlur * (√(mag2 R) / (√(R.x * R.x + R.y * R.y) + 0.0001))

/-- `blurVariance`, libs/tex/filtering/latlongenvironmentsampler.h:178-180. -/
noncomputable def latLongBlur (R : V3) (sBlur tBlur : ℝ) : M2 :=
  blurMatrix (latLongSBlur R sBlur) (2 * tBlur)

end Verif.Tex.Env
