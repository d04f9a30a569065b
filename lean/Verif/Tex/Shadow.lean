import Verif.Math.Matrix
import Verif.Tex.Env

/-!
# Views of shadow maps

Model of `CqShadowSampler` (libs/tex/filtering/shadowsampler.cpp:95-326) and of the approximations of depths
(libs/tex/filtering/depthapprox.h:53-128). The pixels looked at are in `Verif.Tex.Stoch`, the comparison of depths in
`Verif.Tex.Accum`, the filter in `Verif.Tex.Ewa`.

Simplifications: numbers of type `TqFloat` are real numbers; files are not modelled, a view begins with its two matrices.
-/

namespace Verif.Tex.Shadow

open Verif.Math.Matrix4 Verif.Tex.Ewa Verif.Tex.Env

/-- A point or vector, `CqVector3D`, include/aqsis/math/vector3d.h:43-176. -/
abbrev V3 : Type := Fin 3 → ℝ

/-- `CqVector3D::Unit`, include/aqsis/math/vector3d.h:354-365. -/
noncomputable def unit (v : V3) : V3 :=
  let length := Real.sqrt (dot v v)
  if length ≠ 0 then fun j => v j / length else v

/-- The members of a view that choose it, libs/tex/filtering/shadowsampler.cpp:107-118. -/
structure View where
  viewDirec : V3
  lightPos : V3

/-- `currToLightVec`, libs/tex/filtering/shadowsampler.cpp:186-189. The elements are changed through a pointer: the flag stays. -/
def withoutTranslation (a : Mat ℝ) : Mat ℝ :=
  ⟨fun i j => if i = 3 ∧ (j = 0 ∨ j = 1 ∨ j = 2) then 0 else a.m i j, a.ident⟩

/-- The constructor of a view, libs/tex/filtering/shadowsampler.cpp:158, 179-191; `none`: there is no inverse, or an assertion
fails. -/
noncomputable def view (worldToLight currToWorld : Mat ℝ) : Option View :=
  let currToLight := mul worldToLight currToWorld
  match inverse currToLight with
  | none => none
  | some inv =>
    match apply3 inv ![0, 0, 0], apply3 (transpose (withoutTranslation currToLight)) ![0, 0, 1] with
    | some p, some d => some ⟨unit d, p⟩
    | _, _ => none

/-- `weight`, libs/tex/filtering/shadowsampler.cpp:203-206. -/
noncomputable def View.weight (v : View) (P : V3) : ℝ := dot v.viewDirec (fun j => P j - v.lightPos j)

/-- The loop that looks for a view, libs/tex/filtering/shadowsampler.cpp:312-322: the index of the best one and its weight, from view
number `k` on. -/
noncomputable def best (P : V3) : List View → Nat → Nat → ℝ → Nat
  | [], _, sel, _ => sel
  | v :: vs, k, sel, maxWeight =>
    if v.weight P > maxWeight then best P vs (k + 1) k (v.weight P) else best P vs (k + 1) sel maxWeight

/-- The view of a point, libs/tex/filtering/shadowsampler.cpp:301-323. -/
noncomputable def choose (maps : List View) (P : V3) : Nat := if maps.length > 1 then best P maps 0 0 0 else 0

/-- `m_currToRaster`, libs/tex/filtering/shadowsampler.cpp:169-177, with `Translate` and `Scale` of
include/aqsis/math/matrix.h:541-551. -/
noncomputable def currToRaster (worldToScreen currToWorld : Mat ℝ) : Mat ℝ :=
  preMul (preMul (mul worldToScreen currToWorld) (translateMat ![1, -1, 0])) (scaleMat (1 / 2) (-1 / 2) 1)

/-- `Sq3DSampleQuad`, include/aqsis/tex/filtering/samplequad.h:125-131. -/
structure Quad3 where
  v1 : V3
  v2 : V3
  v3 : V3
  v4 : V3

/-- `center`, include/aqsis/tex/filtering/samplequad.h:294-297. -/
noncomputable def Quad3.center (q : Quad3) : V3 := fun j => 0.25 * (q.v1 j + q.v2 j + q.v3 j + q.v4 j)

/-- `transform`, include/aqsis/tex/filtering/samplequad.h:333-339. -/
noncomputable def Quad3.transform (a : Mat ℝ) (q : Quad3) : Option Quad3 :=
  match apply3 a q.v1, apply3 a q.v2, apply3 a q.v3, apply3 a q.v4 with
  | some a, some b, some c, some d => some ⟨a, b, c, d⟩
  | _, _, _, _ => none

/-- The copy without the third coordinates, include/aqsis/tex/filtering/samplequad.h:247-252. -/
def Quad3.flat (q : Quad3) : Quad :=
  ⟨⟨q.v1 0, q.v1 1⟩, ⟨q.v2 0, q.v2 1⟩, ⟨q.v3 0, q.v3 1⟩, ⟨q.v4 0, q.v4 1⟩⟩

/-- `copy2DCoords`, include/aqsis/tex/filtering/samplequad.h:299-309. -/
def Quad3.copy2DCoords (q : Quad3) (t : Quad) : Quad3 :=
  ⟨![t.v1.x, t.v1.y, q.v1 2], ![t.v2.x, t.v2.y, q.v2 2], ![t.v3.x, t.v3.y, q.v3 2], ![t.v4.x, t.v4.y, q.v4 2]⟩

/-- A depth for each pixel: the members of `CqSampleQuadDepthApprox`, libs/tex/filtering/depthapprox.h:57-59. -/
structure Approx where
  xMult : ℝ
  yMult : ℝ
  z0 : ℝ

/-- The constructor of `CqSampleQuadDepthApprox`, libs/tex/filtering/depthapprox.h:70-98. -/
noncomputable def approx (q : Quad3) (w h : ℝ) : Approx :=
  let n := cross (fun j => q.v4 j - q.v1 j) (fun j => q.v3 j - q.v2 j)
  let c : V3 := fun j => q.center j + ![-0.5 / w, -0.5 / h, 0] j
  if n 2 ≠ 0 then ⟨-n 0 / (n 2 * w), -n 1 / (n 2 * h), dot n c / n 2⟩ else ⟨0, 0, c 2⟩

/-- Its value at a pixel, libs/tex/filtering/depthapprox.h:100-103. -/
noncomputable def Approx.at' (a : Approx) (x y : ℝ) : ℝ := a.z0 + a.xMult * x + a.yMult * y

/-- The depth that is compared with the map's at a pixel, libs/tex/filtering/shadowsampler.cpp:221-230, 251-266; with
`CqConstDepthApprox`, libs/tex/filtering/depthapprox.h:116-128. -/
noncomputable def depthAt (constant : Bool) (currToLight toRaster : Mat ℝ) (sWidth tWidth w h : ℝ) (q : Quad3) (x y : ℝ) :
    Option ℝ :=
  match q.transform currToLight, q.transform toRaster with
  | some light, some raster =>
    if constant then some (light.center 2)
    else some ((approx (light.copy2DCoords (raster.flat.scaleWidth sWidth tWidth)) w h).at' x y)
  | _, _ => none

end Verif.Tex.Shadow
