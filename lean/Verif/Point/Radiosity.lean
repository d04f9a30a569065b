import Mathlib.Data.Real.Basic
import Mathlib.Data.Fin.VecNotation

/-!
The sums of light in the cubes of small pictures, libs/pointrender/RadiosityIntegrator.cpp.

Simplifications: exact numbers instead of floats. Each pixel is taken by itself; the product of its direction with the normal and its
size are given (they are in `Verif.Point.MicroBuf`).
-/

namespace Verif.Point.Radiosity

/-- Colours. -/
abbrev Col := Fin 3 → ℝ

/-- A pixel: distance, coverage and radiosity, libs/pointrender/RadiosityIntegrator.h:54-62. -/
structure Pixel where
  dist : ℝ
  cover : ℝ
  rad : Col

/-- `defaultPixel`, libs/pointrender/RadiosityIntegrator.h:58-62; `far` is `FLT_MAX`. -/
def start (far : ℝ) : Pixel := ⟨far, 0, fun _ => 0⟩

/-- A sample: its distance, its coverage and the radiosity set before, libs/pointrender/RadiosityIntegrator.cpp:77, 100-102. -/
structure Sample where
  dist : ℝ
  cover : ℝ
  rad : Col

open Classical in
/-- `addSample`, libs/pointrender/RadiosityIntegrator.cpp:77-94. -/
noncomputable def addSample (p : Pixel) (s : Sample) : Pixel :=
  let p := if s.dist < p.dist then { p with dist := s.dist } else p
  if p.cover < 1 then
    if p.cover + s.cover ≤ 1 then { p with rad := fun k => p.rad k + s.cover * s.rad k, cover := p.cover + s.cover }
    else { p with rad := fun k => p.rad k + (1 - p.cover) * s.rad k, cover := 1 }
  else p

/-- All samples of a pixel in order. -/
noncomputable def addAll (far : ℝ) (l : List Sample) : Pixel := l.foldl addSample (start far)

/-- A pixel with the product of its direction with the normal, and its size. -/
structure Pix where
  cosine : ℝ
  size : ℝ
  pixel : Pixel

/-- `rad`, `occ` and `totWeight`. -/
structure Sums where
  rad : Col
  occ : ℝ
  weight : ℝ

open Classical in
/-- The body of the loop, libs/pointrender/RadiosityIntegrator.cpp:116-123. -/
noncomputable def body (c : ℝ) (s : Sums) (x : Pix) : Sums :=
  let d := x.cosine - c
  if d > 0 then
    let d := d * x.size
    ⟨fun k => s.rad k + d * x.pixel.rad k, s.occ + d * x.pixel.cover, s.weight + d⟩
  else s

open Classical in
/-- `radiosity`, libs/pointrender/RadiosityIntegrator.cpp:104-133: the light and the occlusion. -/
noncomputable def radiosity (c : ℝ) (l : List Pix) : Col × ℝ :=
  let s := l.foldl (body c) ⟨fun _ => 0, 0, 0⟩
  if s.weight ≠ 0 then (fun k => 1 / s.weight * s.rad k, s.occ / s.weight) else (s.rad, s.occ)

end Verif.Point.Radiosity
