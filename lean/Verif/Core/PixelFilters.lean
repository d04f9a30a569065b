import Mathlib.Analysis.SpecialFunctions.Trigonometric.Bounds
import Mathlib.Analysis.SpecialFunctions.Exp

/-!
The filters of pixels, libs/core/filters.cpp.

Simplifications: exact numbers instead of floats; `j1` is given. The arguments are the place of a sample seen from the middle of the
pixel and the widths of the window.
-/

namespace Verif.Core.PixelFilters

/-- `RiGaussianFilter`, libs/core/filters.cpp:72-109. -/
noncomputable def gaussian (x y xw yw : ℝ) : ℝ :=
  let x := x / xw
  let y := y / yw
  Real.exp (-8 * (x * x + y * y))

open Classical in
/-- `CqMitchellFilter::Evaluate` of one number, libs/core/filters.cpp:50-59. -/
noncomputable def mitchell1 (B C x : ℝ) : ℝ :=
  let x := |2 * x|
  if x > 1 then ((-B - 6 * C) * x * x * x + (6 * B + 30 * C) * x * x + (-12 * B - 48 * C) * x + (8 * B + 24 * C)) * (1 / 6)
  else ((12 - 9 * B - 6 * C) * x * x * x + (-18 + 12 * B + 6 * C) * x * x + (6 - 2 * B)) * (1 / 6)

/-- `RiMitchellFilter`, libs/core/filters.cpp:117-122, with the constructor (40-46) and `Evaluate` (47-49). -/
noncomputable def mitchell (x y xw yw : ℝ) : ℝ :=
  let invX := 1 / xw
  let invY := 1 / yw
  mitchell1 (1 / 3) (1 / 3) (x * invX) * mitchell1 (1 / 3) (1 / 3) (y * invY)

open Classical in
/-- `RiBoxFilter`, libs/core/filters.cpp:129-141. -/
noncomputable def box (x y xw yw : ℝ) : ℝ :=
  min (if |x| ≤ xw / 2 then 1 else 0) (if |y| ≤ yw / 2 then 1 else 0)

open Classical in
/-- `RiTriangleFilter`, libs/core/filters.cpp:149-161. -/
noncomputable def triangle (x y xw yw : ℝ) : ℝ :=
  let hxw := xw / 2
  let hyw := yw / 2
  let absx := |x|
  let absy := |y|
  min (if absx ≤ hxw then (hxw - absx) / hxw else 0) (if absy ≤ hyw then (hyw - absy) / hyw else 0)

open Classical in
/-- `RiCatmullRomFilter`, libs/core/filters.cpp:169-225; the widths are not used. -/
noncomputable def catmullRom (x y _xw _yw : ℝ) : ℝ :=
  let r2 := x * x + y * y
  let r := Real.sqrt r2
  if r ≥ 2 then 0
  else if r < 1 then 3 * r * r2 - 5 * r2 + 2
  else -r * r2 + 5 * r2 - 8 * r + 4

open Classical in
/-- What `RiSincFilter` does with each number, libs/core/filters.cpp:254-271. -/
noncomputable def sinc1 (x w : ℝ) : ℝ :=
  if x ≠ 0 then
    let x := x * Real.pi
    Real.cos (0.5 * x / w) * Real.sin x / x
  else 1

/-- `RiSincFilter`, libs/core/filters.cpp:233-278. -/
noncomputable def sinc (x y xw yw : ℝ) : ℝ := sinc1 x xw * sinc1 y yw

open Classical in
/-- `RiDiskFilter`, libs/core/filters.cpp:286-304. -/
noncomputable def disk (x y xw yw : ℝ) : ℝ :=
  let xx := x * x
  let yy := y * y
  let xw := xw * 0.5
  let yw := yw * 0.5
  let d := xx / (xw * xw) + yy / (yw * yw)
  if d < 1 then 1 else 0

open Classical in
/-- `RiBesselFilter`, libs/core/filters.cpp:312-342. -/
noncomputable def bessel (j1 : ℝ → ℝ) (x y xw yw : ℝ) : ℝ :=
  let xx := x * x
  let yy := y * y
  let xw := xw * 0.5
  let yw := yw * 0.5
  let w := xx / (xw * xw) + yy / (yw * yw)
  if w < 1 then
    let d := Real.sqrt (xx + yy)
    if d ≠ 0 then
      let w := Real.cos (0.5 * Real.pi * Real.sqrt w)
      w * 2 * j1 (Real.pi * d) / d
    else Real.pi
  else 0

end Verif.Core.PixelFilters
