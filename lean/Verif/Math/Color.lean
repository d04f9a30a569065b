import Verif.Math.Matrix
import Mathlib.Algebra.Order.Floor.Ring
import Mathlib.LinearAlgebra.Matrix.Notation

/-!
# Model of the conversions between colour spaces

`/repo/libs/math/color.cpp` and `ctransform` of the shading language,
`/repo/libs/shadervm/shaderexecenv/shadeops_matrx.cpp`.

Simplification: numbers are elements of an ordered field with floors, not floats.
-/

namespace Verif.Math.Color

open Verif.Math.Matrix4

/-- A colour, include/aqsis/math/color.h:304-308. -/
structure Col (K : Type) where
  r : K
  g : K
  b : K
  deriving DecidableEq, Repr

/-- Outcomes: a value, or an assertion that fails. -/
inductive Res (α : Type) where
  | ok (a : α)
  | assertion
  deriving DecidableEq, Repr

/-- Sequencing of outcomes. -/
def Res.bind {α β : Type} : Res α → (α → Res β) → Res β
  | .ok a, f => f a
  | .assertion, _ => .assertion

variable {K : Type} [Field K] [LinearOrder K] [FloorRing K]

/-- `lfloor`, include/aqsis/math/math.h:46-50. -/
def lfloor (x : K) : ℤ :=
  let t := if 0 ≤ x then ⌊x⌋ else ⌈x⌉
  t - if x < 0 ∧ x ≠ (t : K) then 1 else 0

/-- The hue in degrees of a colour that is not grey, libs/math/color.cpp:65-78 and 110-124. -/
def hue (c : Col K) (maxComp diff : K) : K :=
  let rDist := (maxComp - c.r) / diff
  let gDist := (maxComp - c.g) / diff
  let bDist := (maxComp - c.b) / diff
  let h := if c.r = maxComp then bDist - gDist
    else if c.g = maxComp then 2 + rDist - bDist
    else 4 + gDist - rDist
  let h := h * 60
  if h < 0 then h + 360 else h

/-- `rgbtohsv`, libs/math/color.cpp:43-82; a hue that is undefined is -1 degree. -/
def rgbToHsv (c : Col K) : Col K :=
  let maxComp := max (max c.r c.g) c.b
  let minComp := min (min c.r c.g) c.b
  let diff := maxComp - minComp
  let s := if maxComp ≠ 0 then diff / maxComp else 0
  let h := if s = 0 then -1 else hue c maxComp diff
  ⟨h / 360, s, maxComp⟩

/-- `rgbtohsl`, libs/math/color.cpp:84-128. -/
def rgbToHsl (c : Col K) : Col K :=
  let maxComp := max (max c.r c.g) c.b
  let minComp := min (min c.r c.g) c.b
  let diff := maxComp - minComp
  let l := (maxComp + minComp) / 2
  if |diff| ≤ 1 / 10000000 then ⟨-1 / 360, 0, 0⟩
  else
    let s := if l < 1 / 2 then diff / (maxComp + minComp) else diff / (2 - maxComp - minComp)
    ⟨hue c maxComp diff / 360, s, l⟩

/-- The six cases at libs/math/color.cpp:171-203. -/
def sector (i : ℤ) (v p q t : K) : Col K :=
  if i = 0 then ⟨v, t, p⟩
  else if i = 1 then ⟨q, v, p⟩
  else if i = 2 then ⟨p, v, t⟩
  else if i = 3 then ⟨p, q, v⟩
  else if i = 4 then ⟨t, p, v⟩
  else if i = 5 then ⟨v, p, q⟩
  else ⟨0, 0, 0⟩

/-- `hsvtorgb`, libs/math/color.cpp:151-207. -/
def hsvToRgb (c : Col K) : Res (Col K) :=
  let h := c.r * 360
  let s := c.g
  let v := c.b
  if s = 0 then
    if h < 0 then .ok ⟨v, v, v⟩ else .assertion
  else
    let h := if h = 360 then 0 else h
    let h := h / 60
    let i := lfloor h
    let f := h - i
    .ok (sector i v (v * (1 - s)) (v * (1 - s * f)) (v * (1 - s * (1 - f))))

/-- `HSLValue`, libs/math/color.cpp:210-229. -/
def hslValue (n1 n2 hue : K) : K :=
  let hue := if hue > 360 then hue - 360 else if hue < 0 then hue + 360 else hue
  if hue < 60 then n1 + (n2 - n1) * hue / 60
  else if hue < 180 then n2
  else if hue < 240 then n1 + (n2 - n1) * (240 - hue) / 60
  else n1

/-- `hsltorgb`, libs/math/color.cpp:231-256. -/
def hslToRgb (c : Col K) : Res (Col K) :=
  let h := c.r * 360
  let s := c.g
  let l := c.b
  let m2 := if l ≤ 1 / 2 then l * (1 + s) else l + s - l * s
  let m1 := 2 * l - m2
  if s = 0 then
    if c.r < 0 then .ok ⟨l, l, l⟩ else .assertion
  else .ok ⟨hslValue m1 m2 (h + 120), hslValue m1 m2 h, hslValue m1 m2 (h - 120)⟩

/-- `matRGBtoYIQ`, libs/math/color.cpp:143-146. -/
def matRgbToYiq : Mat K :=
  ⟨!![299 / 1000, 587 / 1000, 114 / 1000, 0;
      596 / 1000, -274 / 1000, -322 / 1000, 0;
      212 / 1000, -523 / 1000, 311 / 1000, 0;
      0, 0, 0, 1], false⟩

/-- `matYIQtoRGB`, libs/math/color.cpp:272-275. -/
def matYiqToRgb : Mat K :=
  ⟨!![1, 956 / 1000, 621 / 1000, 0;
      1, -272 / 1000, -647 / 1000, 0;
      1, -1105 / 1000, 1702 / 1000, 0;
      0, 0, 0, 1], false⟩

/-- A matrix times a colour, libs/math/color.cpp:148 and 277: the product is the one of points,
include/aqsis/math/matrix.h:717-750, which has the vector on the left. -/
def times (m : Mat K) (c : Col K) : Res (Col K) :=
  match apply3 m ![c.r, c.g, c.b] with
  | none => .assertion
  | some v => .ok ⟨v 0, v 1, v 2⟩

/-- `rgbtoYIQ`, libs/math/color.cpp:141-149. -/
def rgbToYiq (c : Col K) : Res (Col K) := times matRgbToYiq c

/-- `YIQtorgb`, libs/math/color.cpp:270-278. -/
def yiqToRgb (c : Col K) : Res (Col K) := times matYiqToRgb c

/-- `rgbtoXYZ`, `rgbtoxyY`, `XYZtorgb`, `xyYtorgb`, libs/math/color.cpp:130-139 and 258-268. -/
def notImplemented (_ : Col K) : Res (Col K) := .assertion

/-- The first step of `ctransform`,
libs/shadervm/shaderexecenv/shadeops_matrx.cpp:726-730. -/
def fromSpace (name : String) (c : Col K) : Res (Col K) :=
  if name = "hsv" then hsvToRgb c
  else if name = "hsl" then hslToRgb c
  else if name = "XYZ" then notImplemented c
  else if name = "xyY" then notImplemented c
  else if name = "YIQ" then yiqToRgb c
  else .ok c

/-- The second step of `ctransform`,
libs/shadervm/shaderexecenv/shadeops_matrx.cpp:732-736. -/
def toSpace (name : String) (c : Col K) : Res (Col K) :=
  if name = "hsv" then .ok (rgbToHsv c)
  else if name = "hsl" then .ok (rgbToHsl c)
  else if name = "XYZ" then notImplemented c
  else if name = "xyY" then notImplemented c
  else if name = "YIQ" then rgbToYiq c
  else .ok c

/-- `SO_ctransform` at one point, libs/shadervm/shaderexecenv/shadeops_matrx.cpp:712-736; without a
first space it is `rgb`. -/
def ctransform (source : Option String) (target : String) (c : Col K) : Res (Col K) :=
  (fromSpace (source.getD "rgb") c).bind (toSpace target)

end Verif.Math.Color
