import Mathlib.Analysis.SpecialFunctions.Exp
import Mathlib.Analysis.SpecialFunctions.Pow.Real
import Mathlib.Analysis.Real.Pi.Bounds

/-!
# Elliptically weighted average filters

libs/tex/filtering/ewafilter.h, ewafilter.cpp, include/aqsis/math/matrix2d.h: the filter a texture is
sampled with, a Gaussian that is cut off at an ellipse.

Simplifications: numbers of type `TqFloat` are real numbers; `lfloor` and `lceil`
(include/aqsis/math/math.h:46-64) are floor and ceiling.
-/

namespace Verif.Tex.Ewa

open Real

/-- `SqMatrix2D`, include/aqsis/math/matrix2d.h:46-59: rows `a b` and `c d`. -/
@[ext] structure M2 where
  a : ℝ
  b : ℝ
  c : ℝ
  d : ℝ

/-- The constructor of diagonal matrices, include/aqsis/math/matrix2d.h:137-139. -/
def M2.diag (a d : ℝ) : M2 := ⟨a, 0, 0, d⟩

/-- `operator+`, include/aqsis/math/matrix2d.h:145-148, and `operator+=`, 157-164. -/
def M2.add (m n : M2) : M2 := ⟨m.a + n.a, m.b + n.b, m.c + n.c, m.d + n.d⟩

/-- `operator*` of two matrices, include/aqsis/math/matrix2d.h:167-173. -/
def M2.mul (m n : M2) : M2 :=
  ⟨m.a * n.a + m.b * n.c, m.a * n.b + m.b * n.d, m.c * n.a + m.d * n.c, m.c * n.b + m.d * n.d⟩

/-- `operator*` with a number, include/aqsis/math/matrix2d.h:174-181. -/
def M2.smul (k : ℝ) (m : M2) : M2 := ⟨m.a * k, m.b * k, m.c * k, m.d * k⟩

/-- `det`, include/aqsis/math/matrix2d.h:194-197. -/
def M2.det (m : M2) : ℝ := m.a * m.d - m.b * m.c

/-- `transpose`, include/aqsis/math/matrix2d.h:198-201. -/
def M2.tr (m : M2) : M2 := ⟨m.a, m.c, m.b, m.d⟩

/-- `inv`, include/aqsis/math/matrix2d.h:184-193 without the assertion, so that a singular matrix
gives the identity. -/
noncomputable def M2.inv (m : M2) : M2 :=
  if m.det ≠ 0 then ⟨m.d / m.det, -m.b / m.det, -m.c / m.det, m.a / m.det⟩ else M2.diag 1 1

/-- `eigenvalues`, include/aqsis/math/matrix2d.h:203-221, without the assertion. -/
noncomputable def M2.eigenvalues (m : M2) : ℝ × ℝ :=
  let first := (m.a + m.d) * 0.5
  let second := (m.a - m.d) * (m.a - m.d) + 4 * m.c * m.b
  let second := if second < 0 then 0 else second
  let second := √second * 0.5
  (first + second, first - second)

/-- `orthogDiagonalize`, include/aqsis/math/matrix2d.h:223-256, without the assertion. -/
noncomputable def M2.orthogDiagonalize (m : M2) (l1 l2 : ℝ) : M2 :=
  if l1 = l2 then ⟨1, 0, 0, 1⟩
  else
    let u1 := m.b
    let u2 := l1 - m.a
    let uLen2 := u1 * u1 + u2 * u2
    let v1 := l1 - m.d
    let v2 := m.c
    let vLen2 := v1 * v1 + v2 * v2
    let w := if vLen2 > uLen2 then (v1, v2, vLen2) else (u1, u2, uLen2)
    let inv := 1 / √w.2.2
    ⟨w.1 * inv, -(w.2.1 * inv), w.2.1 * inv, w.1 * inv⟩

/-- `clampEccentricity`, libs/tex/filtering/ewafilter.cpp:53-76: the new covariance and the width of
the minor axis. -/
noncomputable def clampEccentricity (cov : M2) (maxAspect logEdge : ℝ) : M2 × ℝ :=
  let e := cov.eigenvalues
  if maxAspect * maxAspect * e.2 < e.1 then
    let r := cov.orthogDiagonalize e.1 e.2
    let e2 := e.1 / (maxAspect * maxAspect)
    ((r.mul (M2.diag e.1 e2)).mul r.tr, √(8 * e2 * logEdge))
  else (cov, √(8 * e.2 * logEdge))

/-- `reconsVar` and `prefilterVar`, libs/tex/filtering/ewafilter.cpp:106-109. -/
noncomputable def var0 : ℝ := 1.3 / (2 * π)

/-- `ewaBlurMatrix`, libs/tex/filtering/ewafilter.h:319-333. -/
noncomputable def blurMatrix (sBlur tBlur : ℝ) : M2 :=
  if sBlur > 0 ∨ tBlur > 0 then
    M2.diag (sBlur * 0.5 * (sBlur * 0.5)) (tBlur * 0.5 * (tBlur * 0.5))
  else M2.diag 0 0

/-- A vector, `CqVector2D`. -/
@[ext] structure V2 where
  x : ℝ
  y : ℝ

/-- `SqSamplePllgram`, include/aqsis/tex/filtering/samplequad.h:180-187. -/
@[ext] structure Pllgram where
  c : V2
  s1 : V2
  s2 : V2

/-- The covariance, libs/tex/filtering/ewafilter.cpp:93-136. -/
noncomputable def covariance (p : Pllgram) (resS resT : ℝ) (blur : M2) : M2 :=
  let invJ : M2 := ⟨p.s1.x, p.s2.x, p.s1.y, p.s2.y⟩
  let v := ((M2.smul var0 invJ).mul invJ.tr).add blur
  let v : M2 := ⟨v.a * (resS * resS), v.b * (resS * resT), v.c * (resS * resT), v.d * (resT * resT)⟩
  v.add (M2.diag var0 var0)

/-- `CqEwaFilterFactory`, libs/tex/filtering/ewafilter.h:255-262. -/
structure Factory where
  quad : M2
  center : V2
  logEdge : ℝ
  minorAxis : ℝ

/-- The constructor, libs/tex/filtering/ewafilter.h:299-317, with `computeFilter`,
ewafilter.cpp:87-142. -/
noncomputable def makeFactory (p : Pllgram) (resS resT : ℝ) (blur : M2) (logEdge maxAspect : ℝ) :
    Factory :=
  let r := clampEccentricity (covariance p resS resT blur) maxAspect logEdge
  ⟨M2.smul 0.5 r.1.inv, ⟨p.c.x * resS - 0.5, p.c.y * resT - 0.5⟩, logEdge, r.2⟩

/-- `CqEwaFilter`, libs/tex/filtering/ewafilter.h:99-105. -/
structure Filter where
  quad : M2
  center : V2
  logEdge : ℝ

/-- `createFilter`, libs/tex/filtering/ewafilter.h:335-355. -/
noncomputable def Factory.createFilter (f : Factory) (xScale xOff yScale yOff : ℝ) : Filter :=
  if xScale = 1 ∧ yScale = 1 ∧ xOff = 0 ∧ yOff = 0 then ⟨f.quad, f.center, f.logEdge⟩
  else
    let ix := 1 / xScale
    let iy := 1 / yScale
    ⟨⟨ix * ix * f.quad.a, ix * iy * f.quad.b, ix * iy * f.quad.c, iy * iy * f.quad.d⟩,
      ⟨xScale * (f.center.x + xOff), yScale * (f.center.y + yOff)⟩, f.logEdge⟩

/-- What a lookup in the table of the exponential function does: a value, a failed assertion or a
read outside of the table. -/
inductive Res where
  | ok (x : ℝ)
  | assertion
  | outside

/-- `CqNegExpTable`, libs/tex/filtering/ewafilter.h:371-413: the value at index `i`, if there is
one (384-395). -/
noncomputable def tableAt (numPoints : ℕ) (rangeMax : ℝ) (i : ℤ) : Option ℝ :=
  if 0 ≤ i ∧ i < numPoints then some (exp (-(i : ℝ) * (1 / (((numPoints : ℝ) - 1) / rangeMax))))
  else none

/-- The lookup, libs/tex/filtering/ewafilter.h:402-412. -/
noncomputable def tableLookup (numPoints : ℕ) (rangeMax : ℝ) (x : ℝ) : Res :=
  if x ≥ rangeMax then .ok 0
  else
    let xr := x * (((numPoints : ℝ) - 1) / rangeMax)
    let index := ⌊xr⌋
    if ¬ index ≥ 0 then .assertion
    else
      let interp := xr - index
      match tableAt numPoints rangeMax index, tableAt numPoints rangeMax (index + 1) with
      | some p, some q => .ok ((1 - interp) * p + interp * q)
      | _, _ => .outside

/-- `negExpTable`, libs/tex/filtering/ewafilter.cpp:83. -/
noncomputable def negExp (x : ℝ) : Res := tableLookup 20 6 x

/-- The quadratic form, libs/tex/filtering/ewafilter.h:430-434. -/
noncomputable def Filter.form (f : Filter) (x y : ℝ) : ℝ :=
  let x := x - f.center.x
  let y := y - f.center.y
  f.quad.a * x * x + (f.quad.b + f.quad.c) * x * y + f.quad.d * y * y

/-- `operator()`, libs/tex/filtering/ewafilter.h:428-442. -/
noncomputable def Filter.weight (f : Filter) (x y : ℝ) : Res :=
  if f.form x y < f.logEdge then negExp (f.form x y) else .ok 0

/-- `SqFilterSupport`: from the starts up to and without the ends,
include/aqsis/tex/buffers/filtersupport.h. -/
structure Supp where
  x0 : ℤ
  x1 : ℤ
  y0 : ℤ
  y1 : ℤ
  deriving DecidableEq

/-- The radii, libs/tex/filtering/ewafilter.h:446-449. -/
noncomputable def Filter.radii (f : Filter) : ℝ × ℝ :=
  (√(f.quad.d * f.logEdge / f.quad.det), √(f.quad.a * f.logEdge / f.quad.det))

/-- `support`, libs/tex/filtering/ewafilter.h:444-456. -/
noncomputable def Filter.support (f : Filter) : Supp :=
  ⟨⌈f.center.x - f.radii.1⌉, ⌊f.center.x + f.radii.1⌋ + 1,
    ⌈f.center.y - f.radii.2⌉, ⌊f.center.y + f.radii.2⌋ + 1⟩

end Verif.Tex.Ewa
