import Mathlib.Analysis.SpecialFunctions.Log.Base

/-!
# Choice of mipmap levels

libs/tex/filtering/mipmap.h: the level of a mipmap a filter is applied to, the mixture of two levels,
and the part of the support that is used on the last one.

Simplifications: numbers of type `TqFloat` are real numbers; `log2` (include/aqsis/math/math.h:156-160),
a product with a constant of 17 digits, is the logarithm to the base 2.
-/

namespace Verif.Tex.Level

/-- `EqMipmapLerp`, include/aqsis/tex/filtering/texturesampleoptions.h:83-91. -/
inductive Lerp where
  | never
  | always
  | auto
  deriving DecidableEq

/-- The options used here, include/aqsis/tex/filtering/texturesampleoptions.h:196-206 and 288. -/
structure Opts where
  minWidth : ℝ
  sBlur : ℝ
  tBlur : ℝ
  lerp : Lerp

/-- `clamp`, include/aqsis/math/math.h:99-104. -/
noncomputable def clampR (x lo hi : ℝ) : ℝ := if x < lo then lo else if x > hi then hi else x

/-- `clamp` of integers, include/aqsis/math/math.h:99-104. -/
def clampZ (x lo hi : ℤ) : ℤ := if x < lo then lo else if x > hi then hi else x

/-- `blurRatio`, libs/tex/filtering/mipmap.h:266-281. -/
noncomputable def blurRatio (o : Opts) (minor w0 h0 : ℝ) : ℝ :=
  if o.lerp = .auto ∧ (o.sBlur ≠ 0 ∨ o.tBlur ≠ 0) then
    clampR (2 * max (o.sBlur * w0) (o.tBlur * h0) / minor) 0 1
  else 0

/-- `minFilterWidth`, libs/tex/filtering/mipmap.h:263-283. -/
noncomputable def minFilterWidth (o : Opts) (minor w0 h0 : ℝ) : ℝ :=
  if o.lerp = .auto ∧ (o.sBlur ≠ 0 ∨ o.tBlur ≠ 0) then
    o.minWidth + 2 * blurRatio o minor w0 h0
  else o.minWidth

/-- What is chosen: a level and the weight of the next one if there is a mixture; or a number that is
not finite is converted to an integer (`lfloor`, include/aqsis/math/math.h:46-50), which is
undefined. -/
inductive Choice where
  | ok (level : ℤ) (mix : Option ℝ)
  | undefined

/-- The choice of the level in `applyFilter`, libs/tex/filtering/mipmap.h:261-294 and 318-323; `n` is
the number of levels, `minor` the width of the minor axis of the filter. -/
noncomputable def choose (o : Opts) (minor w0 h0 : ℝ) (n : ℤ) : Choice :=
  if minor = 0 ∨ minFilterWidth o minor w0 h0 = 0 then .undefined
  else
    let levelCts := Real.logb 2 (minor / minFilterWidth o minor w0 h0)
    let level := clampZ ⌊levelCts⌋ 0 (n - 1)
    if (o.lerp = .always ∨ (o.lerp = .auto ∧ blurRatio o minor w0 h0 > 0.2)) ∧ level < n - 1 ∧
        levelCts > 0 then
      .ok level (some ((levelCts - level) * (levelCts - level)))
    else .ok level none

/-- The sample of `applyFilter`, libs/tex/filtering/mipmap.h:287 and 314-325, if `f` are the results
of filtering the levels. -/
noncomputable def applyFilter (o : Opts) (minor w0 h0 : ℝ) (n : ℤ) (f : ℤ → ℝ) : Option ℝ :=
  match choose o minor w0 h0 n with
  | .ok l none => some (f l)
  | .ok l (some t) => some ((1 - t) * f l + t * f (l + 1))
  | .undefined => none

/-- The support along an axis on the last level, libs/tex/filtering/mipmap.h:441-449, with
`intersect`, include/aqsis/tex/buffers/filtersupport.h:150-153. -/
def lastSupport (s e : ℤ) : ℤ × ℤ :=
  let c := (s + e).tdiv 2
  (max s (c - 10), min e (c + 11))

end Verif.Tex.Level
