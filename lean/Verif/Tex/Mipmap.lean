import Mathlib.Data.Rat.Floor

/-!
# Mipmap pyramids

Model of the writing of reduced images (libs/tex/maketexture/downsample.h:139-230,
libs/tex/maketexture/maketexture.cpp:73-87), of the size of the filter used for
it (libs/tex/filtering/cachedfilter.cpp:57-63) and of the reading side
(libs/tex/filtering/mipmap.h:363-418).

Simplifications: only sizes and coordinates are followed here, not pixel values.
Conversion of a size to single precision rounds as IEEE 754 does; the level
offsets and scales are computed exactly (they are exact in single precision up
to sizes of 2^24).  `1 << i` is taken as 2^i (it overflows for i = 31, which
takes an image more than 2^30 pixels wide).
-/

namespace Verif.Tex.Mipmap

/-- Conversion of an `int` to `float`: round to nearest, ties to even, at 24
significant bits. -/
def f32OfNat (n : Nat) : Nat :=
  if n < 2 ^ 24 then n
  else
    let e := n.log2 - 23
    let q := n / 2 ^ e
    let r := n % 2 ^ e
    if 2 * r > 2 ^ e ∨ (2 * r = 2 ^ e ∧ q % 2 = 1) then (q + 1) * 2 ^ e else q * 2 ^ e

/-- libs/tex/maketexture/downsample.h:185-186: `lceil(TqFloat(width)/2)`; halving
a float is exact. -/
def half (n : Nat) : Nat := (f32OfNat n + 1) / 2

/-- libs/tex/maketexture/downsample.h:139-149 and
libs/tex/maketexture/maketexture.cpp:78-86: the sizes of the images written to
the file; `none` if not finished in the given number of steps. -/
def written : Nat → Nat → Nat → Option (List (Nat × Nat))
  | 0, _, _ => none
  | f + 1, w, h =>
    if w > 1 ∨ h > 1 then (written f (half w) (half h)).map ((w, h) :: ·)
    else some [(w, h)]

/-- libs/tex/filtering/mipmap.h:182-212. -/
structure Trans where
  xScale : ℚ
  xOffset : ℚ
  yScale : ℚ
  yOffset : ℚ
  deriving DecidableEq

/-- libs/tex/filtering/mipmap.h:174-181: "xNew = xScale * (xOld + xOffset)". -/
def Trans.x (t : Trans) (p : ℚ) : ℚ := t.xScale * (p + t.xOffset)
/-- libs/tex/filtering/mipmap.h:174-187. -/
def Trans.y (t : Trans) (p : ℚ) : ℚ := t.yScale * (p + t.yOffset)

/-- libs/tex/filtering/mipmap.h:377-410, the loop from level `i` on: sizes of
the previous level, offsets, remaining images of the file.  Gives the number of
levels and the transformations pushed; `none` is the exception. -/
def initGo (w h i : Nat) (xo yo : ℚ) : List (Nat × Nat) → Option (Nat × List Trans)
  | [] => some (i, [])
  | (fw, fh) :: rest =>
    if w = 1 ∧ h = 1 then some (i, [])
    else
      let xo' := if w % 2 = 0 then xo + 1 / 2 * 2 ^ (i - 1) else xo
      let yo' := if h % 2 = 0 then yo + 1 / 2 * 2 ^ (i - 1) else yo
      let w' := max ((w + 1) / 2) 1
      let h' := max ((h + 1) / 2) 1
      if w' ≠ fw ∨ h' ≠ fh then none
      else
        match initGo w' h' (i + 1) xo' yo' rest with
        | none => none
        | some (n, ts) => some (n, ⟨1 / 2 ^ i, -xo', 1 / 2 ^ i, -yo'⟩ :: ts)

/-- libs/tex/filtering/mipmap.h:363-418: number of levels kept and the
transformation of each level.  A file without images is not opened at all. -/
def initLevels : List (Nat × Nat) → Option (Nat × List Trans)
  | [] => none
  | (w, h) :: rest =>
    match initGo w h 1 0 0 rest with
    | none => none
    | some (n, ts) => some (n, ⟨1, 0, 1, 0⟩ :: ts)

/-- libs/tex/filtering/cachedfilter.cpp:57-63; `width` is not negative, so the
conversion to int is the floor. -/
def filterSupportSize (includeZero : Bool) (width : ℚ) : Int :=
  if includeZero then max (2 * ⌊1 / 2 * width⌋ + 1) 3
  else max (2 * ⌊1 / 2 * (width + 1)⌋) 2

/-- libs/tex/maketexture/downsample.h:189-190, 199 and 227-228, and
libs/tex/maketexture/cachedfilter.h:146-150: the range of source pixels used for
destination pixel `x` of a source image of the given size. -/
def sourceRange (size : Nat) (filterWidth : ℚ) (x : Int) : Int × Int :=
  let fw := filterSupportSize (size % 2 != 0) filterWidth
  let start := 2 * x - (fw - 1).tdiv 2
  (start, start + fw)

end Verif.Tex.Mipmap
