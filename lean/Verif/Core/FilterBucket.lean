import Mathlib.Algebra.Order.Field.Rat
import Mathlib.Data.Rat.Floor

/-!
# Filtering the samples of a bucket into pixels

Model of `CqBucketProcessor::InitialiseFilterValues`, `FilterBucket` and `ExposeBucket`
(libs/core/bucketprocessor.cpp).

Simplifications: numbers are rationals; the separable branch (bucketprocessor.cpp:440-581) is left out
because `useSeperable` is always false there (line 438); the imager shader (lines 712-743) is left out; the
channels of an output pixel are addressed by their offset into the sample data instead of through the
channel map (lines 385-398), whose storage is modelled elsewhere (C32).
-/

namespace Verif.Core.FilterBucket

/-- One sample point after `Combine`: its position and, if the `Flag_Valid` of the occluding hit is set, the
numbers of the hit (imagepixel.h:95-99, 122-147; bucketprocessor.cpp:609-619). -/
structure Samp where
  x : ℚ
  y : ℚ
  hit : Option (Nat → ℚ)

/-- A pixel: its samples by index (imagepixel.h:317). -/
abbrev Pixel := Nat → Samp

/-- The options (`m_optCache`) and the filter function: filter widths, samples per pixel, bucket size. -/
structure Cfg where
  xw : ℚ
  yw : ℚ
  xs : Nat
  ys : Nat
  f : ℚ → ℚ → ℚ → ℚ → ℚ
  bw : Nat
  bh : Nat

/-- `m_DiscreteShiftX` (bucketprocessor.cpp:36, 410, 825). -/
def Cfg.xmax (c : Cfg) : ℤ := ⌊c.xw / 2⌋
/-- `m_DiscreteShiftY` (bucketprocessor.cpp:37, 411, 826). -/
def Cfg.ymax (c : Cfg) : ℤ := ⌊c.yw / 2⌋
/-- `xfwo2` (bucketprocessor.cpp:412, 827). -/
def Cfg.xhalf (c : Cfg) : ℚ := (⌈c.xw⌉ : ℚ) * (1 / 2)
/-- `yfwo2` (bucketprocessor.cpp:413, 828). -/
def Cfg.yhalf (c : Cfg) : ℚ := (⌈c.yw⌉ : ℚ) * (1 / 2)
/-- `numSubPixels` (bucketprocessor.cpp:414, 817). -/
def Cfg.sub (c : Cfg) : Nat := c.xs * c.ys

/-- The counter of a loop `for (p = -n; p <= n; p++)` (bucketprocessor.cpp:597, 600, 831, 833). -/
def steps (n : ℤ) : List ℤ := (List.range (2 * n + 1).toNat).map fun (i : Nat) => (i : ℤ) - n

/-- Reading an element of an array; out of range: undefined. -/
def getAt {α : Type _} (l : List α) (i : ℤ) : Option α := if 0 ≤ i then l[i.toNat]? else none

/-- Writing an element of an array; out of range: undefined. -/
def putAt (l : List ℚ) (i : ℤ) (v : ℚ) : Option (List ℚ) :=
  if 0 ≤ i ∧ i < l.length then some (l.set i.toNat v) else none

/-- The filter value of subpixel `sx`, `sy` of the pixel at distance `px`, `py`
(bucketprocessor.cpp:846-850). -/
def weightAt (c : Cfg) (px py : ℤ) (sx sy : Nat) : ℚ :=
  let fx : ℚ := ((sx : ℚ) + 1 / 2) / c.xs + px - 1 / 2
  let fy : ℚ := ((sy : ℚ) + 1 / 2) / c.ys + py - 1 / 2
  if fx ≥ -c.xhalf ∧ fy ≥ -c.yhalf ∧ fx ≤ c.xhalf ∧ fy ≤ c.yhalf then c.f fx fy ⌈c.xw⌉ ⌈c.yw⌉ else 0

/-- Where the filter values of a pixel begin (bucketprocessor.cpp:602, 836). -/
def base (c : Cfg) (px py : ℤ) : ℤ := ((py + c.ymax) * (2 * c.xmax + 1) + px + c.xmax) * c.sub

/-- The assignments of `InitialiseFilterValues` in order (bucketprocessor.cpp:831-855); the running index
`subPixelIndex` is `sy * xSamps + sx` beyond the beginning of the pixel. -/
def writes (c : Cfg) : List (ℤ × ℚ) :=
  (steps c.ymax).flatMap fun py => (steps c.xmax).flatMap fun px =>
    (List.range c.ys).flatMap fun sy => (List.range c.xs).map fun sx =>
      (base c px py + (sy * c.xs + sx : Nat), weightAt c px py sx sy)

/-- `InitialiseFilterValues` (bucketprocessor.cpp:811-856). -/
def initFilter (c : Cfg) : Option (List ℚ) :=
  (writes c).foldlM (fun a w => putAt a w.1 w.2)
    (List.replicate ((⌈c.xw⌉ + 1) * (⌈c.yw⌉ + 1) * c.sub).toNat 0)

/-- The running sums of a pixel: `gTot`, `samples`, `SampleCount` (bucketprocessor.cpp:591-593). -/
structure Acc where
  g : ℚ
  sum : Nat → ℚ
  count : Nat

/-- The test of bucketprocessor.cpp:610-612: the sample lies in the filter area around the pixel centre. -/
def within (c : Cfg) (x y : ℤ) (p : Samp) : Prop :=
  p.x - ((x : ℚ) + 1 / 2) ≥ -c.xhalf ∧ p.y - ((y : ℚ) + 1 / 2) ≥ -c.yhalf ∧
    p.x - ((x : ℚ) + 1 / 2) ≤ c.xhalf ∧ p.y - ((y : ℚ) + 1 / 2) ≤ c.yhalf

instance (c : Cfg) (x y : ℤ) (p : Samp) : Decidable (within c x y p) := by unfold within; infer_instance

/-- One sample of one pixel (bucketprocessor.cpp:609-625). -/
def visit (c : Cfg) (filt : List ℚ) (x y : ℤ) (pix : Pixel) (index : ℤ) (a : Acc) (s : Nat) : Option Acc :=
  if within c x y (pix s) then
    (getAt filt (index + s)).map fun g =>
      match (pix s).hit with
      | some d => ⟨a.g + g, fun k => a.sum k + d k * g, a.count + 1⟩
      | none => { a with g := a.g + g }
  else some a

/-- The bucket: the display region and the image elements (`m_aieImage`), laid out by rows of the width of
the data region (bucketprocessor.cpp:107-110, 416). -/
structure Bucket where
  xMin : ℤ
  yMin : ℤ
  w : Nat
  h : Nat
  image : List Pixel

/-- `DataRegion().width()` (bucketprocessor.cpp:108-109, 416). -/
def xlen (c : Cfg) : ℤ := c.bw + 2 * c.xmax

/-- `ImageElement`: the index of an element; a failed assertion is undefined (bucketprocessor.cpp:746-760). -/
def element (c : Cfg) (b : Bucket) (x y : ℤ) : Option ℤ :=
  let i := (y - b.yMin + c.ymax) * xlen c + (x - b.xMin) + c.xmax
  if i < b.image.length ∧ i ≥ 0 then some i else none

/-- The loops over the filter area of a pixel (bucketprocessor.cpp:591-629). -/
def gather (c : Cfg) (filt : List ℚ) (b : Bucket) (x y : ℤ) : Option Acc := do
  let pie ← element c b (x - c.xmax) (y - c.ymax)
  (steps c.ymax).foldlM (fun a fy =>
    (steps c.xmax).foldlM (fun a fx => do
      let pix ← getAt b.image (pie + (fy + c.ymax) * xlen c + (fx + c.xmax))
      (List.range c.sub).foldlM (visit c filt x y pix (base c fx fy)) a) a) ⟨0, fun _ => 0, 0⟩

/-- A pixel of the output: the filtered sample data, the alpha and the coverage.  `none` stands for the
result of a division by zero. -/
structure Out where
  chan : Nat → Option ℚ
  alpha : Option ℚ
  coverage : ℚ

/-- The mean of the opacity (offsets `Sample_ORed` to `Sample_OBlue`, imagepixel.h:55-57) times the coverage
(bucketprocessor.cpp:700-705). -/
def withAlpha (chan : Nat → Option ℚ) (coverage : ℚ) : Out :=
  { chan := chan
    alpha := (chan 3).bind fun r => (chan 4).bind fun g => (chan 5).map fun b => (r + g + b) / 3 * coverage
    coverage := coverage }

/-- The values of a pixel no sample of which is valid; 6 is `Sample_Depth` (bucketprocessor.cpp:633-643,
674-681; imagepixel.h:58). -/
def blank (far : ℚ) : Out := withAlpha (fun k => some (if k = 6 then far else 0)) 0

/-- From the sums to the values of the pixel (bucketprocessor.cpp:632-659, 699-705). -/
def finish (c : Cfg) (far : ℚ) (a : Acc) : Out :=
  if a.count = 0 then blank far
  else withAlpha (fun k => if a.g = 0 then none else some (a.sum k * (1 / a.g)))
    (if a.count ≥ c.sub then 1 else (a.count : ℚ) / c.sub)

/-- `FilterBucket` (bucketprocessor.cpp:381-707): the pixels of the display region by rows.  `valid` is
`m_hasValidSamples`, `far` is `FLT_MAX`. -/
def filterBucket (c : Cfg) (far : ℚ) (filt : List ℚ) (valid : Bool) (b : Bucket) : Option (List (List Out)) :=
  (List.range b.h).mapM fun (j : Nat) => (List.range b.w).mapM fun (i : Nat) =>
    if valid then (gather c filt b (b.xMin + i) (b.yMin + j)).map (finish c far) else some (blank far)

/-- `ExposeBucket` (bucketprocessor.cpp:766-806) on one colour channel (offsets 0 to 2 of the pixel); `pow` is the
library function, a power of an undefined number is undefined. -/
def expose (pow : ℚ → ℚ → ℚ) (gain gamma : ℚ) (valid imager : Bool) (v : Option ℚ) : Option ℚ :=
  if valid = false ∧ imager = false then v
  else if gain = 1 ∧ gamma = 1 then v
  else
    let v := if gain ≠ 1 then v.map (· * gain) else v
    if gamma ≠ 1 then v.map (pow · (1 / gamma)) else v

end Verif.Core.FilterBucket
