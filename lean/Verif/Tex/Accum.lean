import Verif.Tex.Wrap
import Mathlib.Data.Rat.Floor
/-!
# Sample accumulators, cached filter weights and downsampling

Model of `CqSampleAccum` and `CqPcfAccum`
(include/aqsis/tex/filtering/sampleaccum.h:56-418), `CqCachedFilter`
(libs/tex/maketexture/cachedfilter.h:53-156, libs/tex/filtering/cachedfilter.cpp:45-107) and
`downsample` (libs/tex/maketexture/downsample.h:167-230).

Simplifications: floats are rational numbers and arithmetic is exact; channel
numbers are not negative.  Reading or writing outside a vector and dividing by
zero are the outcome `none`.
-/

namespace Verif.Tex.Accum

/-- The members of `CqSampleAccum`, sampleaccum.h:158-175. -/
structure Acc where
  start : Nat
  numChans : Nat
  numFill : Nat
  result : List ℚ
  fill : ℚ
  tot : ℚ
deriving DecidableEq

/-- The constructor, sampleaccum.h:261-276. -/
def init (start numChans : Nat) (fill : ℚ) : Acc :=
  { start := start, numChans := numChans, numFill := 0, result := List.replicate numChans 0,
    fill := fill, tot := 0 }

/-- `setSampleVectorLength`, sampleaccum.h:278-303. -/
def setLen (a : Acc) (len : Nat) : Bool × Acc :=
  let total := a.numChans + a.numFill
  if a.start + total ≤ len then (true, { a with numChans := total, numFill := 0 })
  else if a.start ≥ len then (false, { a with numChans := 0, numFill := total })
  else (true, { a with numChans := len - a.start, numFill := total - (len - a.start) })

/-- The loop of `accumulate`, sampleaccum.h:318-319: `n` channels left, the next one
read from position `off` of the sample vector. -/
def addChans (w : ℚ) (inS : List ℚ) : Nat → Nat → List ℚ → Option (List ℚ)
  | 0, _, res => some res
  | _ + 1, _, [] => none
  | n + 1, off, r :: res =>
    (inS[off]?).bind fun s => (addChans w inS n (off + 1) res).map fun rest => (r + w * s) :: rest

/-- `accumulate`, sampleaccum.h:305-321, with the weight already looked up. -/
def accumulate (normalized : Bool) (a : Acc) (w : ℚ) (inS : List ℚ) : Option Acc :=
  if w ≠ 0 then
    (addChans w inS a.numChans a.start a.result).map fun r =>
      { a with tot := if normalized then a.tot else a.tot + w, result := r }
  else some a

/-- The second loop of the destructor, sampleaccum.h:334-335. -/
def fillChans (fill : ℚ) : Nat → List ℚ → Option (List ℚ)
  | 0, res => some res
  | _ + 1, [] => none
  | n + 1, _ :: res => (fillChans fill n res).map (fill :: ·)

/-- The destructor, sampleaccum.h:323-336. -/
def finish (normalized : Bool) (a : Acc) : Option (List ℚ) :=
  let scaled := if normalized = false ∧ a.tot ≠ 0
    then (a.result.take a.numChans).map (· * (1 / a.tot)) else a.result.take a.numChans
  (fillChans a.fill a.numFill (a.result.drop a.numChans)).map (scaled ++ ·)

/-- A sequence of samples accumulated one after the other; looking up a weight may
fail (an index out of range). sampleaccum.h:305-321. -/
def accAll (normalized : Bool) (weight : Int × Int → Option ℚ) :
    Acc → List ((Int × Int) × List ℚ) → Option Acc
  | a, [] => some a
  | a, (p, s) :: l => (weight p).bind fun w =>
      (accumulate normalized a w s).bind fun a' => accAll normalized weight a' l

/-- One call of a filtering function, which first announces the length of the
sample vectors (filtertexture.h:226-227). -/
def call (normalized : Bool) (weight : Int × Int → Option ℚ) (a : Acc) (len : Nat)
    (samples : List ((Int × Int) × List ℚ)) : Option Acc :=
  let r := setLen a len
  if r.1 then accAll normalized weight r.2 samples else some r.2

/-- The whole life of an accumulator with several filtering calls. sampleaccum.h:261-336. -/
def calls (normalized : Bool) (weight : Int × Int → Option ℚ) (len : Nat) :
    Acc → List (List ((Int × Int) × List ℚ)) → Option Acc
  | a, [] => some a
  | a, s :: l => (call normalized weight a len s).bind fun a' => calls normalized weight len a' l

/-- Life of an accumulator, with `filters` calls on buffers of `len` channels. sampleaccum.h:261-336. -/
def run (normalized : Bool) (weight : Int × Int → Option ℚ) (start numChans : Nat) (fill : ℚ) (len : Nat)
    (filters : List (List ((Int × Int) × List ℚ))) : Option (List ℚ) :=
  (calls normalized weight len (init start numChans fill) filters).bind (finish normalized)

/-! Percentage closer filtering -/

/-- Amount of shadow of one sample, sampleaccum.h:380-406. -/
def shadow (biasLow biasHigh surface shad : ℚ) : ℚ :=
  if biasHigh = 0 ∧ biasLow = 0 then (if surface > shad then 1 else 0)
  else if biasHigh = biasLow then (if surface > shad + biasLow then 1 else 0)
  else if surface ≥ shad + biasHigh then 1
  else if surface > shad + biasLow then (surface - shad - biasLow) / (biasHigh - biasLow)
  else 0

/-- `CqPcfAccum`: the result and total weight after the samples
`(weight, surface depth, shadow map depth)`, sampleaccum.h:369-408. -/
def pcfAll (normalized : Bool) (lo hi : ℚ) : ℚ × ℚ → List (ℚ × ℚ × ℚ) → ℚ × ℚ
  | a, [] => a
  | (res, tot), (w, surface, shad) :: l =>
    pcfAll normalized lo hi
      (if w ≠ 0 then (res + w * shadow lo hi surface shad, if normalized then tot else tot + w)
       else (res, tot)) l

/-- Constructor, accumulation and destructor, sampleaccum.h:340-418. -/
def pcf (normalized : Bool) (lo hi : ℚ) (samples : List (ℚ × ℚ × ℚ)) : ℚ :=
  let r := pcfAll normalized lo hi (0, 0) samples
  if normalized = false ∧ r.2 ≠ 0 then r.1 / r.2 else r.1

/-! Cached filter weights -/

/-- The normalisation and rounding loop of the constructor, cachedfilter.cpp:94-106,
on the raw filter values in row-major order. -/
def cacheWeights (raw : List ℚ) : Option (List ℚ) :=
  if raw.sum = 0 then none
  else some (raw.map fun v => let w := v / raw.sum; if |w| < 1 / 100000 then 0 else w)

/-- `CqCachedFilter`: size, position and weights, cachedfilter.h:113-118. -/
structure Kernel where
  w : Int
  h : Int
  weights : List ℚ

/-- `operator()`, cachedfilter.h:131-134; `none` is an index out of range. -/
def Kernel.at? (K : Kernel) (tx ty x y : Int) : Option ℚ :=
  let i := (y - ty) * K.w + (x - tx)
  if i < 0 then none else K.weights[i.toNat]?

/-- `support`, cachedfilter.h:146-150. -/
def Kernel.support (K : Kernel) (tx ty : Int) : Support := Support.mk4 tx (tx + K.w) ty (ty + K.h)

/-- `filterSupportSize`, cachedfilter.cpp:57-63 (`static_cast<TqInt>` truncates). -/
def supportSize (includeZero : Bool) (width : ℚ) : Int :=
  if includeZero then max (2 * ⌊width / 2⌋ + 1) 3 else max (2 * ⌊(width + 1) / 2⌋) 2

/-- One pixel of the reduced image, downsample.h:189-203: filter around
`(2x - (w-1)/2, 2y - (h-1)/2)`. -/
def downPixel (T : Wrap.Tex (List ℚ)) (chans : Nat) (K : Kernel) (sw tw : Wrap.Mode) (x y : Int) :
    Option (List ℚ) :=
  let tx := 2 * x - (K.w - 1).tdiv 2
  let ty := 2 * y - (K.h - 1).tdiv 2
  run true (fun p => K.at? tx ty p.1 p.2) 0 chans 0 chans
    [Wrap.filterTexture T (K.support tx ty) sw tw]

end Verif.Tex.Accum
