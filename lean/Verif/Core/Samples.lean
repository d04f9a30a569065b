import Mathlib.Algebra.Order.Field.Rat
import Mathlib.Data.List.Nodup

/-!
# Sample hits and their combination

What happens at one sample point of a pixel: `CqBucketProcessor::StoreSample`
(libs/core/bucketprocessor.cpp:1471-1569), which keeps or culls the hits of micropolygons as they
arrive, and `CqImagePixel::Combine` (libs/core/imagepixel.cpp:144-332), which composes them.

Simplifications.  Numbers are rational.  There is one entry of extra data (an "AOV").  Constructive
solid geometry is left out (it is the subject of C30).  An entry of the pixel's storage is named by
the hit written to it; storage of different entries is disjoint (imagepixel.h:469-479).
-/

namespace Verif.Core.Samples

/-- `matteFlag`, libs/core/micropolygon.cpp:50-55. -/
inductive Matte where
  | none
  | matte
  | matteAlpha
deriving DecidableEq, Repr

/-- A hit of a micropolygon: colour, opacity, depth `D`; whether the micropolygon is opaque at all
its vertices (micropolygon.cpp:1464-1529); the matte flag; the smallest depth of its bound; the
value of the extra output variable, if the grid has that variable (bucketprocessor.cpp:1580). -/
structure Hit where
  col : Fin 3 → ℚ
  opa : Fin 3 → ℚ
  z : ℚ
  solid : Bool
  matte : Matte
  zBound : ℚ
  extra : Option ℚ

/-- `EqDepthFilter`. -/
inductive DepthFilter where
  | min
  | midPoint
  | max
  | average
deriving DecidableEq, Repr

/-- The options used: is depth an output (`DMode_Z`), the depth filter, the depth threshold, and
`FLT_MAX`. -/
structure Opts where
  zMode : Bool
  filter : DepthFilter
  thr : Fin 3 → ℚ
  far : ℚ

/-- A stored hit, with the content of the memory for the extra variable. -/
structure Entry where
  hit : Hit
  extra : ℚ

/-- `SqSampleData` (imagepixel.h:122-151): `data`, the occluding hit if it is valid, `occlZ`, and the
memory for the extra variable that belongs to the occluding hit. -/
structure Sample where
  data : List Entry
  occl : Option Hit
  mem : ℚ
  occlZ : ℚ

/-- After `clear`, imagepixel.cpp:105-122: the memory `m` keeps what it had. -/
def Sample.clear (o : Opts) (m : ℚ) : Sample := { data := [], occl := none, mem := m, occlZ := o.far }

/-- bucketprocessor.cpp:1075-1081. -/
def Opts.cullable (o : Opts) : Bool :=
  !(o.zMode && (o.filter == .max || o.filter == .average))

/-- `StoreSample`, bucketprocessor.cpp:1471-1569. -/
def store (o : Opts) (s : Sample) (h : Hit) : Sample :=
  if o.cullable ∧ s.occlZ ≤ h.z then s
  else if (h.solid = true ∨ h.matte = .matteAlpha) ∧ o.cullable then
    if o.zMode ∧ o.filter = .midPoint then
      let prevZ := match s.occl with
        | some p => p.z
        | none => o.far
      if prevZ < h.z then { s with occlZ := h.z }
      else { s with occlZ := prevZ, occl := some h, mem := h.extra.getD s.mem }
    else { s with occlZ := h.z, occl := some h, mem := h.extra.getD s.mem }
  else { s with data := s.data ++ [⟨h, h.extra.getD 0⟩] }

/-- The test before a micropolygon is sampled, bucketprocessor.cpp:1177-1180 (also 1399-1402 and
1434-1437), then `StoreSample`. -/
def sample (o : Opts) (s : Sample) (h : Hit) : Sample :=
  if o.cullable ∧ h.zBound > s.occlZ then s else store o s h

/-- All hits at the sample point, in the order in which the micropolygons are rendered.
bucketprocessor.cpp:1163-1207. -/
def sampleAll (o : Opts) (s : Sample) (hs : List Hit) : Sample := hs.foldl (sample o) s

/-! ## Combination -/

/-- include/aqsis/math/math.h:88-91. -/
def lerp (t a b : ℚ) : ℚ := (1 - t) * a + t * b

/-- include/aqsis/math/math.h:93-104, to the range from 0 to 1. -/
def clamp (x : ℚ) : ℚ := if x < 0 then 0 else if x > 1 then 1 else x

/-- The threshold test, imagepixel.cpp:229-231. -/
def Opts.meets (o : Opts) (h : Hit) : Bool :=
  decide (h.opa 0 ≥ o.thr 0) && decide (h.opa 1 ≥ o.thr 1) && decide (h.opa 2 ≥ o.thr 2)

/-- The test used for the average, imagepixel.cpp:287. -/
def Opts.meetsAny (o : Opts) (h : Hit) : Bool :=
  decide (h.opa 0 ≥ o.thr 0) || decide (h.opa 1 ≥ o.thr 1) || decide (h.opa 2 ≥ o.thr 2)

/-- `samplecolor`, `sampleopacity`, `opaqueDepths`, `maxOpaqueDepth`: imagepixel.cpp:191-195. -/
structure Acc where
  col : Fin 3 → ℚ
  opa : Fin 3 → ℚ
  d0 : ℚ
  d1 : ℚ
  dmax : ℚ

/-- The body of the loop, imagepixel.cpp:199-241. -/
def accumulate (o : Opts) (e : Entry) (a : Acc) : Acc :=
  let h := e.hit
  let a := if h.matte = .matte then
      { a with col := fun c => lerp (h.opa c) (a.col c) 0, opa := fun c => lerp (h.col c) (a.opa c) 0 }
    else
      { a with col := fun c => a.col c * (1 - clamp (h.opa c)) + h.col c,
               opa := fun c => (1 - a.opa c) * h.opa c + a.opa c }
  if o.meets h then
    { a with d1 := a.d0, d0 := h.z, dmax := if a.dmax < o.far then a.dmax else h.z }
  else a

/-- What the sample contributes to the image; a depth `none` is a quotient 0/0 (not a number). -/
structure Result where
  col : Fin 3 → ℚ
  opa : Fin 3 → ℚ
  z : Option ℚ
  extra : ℚ

/-- The average depth, imagepixel.cpp:281-295. -/
def average (o : Opts) (es : List Entry) : Option ℚ :=
  let q := es.filter fun e => o.meetsAny e.hit
  if q.length = 0 then none else some ((q.map fun e => e.hit.z).sum / q.length)

/-- `Combine` for one sample, imagepixel.cpp:144-332; `es` are the stored hits and the valid
occluding hit in order of depth (156-164).  `none`: the occluding hit is not valid afterwards. -/
def combine (o : Opts) (s : Sample) (es : List Entry) : Option Result :=
  if s.data = [] then
    s.occl.map fun h =>
      { col := if h.matte = .matte then fun _ => 0 else h.col
        opa := if h.matte = .matte then fun _ => 0 else h.opa
        z := some (if o.filter = .midPoint then (h.z + s.occlZ) / 2 else h.z)
        extra := s.mem }
  else
    let a := es.foldr (accumulate o) ⟨fun _ => 0, fun _ => 0, s.occlZ, o.far, o.far⟩
    es.head?.map fun e =>
      { col := a.col
        opa := a.opa
        z := match o.filter with
          | .min => some a.d0
          | .midPoint => some (if es.length > 1 then (a.d0 + a.d1) / 2 else o.far)
          | .max => some a.dmax
          | .average => average o es
        extra := e.extra }

/-- The entries `std::sort` is called for, imagepixel.cpp:156-164. -/
def Sample.entries (s : Sample) : List Entry :=
  s.data ++ (s.occl.toList.map fun h => ⟨h, s.mem⟩)

/-- `std::sort` leaves some permutation in which the depths ascend. -/
def IsSort (l l' : List Entry) : Prop := l'.Perm l ∧ l'.Pairwise fun a b => a.hit.z ≤ b.hit.z

/-- A possible outcome of rendering the hits in the given order and combining them. -/
def Outcome (o : Opts) (m : ℚ) (hs : List Hit) (r : Option Result) : Prop :=
  ∃ es, IsSort (sampleAll o (Sample.clear o m) hs).entries es ∧
    r = combine o (sampleAll o (Sample.clear o m) hs) es

end Verif.Core.Samples
