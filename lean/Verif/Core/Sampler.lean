import Mathlib.Algebra.Order.Field.Rat
import Mathlib.Data.Rat.Floor

/-!
# Where the samples of a pixel are

Model of the two samplers, `CqMultiJitteredSampler` (libs/core/multijitter.cpp, multijitter.h) and `CqGridSampler`
(libs/core/grid.cpp), and of the filling in of a pixel from them, `CqImagePixel::setSamples`
(libs/core/imagepixel.cpp:334-359).

The random numbers are an arbitrary sequence `ρ`; the `k`-th call of `RandomFloat()` gives `ρ k`. All instances of
`CqRandom` share one sequence, as in libs/math/random.cpp:97-99. Numbers are rational. An access outside of an array is
`none`.
-/

namespace Verif.Core.Sampler

/-- An array; its size is given with each access. -/
abbrev Arr (α : Type) := Nat → α

/-- `a[i] = v` for an array of size `n`.  E.g. libs/core/multijitter.cpp:94-95, 166, 188, 194. -/
def put {α : Type} (n : Nat) (a : Arr α) (i : Nat) (v : α) : Option (Arr α) :=
  if i < n then some (fun j => if j = i then v else a j) else none

/-- `a[i]` for an array of size `n`.  E.g. libs/core/multijitter.cpp:160-161. -/
def get {α : Type} (n : Nat) (a : Arr α) (i : Nat) : Option α := if i < n then some (a i) else none

/-- `std::swap( a[i], a[j] )`, libs/core/multijitter.cpp:111-112, 124-125, 200. -/
def swap (n : Nat) (a : Arr Nat) (i j : Nat) : Option (Arr Nat) :=
  if i < n ∧ j < n then some (fun k => if k = i then a j else if k = j then a i else a k) else none

/-- `RandomInt( range )`, libs/math/random.cpp:186-190. -/
def randomInt (ρ : Nat → ℚ) (k range : Nat) : Nat := ⌊(range : ℚ) * ρ k⌋.toNat

/-- The loop `while(m > 1)` that shuffles the elements at `addr 0` to `addr (m - 1)`:
libs/core/multijitter.cpp:106-113, 119-126, 195-201. -/
def shuffle (ρ : Nat → ℚ) (n : Nat) (addr : Nat → Nat) : Nat → Arr Nat × Nat → Option (Arr Nat × Nat)
  | 0, s => some s
  | 1, s => some s
  | m + 2, (a, k) =>
    match swap n a (addr (m + 1)) (addr (randomInt ρ k (m + 2))) with
    | none => none
    | some a' => shuffle ρ n addr (m + 1) (a', k + 1)

/-- A loop `for (i = 0; i < n; i++)`.  E.g. libs/core/multijitter.cpp:89, 91, 104, 117. -/
def loop {σ : Type} (n : Nat) (f : σ → Nat → Option σ) (s : σ) : Option σ :=
  (List.range n).foldlM f s

/-- `multiJitterIndices`, libs/core/multijitter.cpp:83-128; `indices` has the size `2 * numX * numY`
(libs/core/multijitter.cpp:146). -/
def multiJitterIndices (ρ : Nat → ℚ) (numX numY : Nat) (k : Nat) : Option (Arr Nat × Nat) :=
  let n := numX * numY * 2
  (loop numY (fun a iy => loop numX (fun a ix =>
      (put n a (2 * (iy * numX + ix)) iy).bind fun a => put n a (2 * (iy * numX + ix) + 1) ix) a) (fun _ => 0)).bind
    fun a => (loop numY (fun s iy => shuffle ρ n (fun ix => 2 * (iy * numX + ix) + 1) numX s) (a, k)).bind
      fun s => loop numX (fun s ix => shuffle ρ n (fun iy => 2 * (iy * numX + ix)) numY s) s

/-- `m_2dSamples`, `m_1dSamples` and `m_shuffledIndices`, libs/core/multijitter.h:80-82; and the number of random
numbers used. -/
structure Tables where
  p2 : Arr (ℚ × ℚ)
  p1 : Arr ℚ
  sh : Arr Nat
  k : Nat

/-- The positions of one pattern, libs/core/multijitter.cpp:137-172; the tables have the size `size`. -/
def setup2d (ρ : Nat → ℚ) (xs ys size offset : Nat) (T : Tables) : Option Tables :=
  if xs = 1 ∧ ys = 1 then
    (put size T.p2 offset (ρ T.k, ρ (T.k + 1))).bind fun p2 =>
      (put size T.p1 offset (ρ (T.k + 2))).bind fun p1 =>
        some { T with p2 := p2, p1 := p1, k := T.k + 3 }
  else
    let nSamples := xs * ys
    (multiJitterIndices ρ xs ys T.k).bind fun (indices, k) =>
      (loop ys (fun (s : Tables × Nat) iy => loop xs (fun (s : Tables × Nat) ix =>
        (get (nSamples * 2) indices (2 * s.2)).bind fun xindex =>
          (get (nSamples * 2) indices (2 * s.2 + 1)).bind fun yindex =>
            (put size s.1.p2 (offset + s.2)
              (((xindex : ℚ) + ρ s.1.k) * (1 / nSamples) + ix * (1 / xs),
               ((yindex : ℚ) + ρ (s.1.k + 1)) * (1 / nSamples) + iy * (1 / ys))).bind fun p2 =>
              some ({ s.1 with p2 := p2, k := s.1.k + 2 }, s.2 + 1)) s) ({ T with k := k }, 0)).bind
        fun s => some s.1

/-- The one-dimensional samples, libs/core/multijitter.cpp:174-190; the state is `sample1d` also. -/
def setup1d (ρ : Nat → ℚ) (xs ys size offset : Nat) (T : Tables) : Option Tables :=
  let nSamples := xs * ys
  let delta : ℚ := 1 / nSamples
  let random1d := delta * ρ T.k
  (loop nSamples (fun (s : Arr ℚ × ℚ) i =>
      (put size s.1 (offset + i) (s.2 + random1d)).bind fun p1 => some (p1, s.2 + delta)) (T.p1, 0)).bind
    fun s => some { T with p1 := s.1, k := T.k + 1 }

/-- The shuffled indices, libs/core/multijitter.cpp:193-201. -/
def setupShuffled (ρ : Nat → ℚ) (xs ys size offset : Nat) (T : Tables) : Option Tables :=
  let nSamples := xs * ys
  (loop nSamples (fun sh i => put size sh (offset + i) i) T.sh).bind fun sh =>
    (shuffle ρ size (fun j => offset + j) nSamples (sh, T.k)).bind fun s =>
      some { T with sh := s.1, k := s.2 }

/-- `setupJitterPattern`, libs/core/multijitter.cpp:130-202. -/
def setupJitterPattern (ρ : Nat → ℚ) (xs ys size offset : Nat) (T : Tables) : Option Tables :=
  (setup2d ρ xs ys size offset T).bind fun T => (setup1d ρ xs ys size offset T).bind fun T =>
    setupShuffled ρ xs ys size offset T

/-- `m_cacheSize`, libs/core/multijitter.h:60. -/
def cacheSize : Nat := 250

/-- The constructor of `CqMultiJitteredSampler`, libs/core/multijitter.h:90-101. -/
def jittered (ρ : Nat → ℚ) (xs ys k : Nat) : Option Tables :=
  loop cacheSize (fun T i => setupJitterPattern ρ xs ys (xs * ys * cacheSize) (i * (xs * ys)) T)
    { p2 := fun _ => (0, 0), p1 := fun _ => 0, sh := fun _ => 0, k := k }

/-- The constructor of `CqGridSampler`, libs/core/grid.h:77-85 and `setupGridPattern`, libs/core/grid.cpp:37-63. The
state of the loop over the one-dimensional samples is `sample` also; `1 / nSamples` is a division of integers. -/
def gridTables (xs ys : Nat) : Option Tables :=
  let nSamples := xs * ys
  (loop ys (fun p2 j => loop xs (fun p2 i =>
      put nSamples p2 (j * xs + i) ((1 / xs : ℚ) * (i + 1 / 2), (1 / ys : ℚ) * (j + 1 / 2))) p2)
        (fun _ => ((0, 0) : ℚ × ℚ))).bind
    fun p2 =>
      let dt : ℚ := ((1 / nSamples : Nat) : ℚ)
      (loop nSamples (fun (s : Arr ℚ × ℚ) i => (put nSamples s.1 i s.2).bind fun p1 => some (p1, s.2 + dt))
        ((fun _ => 0), dt * (1 / 2))).bind fun s =>
          (loop nSamples (fun sh i => put nSamples sh i i) (fun _ => 0)).bind fun sh =>
            some { p2 := p2, p1 := s.1, sh := sh, k := 0 }

/-! ## A pixel -/

/-- What a sample of a pixel gets, `SqSampleData`, libs/core/imagepixel.h:122-140. `dof` is the offset in the square,
before `projectToCircle`. -/
structure Sample where
  position : ℚ × ℚ
  time : ℚ
  detailLevel : ℚ
  dof : ℚ × ℚ

/-- The samples of a pixel and `m_DofOffsetIndices`, libs/core/imagepixel.h:316-322. -/
structure Pixel where
  samples : Arr Sample
  dofIndices : Arr Nat

/-- The calls of the sampler: which of the cached patterns the pointers refer to. For the grid all are 0.
libs/core/multijitter.cpp:205-222, grid.cpp:65-78. -/
structure Picks where
  sh : Nat
  pos : Nat
  dof : Nat
  time : Nat
  lod : Nat

/-- The patterns picked by a pixel at the state `k` of the random numbers: `RandomInt( m_cacheSize )` in the order of the
calls (libs/core/imagepixel.cpp:338, 344-347; multijitter.cpp:207, 214, 220). -/
def jitterPicks (ρ : Nat → ℚ) (k : Nat) : Picks :=
  { sh := randomInt ρ k cacheSize, pos := randomInt ρ (k + 1) cacheSize, dof := randomInt ρ (k + 2) cacheSize,
    time := randomInt ρ (k + 3) cacheSize, lod := randomInt ρ (k + 4) cacheSize }

/-- `setSamples`, libs/core/imagepixel.cpp:334-359; the tables have the size `size`, a pixel has `n` samples. -/
def setSamples (T : Tables) (size n : Nat) (c : Picks) (offset : ℚ × ℚ) (opentime closetime : ℚ) (p : Pixel) :
    Option Pixel :=
  (loop n (fun d i => (get size T.sh (n * c.sh + i)).bind fun v => put n d i v) p.dofIndices).bind fun d =>
    (loop n (fun (s : Arr Sample) i =>
      (get size T.p2 (n * c.pos + i)).bind fun pos =>
      (get size T.p1 (n * c.time + i)).bind fun t =>
      (get size T.p1 (n * c.lod + i)).bind fun l =>
      (put n s i { s i with position := (offset.1 + pos.1, offset.2 + pos.2),
                            time := (closetime - opentime) * t + opentime, detailLevel := l }).bind fun s =>
      (get size T.p2 (n * c.dof + i)).bind fun dof =>
      put n s (d i) { s (d i) with dof := (-1 + 2 * dof.1, -1 + 2 * dof.2) }) p.samples).bind fun s =>
    some { samples := s, dofIndices := d }

end Verif.Core.Sampler
