import Verif.Core.Sampler

/-!
# Random numbers

Model of libs/math/random.cpp: the generator MT19937 and the conversions of `CqRandom`.

The state vector and the count are shared by all instances of `CqRandom` (static storage, libs/math/random.cpp:97-99).
The number of bits of `TqUlong` (`unsigned long`, include/aqsis/inttype.h:63) is a parameter `w`. Rounding to `float` and
`double` is left to two functions `fl24` and `fl53`. An access outside of the array is `none`.
-/

namespace Verif.Math.Random

open Verif.Core.Sampler (Arr put get loop)

/-- `N`, libs/math/random.cpp:91. -/
def N : Nat := 624

/-- `M`, libs/math/random.cpp:92. -/
def M : Nat := 397

/-- `mt` and `mti`, libs/math/random.cpp:98-99. -/
structure State where
  mt : Arr Nat
  mti : Nat

/-- The state at the start of the program, libs/math/random.cpp:98-99: the array is zero. -/
def start : State := ⟨fun _ => 0, N + 1⟩

/-- `init_genrand`, libs/math/random.cpp:102-116. -/
def initGenrand (w s : Nat) (st : State) : Option State :=
  (put N st.mt 0 (s &&& 0xffffffff)).bind fun mt =>
    (loop (N - 1) (fun mt i =>
      (get N mt i).bind fun p =>
        put N mt (i + 1) (((1812433253 * (p ^^^ (p >>> 30)) + (i + 1)) % 2 ^ w) &&& 0xffffffff)) mt).bind fun mt =>
    some ⟨mt, N⟩

/-- `mt[kk] = mt[m] ^ (y >> 1) ^ mag01[y & 0x1UL]` with `y` from `mt[kk]` and `mt[k1]`:
libs/math/random.cpp:134-135, 139-140, 142-143. -/
def twist (mt : Arr Nat) (kk k1 m : Nat) : Option (Arr Nat) :=
  (get N mt kk).bind fun a => (get N mt k1).bind fun b => (get N mt m).bind fun c =>
    let y := (a &&& 0x80000000) ||| (b &&& 0x7fffffff)
    (get 2 (fun i => if i = 0 then 0 else 0x9908b0df) (y &&& 1)).bind fun g =>
      put N mt kk (c ^^^ (y >>> 1) ^^^ g)

/-- The generation of `N` words, libs/math/random.cpp:132-143. In the second loop `kk = N - M + i` and
`kk + (M - N) = i`. -/
def regenerate (mt : Arr Nat) : Option (Arr Nat) :=
  (loop (N - M) (fun mt kk => twist mt kk (kk + 1) (kk + M)) mt).bind fun mt =>
    (loop (M - 1) (fun mt i => twist mt (N - M + i) (N - M + i + 1) i) mt).bind fun mt =>
      twist mt (N - 1) 0 (M - 1)

/-- The tempering, libs/math/random.cpp:151-154. -/
def temper (w y : Nat) : Nat :=
  let y := y ^^^ (y >>> 11)
  let y := y ^^^ (((y <<< 7) % 2 ^ w) &&& 0x9d2c5680)
  let y := y ^^^ (((y <<< 15) % 2 ^ w) &&& 0xefc60000)
  y ^^^ (y >>> 18)

/-- `genrand_int32`, libs/math/random.cpp:119-157. -/
def genrand (w : Nat) (st : State) : Option (Nat × State) :=
  (if N ≤ st.mti then
      (if st.mti = N + 1 then initGenrand w 5489 st else some st).bind fun st =>
        (regenerate st.mt).bind fun mt => some ⟨mt, 0⟩
    else some st).bind fun st =>
  (get N st.mt st.mti).bind fun y => some (temper w y, ⟨st.mt, st.mti + 1⟩)

/-- The output of the `k`-th of the next calls of `genrand_int32`. -/
def nth (w : Nat) : Nat → State → Option Nat
  | 0, st => (genrand w st).bind fun r => some r.1
  | k + 1, st => (genrand w st).bind fun r => nth w k r.2

/-- `CqRandom( Seed )`, libs/math/random.cpp:173-174: nothing is done. -/
def construct (_seed : Nat) (st : State) : State := st

/-- `Reseed`, libs/math/random.cpp:221-224. -/
def reseed (w seek : Nat) (st : State) : Option State := initGenrand w seek st

/-- `RandomFloat()`, libs/math/random.cpp:194-206, for the output `u` of `genrand_int32`: the constant, the product and
the conversion of the result are rounded. -/
def randomFloat (fl24 fl53 : ℚ → ℚ) (u : Nat) : ℚ := fl24 (fl53 ((u : ℚ) * fl53 (1 / 4294967424)))

/-- `RandomFloat( Range )`, libs/math/random.cpp:211-214. -/
def randomFloatRange (fl24 fl53 : ℚ → ℚ) (range : ℚ) (u : Nat) : ℚ := fl24 (range * randomFloat fl24 fl53 u)

/-- `RandomInt( Range )`, libs/math/random.cpp:186-190; the integer is converted to a `float` for the call. `lfloor` of a
number that is not negative is `floor` (include/aqsis/math/math.h:46-50). -/
def randomIntRange (fl24 fl53 : ℚ → ℚ) (range u : Nat) : ℤ := ⌊randomFloatRange fl24 fl53 (fl24 range) u⌋

end Verif.Math.Random
