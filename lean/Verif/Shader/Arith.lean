import Mathlib.Algebra.Order.Floor.Ring
import Mathlib.Algebra.Order.Round
import Mathlib.Analysis.SpecialFunctions.Pow.Real
import Mathlib.Analysis.SpecialFunctions.Log.Base

/-!
# Functions of the shading language

Model of the functions for numbers and vectors that a shader may call, libs/shadervm/shaderexecenv/shadeops_math.cpp,
shadeops_deriv.cpp and shadeops_illum.cpp, at one point of a grid. Numbers are exact. The loop over the points of a grid with the
running state is the subject of C50 and is left out, except where something is kept from one point to the next.
-/

namespace Verif.Shader.Arith

variable {K : Type} [Field K] [LinearOrder K] [IsStrictOrderedRing K] [FloorRing K]

/-! ## Steps -/

/-- `step`, libs/shadervm/shaderexecenv/shadeops_deriv.cpp:62-85. -/
def step (mn value : K) : K := if value < mn then 0 else 1

/-- `smoothstep`, libs/shadervm/shaderexecenv/shadeops_deriv.cpp:90-124. -/
def smoothstep (mn mx value : K) : K :=
  if value < mn then 0
  else if mx ≤ value then 1
  else
    let v := (value - mn) / (mx - mn)
    v * v * (3 - 2 * v)

/-- `clamp`, include/aqsis/math/math.h:99-104; libs/shadervm/shaderexecenv/shadeops_math.cpp:737-763. -/
def clamp (x mn mx : K) : K := if x < mn then mn else if mx < x then mx else x

/-- `filterstep` with one value, libs/shadervm/shaderexecenv/shadeops_deriv.cpp:1230-1263; `du` and `dv` are its differences in the
grid and `width` is the parameter of that name; `none`: a division by zero. -/
def filterstep (edge s1 du dv width : K) : Option K :=
  let w := (|du| + |dv|) * width
  if w = 0 then none else some (clamp ((s1 + w / 2 - edge) / w) 0 1)

/-- `filterstep` with two values, libs/shadervm/shaderexecenv/shadeops_deriv.cpp:1267-1298; `none`: a division by zero. -/
def filterstep2 (edge s1 s2 width : K) : Option K :=
  let w := (s2 - s1) * width
  if w = 0 then none else some (clamp ((s1 + w / 2 - edge) / w) 0 1)

/-! ## Numbers -/

/-- The conversion to `TqInt`; `none`: it is undefined. libs/shadervm/shaderexecenv/shadeops_math.cpp:454. -/
def toInt (x : K) : Option Int :=
  let n := if 0 ≤ x then ⌊x⌋ else ⌈x⌉
  if -2 ^ 31 ≤ n ∧ n < 2 ^ 31 then some n else none

/-- `mod`, libs/shadervm/shaderexecenv/shadeops_math.cpp:435-462; `none`: a division by zero or an undefined conversion. -/
def mod (a b : K) : Option K :=
  if b = 0 then none
  else (toInt (a / b)).map fun n : Int =>
    let a2 := a - (n : K) * b
    if a2 < 0 then a2 + b else a2

/-- `sign`, libs/shadervm/shaderexecenv/shadeops_math.cpp:523-543. -/
def sign (x : K) : K := if x < 0 then -1 else 1

/-- `round`, include/aqsis/math/math.h:76-80; libs/shadervm/shaderexecenv/shadeops_math.cpp:865-887. -/
def round (x : K) : K := (⌊x - 1 / 2⌋ : K) + 1

/-- `min` and `max`, include/aqsis/math/math.h:110-126. -/
def min2 (a b : K) : K := if a < b then a else b

/-- include/aqsis/math/math.h:121-126. -/
def max2 (a b : K) : K := if a < b then b else a

/-- `min` with more values, libs/shadervm/shaderexecenv/shadeops_math.cpp:545-575. -/
def minOf (a b : K) (more : List K) : K := more.foldl min2 (min2 a b)

/-- `max` with more values, libs/shadervm/shaderexecenv/shadeops_math.cpp:577-607. -/
def maxOf (a b : K) (more : List K) : K := more.foldl max2 (max2 a b)

/-- `min` of vectors and colours, include/aqsis/math/vector3d.h:566-569, include/aqsis/math/color.h:530-533. -/
def min3 (a b : Fin 3 → K) : Fin 3 → K := fun i => min2 (a i) (b i)

/-- `max` of vectors and colours, include/aqsis/math/vector3d.h:572-575, include/aqsis/math/color.h:536-539. -/
def max3 (a b : Fin 3 → K) : Fin 3 → K := fun i => max2 (a i) (b i)

/-- `min` of points and colours with more values, libs/shadervm/shaderexecenv/shadeops_math.cpp:609-639, 673-703. -/
def pminOf (a b : Fin 3 → K) (more : List (Fin 3 → K)) : Fin 3 → K := more.foldl min3 (min3 a b)

/-- `max` of points and colours with more values, libs/shadervm/shaderexecenv/shadeops_math.cpp:641-671, 705-735. -/
def pmaxOf (a b : Fin 3 → K) (more : List (Fin 3 → K)) : Fin 3 → K := more.foldl max3 (max3 a b)

/-- `sqrt`, libs/shadervm/shaderexecenv/shadeops_math.cpp:373-406. -/
noncomputable def sqrt (x : ℝ) : ℝ := if x < 0 then 0 else Real.sqrt x

/-- `inversesqrt`, libs/shadervm/shaderexecenv/shadeops_math.cpp:937-970. -/
noncomputable def inversesqrt (x : ℝ) : ℝ := if x ≤ 0 then 0 else 1 / Real.sqrt x

/-- `log`, libs/shadervm/shaderexecenv/shadeops_math.cpp:408-433. -/
noncomputable def log (x : ℝ) : ℝ := if x ≤ 0 then 0 else Real.log x

/-- `log` with a base, libs/shadervm/shaderexecenv/shadeops_math.cpp:466-494; `none`: a division by zero. -/
noncomputable def logBase (x base : ℝ) : Option ℝ :=
  if x ≤ 0 ∨ base ≤ 0 then some 0
  else if Real.log base = 0 then none
  else some (Real.log x / Real.log base)

/-- A `TqLong` as a `TqInt`: its lower 32 bits with a sign. libs/shadervm/shaderexecenv/shadeops_math.cpp:330. -/
def wrap (n : Int) : Int := (n + 2 ^ 31) % 2 ^ 32 - 2 ^ 31

/-- `pow`, libs/shadervm/shaderexecenv/shadeops_math.cpp:308-349; `none`: `std::pow` of zero and a negative number. -/
noncomputable def pow (x y : ℝ) : Option ℝ :=
  if x < 0 then
    let n := wrap ⌊y⌋
    if (n : ℝ) ≠ y then some 0 else some (x ^ n)
  else if x = 0 ∧ y < 0 then none
  else some (x ^ y)

/-! ## Vectors -/

/-- `a * b`, include/aqsis/math/vector3d.h:602-606. -/
def dot (a b : Fin 3 → K) : K := a 0 * b 0 + a 1 * b 1 + a 2 * b 2

/-- `faceforward(N, I)`, libs/shadervm/shaderexecenv/shadeops_deriv.cpp:723-750; `ng` is the normal of the surface. -/
def faceforward (ng n i : Fin 3 → K) : Fin 3 → K :=
  let s : K := if dot (fun k => -i k) ng < 0 then -1 else 1
  let s2 : K := if dot n ng < 0 then -1 else 1
  fun k => s * s2 * n k

/-- `faceforward(N, I, Nref)`, libs/shadervm/shaderexecenv/shadeops_deriv.cpp:755-782. -/
def faceforward2 (n i nref : Fin 3 → K) : Fin 3 → K :=
  let s : K := if dot (fun k => -i k) nref < 0 then -1 else 1
  fun k => n k * s

/-- `Unit`, include/aqsis/math/vector3d.h:355-365. -/
noncomputable def unit (v : Fin 3 → ℝ) : Fin 3 → ℝ :=
  let length := Real.sqrt (dot v v)
  if length ≠ 0 then fun k => v k / length else v

/-- The body of the loop of `normalize`: the last vector and its unit vector are kept,
libs/shadervm/shaderexecenv/shadeops_deriv.cpp:701-715. The state is `_old`, `_unit` and what was written at the points so far. -/
noncomputable def normalizeAt (varying : Bool) (rs : Nat → Bool) (v : Nat → Fin 3 → ℝ)
    (s : (Fin 3 → ℝ) × (Fin 3 → ℝ) × (Nat → Fin 3 → ℝ)) (g : Nat) : (Fin 3 → ℝ) × (Fin 3 → ℝ) × (Nat → Fin 3 → ℝ) :=
  let (old, u, res) := s
  if varying = false ∨ rs g = true then
    open Classical in
    let (old, u) := if old ≠ v g then (v g, unit (v g)) else (old, u)
    (old, u, fun i => if i = g then u else res i)
  else s

/-- `normalize` over a grid of `n` points, libs/shadervm/shaderexecenv/shadeops_deriv.cpp:687-718. The body runs at least once. -/
noncomputable def normalize (varying : Bool) (rs : Nat → Bool) (n : Nat) (v res : Nat → Fin 3 → ℝ) : Nat → Fin 3 → ℝ :=
  ((List.range (if varying then max n 1 else 1)).foldl (normalizeAt varying rs v) (![1, 0, 0], ![1, 0, 0], res)).2.2

end Verif.Shader.Arith
