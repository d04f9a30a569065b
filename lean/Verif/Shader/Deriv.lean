import Mathlib.Data.Real.Sqrt
import Mathlib.Tactic.Ring

/-!
Differences over grids, from include/aqsis/math/derivatives.h, and the derivatives of the shading language, from
libs/shadervm/shaderexecenv/shaderexecenv.h, libs/shadervm/shaderexecenv/shadeops_deriv.cpp.

Simplifications: exact numbers instead of floats. A vector is three numbers, each of which is taken by itself. The pointer `data` is
a function that gives nothing outside the grid.
-/

namespace Verif.Shader.Deriv

/-- What can go wrong: an assertion, or a value outside the grid. -/
inductive Fault where
  | assertion
  | outside
  deriving DecidableEq

/-- The values of a variable. -/
abbrev Data := Int → Option ℝ

/-- A value is read. -/
def read (data : Data) (i : Int) : Except Fault ℝ :=
  match data i with
  | some x => .ok x
  | none => .error .outside

/-- `CqGridDiff::diff`, include/aqsis/math/derivatives.h:165-199; `base` is where `data` points to. -/
noncomputable def diff (data : Data) (base : Int) (useCentred : Bool) (stride n nSize : Int) : Except Fault ℝ :=
  if useCentred ∧ nSize > 2 then
    if n = 0 then do
      let a ← read data base
      let b ← read data (base + stride)
      let c ← read data (base + 2 * stride)
      return -1.5 * a + 2 * b - 0.5 * c
    else if n = nSize - 1 then do
      let a ← read data base
      let b ← read data (base + -1 * stride)
      let c ← read data (base + -2 * stride)
      return 1.5 * a - 2 * b + 0.5 * c
    else do
      let a ← read data (base + stride)
      let b ← read data (base - stride)
      return 0.5 * (a - b)
  else
    if n = nSize - 1 then do
      let a ← read data base
      let b ← read data (base - stride)
      return 0.5 * (a - b)
    else do
      let a ← read data (base + stride)
      let b ← read data base
      return 0.5 * (a - b)

/-- The members of `CqGridDiff`, include/aqsis/math/derivatives.h:90-99. -/
structure GridDiff where
  uRes : Int
  vRes : Int
  uDiffZero : Bool
  vDiffZero : Bool
  useCentred : Bool

/-- `diffU`, include/aqsis/math/derivatives.h:133-143. -/
noncomputable def diffU (s : GridDiff) (data : Data) (u v : Int) : Except Fault ℝ :=
  if s.uDiffZero then .ok 0
  else if ¬ (u ≥ 0 ∧ u < s.uRes) then .error .assertion
  else if ¬ (v ≥ 0 ∧ v < s.vRes) then .error .assertion
  else diff data (v * s.uRes + u) s.useCentred 1 u s.uRes

/-- `diffV`, include/aqsis/math/derivatives.h:145-155. -/
noncomputable def diffV (s : GridDiff) (data : Data) (u v : Int) : Except Fault ℝ :=
  if s.vDiffZero then .ok 0
  else if ¬ (u ≥ 0 ∧ u < s.uRes) then .error .assertion
  else if ¬ (v ≥ 0 ∧ v < s.vRes) then .error .assertion
  else diff data (v * s.uRes + u) s.useCentred s.uRes v s.vRes

/-- `m_diffUidx` and `m_diffVidx`, libs/shadervm/shaderexecenv/shaderexecenv.cpp:289-296. -/
def indices (uSize vSize : Nat) : List (Nat × Nat) :=
  (List.range vSize).flatMap fun v => (List.range uSize).map fun u => (u, v)

/-- The settings, libs/shadervm/shaderexecenv/shaderexecenv.cpp:283-284, 310-311. -/
def settings (uGridRes vGridRes : Nat) (hasValidDerivatives useCentred : Bool) : GridDiff :=
  ⟨uGridRes + 1, vGridRes + 1, !hasValidDerivatives, !hasValidDerivatives, useCentred⟩

/-- `derivU`, libs/shadervm/shaderexecenv/shaderexecenv.h:729-737, with the value of `du` and that for where there is none. -/
noncomputable def derivU (s : GridDiff) (data : Data) (u v : Int) (du undefVal : ℝ) : Except Fault ℝ :=
  if du = 0 then .ok undefVal
  else do
    let d ← diffU s data u v
    return d * (1 / du)

/-- `derivV`, libs/shadervm/shaderexecenv/shaderexecenv.h:739-747. -/
noncomputable def derivV (s : GridDiff) (data : Data) (u v : Int) (dv undefVal : ℝ) : Except Fault ℝ :=
  if dv = 0 then .ok undefVal
  else do
    let d ← diffV s data u v
    return d * (1 / dv)

/-- `deriv`, libs/shadervm/shaderexecenv/shaderexecenv.h:685-726. -/
noncomputable def deriv (s : GridDiff) (y x : Data) (u v : Int) : Except Fault ℝ := do
  let dxu ← diffU s x u v
  let dxv ← diffV s x u v
  let absDxu := |dxu|
  if absDxu ≥ |dxv| then
    if absDxu > 0 then do
      let dy ← diffU s y u v
      return dy / dxu
    else return 0
  else do
    let dy ← diffV s y u v
    return dy / dxv

/-- `SO_area` at a point, libs/shadervm/shaderexecenv/shadeops_deriv.cpp:679-680. -/
noncomputable def area (s : GridDiff) (p0 p1 p2 : Data) (u v : Int) : Except Fault ℝ := do
  let a0 ← diffU s p0 u v
  let a1 ← diffU s p1 u v
  let a2 ← diffU s p2 u v
  let b0 ← diffV s p0 u v
  let b1 ← diffV s p1 u v
  let b2 ← diffV s p2 u v
  let c0 := a1 * b2 - a2 * b1
  let c1 := a2 * b0 - a0 * b2
  let c2 := a0 * b1 - a1 * b0
  return Real.sqrt (c0 * c0 + c1 * c1 + c2 * c2)

end Verif.Shader.Deriv
