import Mathlib.Analysis.SpecialFunctions.Pow.Real

/-!
# Model of the interpolation of child hairs

`ParentHairs`, `/repo/tools/procedurals/hairgen/parenthairs.cpp`.

Simplifications: numbers of type float are real. Arrays are functions of the index without end.
-/

namespace Verif.Tools.Hairs

/-- `w` of a parent at squared distance `dis`, tools/procedurals/hairgen/parenthairs.cpp:346. -/
noncomputable def decay (dis maxDis : ℝ) : ℝ := (2 : ℝ) ^ (-10 * Real.sqrt (dis / maxDis))

/-- The weights of `getParents`, tools/procedurals/hairgen/parenthairs.cpp:334-352, for the squared
distances of the parents, the nearest first; none if there is a division of zero by zero, or no
parent. -/
noncomputable def parentWeights (dis : List ℝ) : Option (List ℝ) :=
  match dis.getLast? with
  | none => none
  | some maxDis =>
    if maxDis = 0 then none
    else
      let ws := dis.map fun d => decay d maxDis
      some (ws.map fun w => w / ws.sum)

/-- One component of an interpolated value, tools/procedurals/hairgen/parenthairs.cpp:184-197, for the
values of the parents, `stride` numbers each. -/
noncomputable def interpolated (stride : Nat) (src : Nat → ℝ) (parents : List (Nat × ℝ)) (k : Nat) : ℝ :=
  parents.foldl (fun acc p => acc + src (stride * p.1 + k) * p.2) 0

/-- A variable of the child hairs during the correction. -/
structure Var where
  /-- whether the class is uniform, varying or vertex and the type is point -/
  corrected : Bool
  stride : Nat
  val : Nat → ℝ

/-- The correction of a curve, tools/procedurals/hairgen/parenthairs.cpp:231-237; strides of points are
multiples of 3. -/
def shift (val : Nat → ℝ) (stride curve : Nat) (delta : Nat → ℝ) : Nat → ℝ := fun m =>
  if curve * stride ≤ m ∧ m < (curve + 1) * stride then val m + delta ((m - curve * stride) % 3) else val m

/-- `P_child`, tools/procedurals/hairgen/parenthairs.cpp:201: the values of the variable `p`. -/
def valOf (vars : List Var) (p : Nat) : Nat → ℝ :=
  match vars[p]? with
  | some v => v.val
  | none => fun _ => 0

/-- The correction of the first curves of variable `i`, tools/procedurals/hairgen/parenthairs.cpp:
225-238. -/
def correctCurves (emit : Nat → Nat → ℝ) (root p i : Nat) : Nat → List Var → List Var
  | 0, vars => vars
  | c + 1, vars =>
    let vars' := correctCurves emit root p i c vars
    match vars'[i]? with
    | none => vars'
    | some v =>
      let P := valOf vars' p
      let delta := fun j => emit c j - P (v.stride * c + 3 * root + j)
      vars'.set i { v with val := shift v.val v.stride c delta }

/-- The correction, tools/procedurals/hairgen/parenthairs.cpp:205-239, of the first variables, for
`numChildren` curves. -/
def correct (emit : Nat → Nat → ℝ) (root p numChildren : Nat) : Nat → List Var → List Var
  | 0, vars => vars
  | i + 1, vars =>
    let vars' := correct emit root p numChildren i vars
    match vars'[i]? with
    | none => vars'
    | some v => if v.corrected then correctCurves emit root p i numChildren vars' else vars'

/-- The exponent of `computeClumpWeights`, tools/procedurals/hairgen/parenthairs.cpp:290-294. -/
noncomputable def clumpPow (shape : ℝ) : ℝ := if shape < 0 then 1 + shape else 1 + 9 * shape

/-- `computeClumpWeights`, tools/procedurals/hairgen/parenthairs.cpp:285-307, for vertex `i` of `n`;
`n` is not 1. -/
noncomputable def clumpWeight (clump shape : ℝ) (n i : Nat) : ℝ :=
  let v := (i : ℝ) / ((n : ℝ) - 1)
  let v := if clump < 0 then 1 - v else v
  |clump| * v ^ clumpPow shape

/-- Clumping of a component of vertex `k`, tools/procedurals/hairgen/parenthairs.cpp:251-257. -/
noncomputable def clumped (clump shape : ℝ) (n k : Nat) (child parent : ℝ) : ℝ :=
  (1 - clumpWeight clump shape n k) * child + clumpWeight clump shape n k * parent

/-- The index of the root, tools/procedurals/hairgen/parenthairs.cpp:79-88. -/
def rootIndex (linear : Bool) (given : Int) : Int := if given < 0 then (if linear then 0 else 1) else given

/-- `perChildStorage` for a variable, tools/procedurals/hairgen/parenthairs.cpp:372-390: none for an
exception. -/
def storageCount (constant : Bool) (size numParents : Nat) : Option Nat :=
  if constant then some 0
  else if size % numParents ≠ 0 then none
  else some (size / numParents)

end Verif.Tools.Hairs
