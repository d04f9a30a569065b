import Mathlib.LinearAlgebra.Matrix.NonsingularInverse
import Mathlib.Data.Matrix.Mul
import Mathlib.Algebra.Order.Field.Basic
import Mathlib.Analysis.SpecialFunctions.Trigonometric.Inverse

/-!
# Matrices

Model of `CqMatrix`, include/aqsis/math/matrix.h and libs/math/matrix.cpp: 4 × 4 matrices with a flag that says that the matrix
is the identity. Numbers are elements of an ordered field.
-/

namespace Verif.Math.Matrix4

variable {K : Type} [Field K] [LinearOrder K] [IsStrictOrderedRing K]

/-- `m_elements` and `m_fIdentity`, include/aqsis/math/matrix.h:354-361. -/
structure Mat (K : Type) where
  m : Matrix (Fin 4) (Fin 4) K
  ident : Bool

/-- `Identity`, include/aqsis/math/matrix.h:498-521. -/
def identity : Mat K := ⟨fun i j => if i = j then 1 else 0, true⟩

/-- `operator*=` and `operator*`, libs/math/matrix.cpp:150-229; include/aqsis/math/matrix.h:636-641. -/
def mul (a b : Mat K) : Mat K :=
  if a.ident then b
  else if b.ident then a
  else ⟨fun i j => b.m i 0 * a.m 0 j + b.m i 1 * a.m 1 j + b.m i 2 * a.m 2 j + b.m i 3 * a.m 3 j, false⟩

/-- `PreMultiply`, libs/math/matrix.cpp:232-311. -/
def preMul (a b : Mat K) : Mat K :=
  if a.ident then b
  else if b.ident then a
  else ⟨fun i j => a.m i 0 * b.m 0 j + a.m i 1 * b.m 1 j + a.m i 2 * b.m 2 j + a.m i 3 * b.m 3 j, false⟩

/-- `Transpose`, include/aqsis/math/matrix.h:886-917. -/
def transpose (a : Mat K) : Mat K := if a.ident then a else ⟨fun i j => a.m j i, false⟩

/-- A vector with four components times a matrix, include/aqsis/math/matrix.h:687-715. -/
def apply4 (a : Mat K) (v : Fin 4 → K) : Fin 4 → K :=
  if a.ident then v else fun j => a.m 0 j * v 0 + a.m 1 j * v 1 + a.m 2 j * v 2 + a.m 3 j * v 3

/-- `PreMultiply` of a vector, include/aqsis/math/matrix.h:643-671, 944-947. -/
def preApply4 (a : Mat K) (v : Fin 4 → K) : Fin 4 → K :=
  if a.ident then v else fun i => a.m i 0 * v 0 + a.m i 1 * v 1 + a.m i 2 * v 2 + a.m i 3 * v 3

/-- A point times a matrix, include/aqsis/math/matrix.h:717-750; `none`: the assertion fails. -/
def apply3 (a : Mat K) (v : Fin 3 → K) : Option (Fin 3 → K) :=
  if a.ident then some v
  else
    let h := a.m 0 3 * v 0 + a.m 1 3 * v 1 + a.m 2 3 * v 2 + a.m 3 3
    let r : Fin 3 → K := fun j =>
      a.m 0 j.castSucc * v 0 + a.m 1 j.castSucc * v 1 + a.m 2 j.castSucc * v 2 + a.m 3 j.castSucc
    if h = 1 then some r
    else if h = 0 then none
    else some fun j => r j * (1 / h)

/-! ## Inverse -/

/-- The row with the largest element of column `j`, from row `j` on, libs/math/matrix.cpp:336-343. -/
def pivot (a : Matrix (Fin 4) (Fin 4) K) (j : Fin 4) : Fin 4 :=
  (List.finRange 4).foldl (fun i1 i => if i > j ∧ |a i j| > |a i1 j| then i else i1) j

/-- Two rows are exchanged, libs/math/matrix.cpp:345-375. -/
def swapRows (a : Matrix (Fin 4) (Fin 4) K) (p q : Fin 4) : Matrix (Fin 4) (Fin 4) K :=
  fun i => if i = p then a q else if i = q then a p else a i

/-- Row `j` of `b` is scaled, libs/math/matrix.cpp:384-388. -/
def scaleB (s : K) (j : Fin 4) (b : Matrix (Fin 4) (Fin 4) K) : Matrix (Fin 4) (Fin 4) K :=
  fun i k => if i = j then b i k * s else b i k

/-- Row `j` of `a` is scaled, only to the right of the diagonal, libs/math/matrix.cpp:389-394. -/
def scaleA (s : K) (j : Fin 4) (a : Matrix (Fin 4) (Fin 4) K) : Matrix (Fin 4) (Fin 4) K :=
  fun i k => if i = j then (if k > j then a i k * s else if k = j then 1 else a i k) else a i k

/-- Row `j` is subtracted from the others in `b`, libs/math/matrix.cpp:397-405. (All rows at once: row `j` does not change, and
each row is changed by its own turn only.) -/
def elimB (j : Fin 4) (a b : Matrix (Fin 4) (Fin 4) K) : Matrix (Fin 4) (Fin 4) K :=
  fun i k => if i = j then b i k else b i k - a i j * b j k

/-- Row `j` is subtracted from the others in `a`, only to the right of the diagonal, libs/math/matrix.cpp:397-401, 407-413. -/
def elimA (j : Fin 4) (a : Matrix (Fin 4) (Fin 4) K) : Matrix (Fin 4) (Fin 4) K :=
  fun i k => if i = j then a i k else if k > j then a i k - a i j * a j k else if k = j then 0 else a i k

/-- One column, libs/math/matrix.cpp:334-416; `none`: the pivot is zero and the division by it gives no number. -/
def column (s : Matrix (Fin 4) (Fin 4) K × Matrix (Fin 4) (Fin 4) K) (j : Fin 4) :
    Option (Matrix (Fin 4) (Fin 4) K × Matrix (Fin 4) (Fin 4) K) :=
  let p := pivot s.1 j
  let a := swapRows s.1 p j
  let b := swapRows s.2 p j
  if a j j = 0 then none
  else
    let scale := 1 / a j j
    let a' := scaleA scale j a
    let b' := scaleB scale j b
    some (elimA j a', elimB j a' b')

/-- `Inverse`, libs/math/matrix.cpp:315-420. -/
def inverse (x : Mat K) : Option (Mat K) :=
  if x.ident then some x
  else ((List.finRange 4).foldlM column (x.m, (identity : Mat K).m)).map fun s => ⟨s.2, false⟩

/-! ## Determinant -/

/-- libs/math/matrix.cpp:428-431. -/
def det2x2 (a b c d : K) : K := a * d - b * c

/-- libs/math/matrix.cpp:434-441. -/
def det3x3 (a1 a2 a3 b1 b2 b3 c1 c2 c3 : K) : K :=
  a1 * det2x2 b2 b3 c2 c3 - b1 * det2x2 a2 a3 c2 c3 + c1 * det2x2 a2 a3 b2 b3

/-- `Determinant`, libs/math/matrix.cpp:446-473. -/
def determinant (x : Mat K) : K :=
  let a1 := x.m 0 0; let b1 := x.m 0 1; let c1 := x.m 0 2; let d1 := x.m 0 3
  let a2 := x.m 1 0; let b2 := x.m 1 1; let c2 := x.m 1 2; let d2 := x.m 1 3
  let a3 := x.m 2 0; let b3 := x.m 2 1; let c3 := x.m 2 2; let d3 := x.m 2 3
  let a4 := x.m 3 0; let b4 := x.m 3 1; let c4 := x.m 3 2; let d4 := x.m 3 3
  a1 * det3x3 b2 b3 b4 c2 c3 c4 d2 d3 d4 - b1 * det3x3 a2 a3 a4 c2 c3 c4 d2 d3 d4
    + c1 * det3x3 a2 a3 a4 b2 b3 b4 d2 d3 d4 - d1 * det3x3 a2 a3 a4 b2 b3 b4 c2 c3 c4

/-! ## Vectors and normals -/

/-- `vectorTransform`, include/aqsis/math/matrix.h:981-989. -/
def vectorTransform (x : Mat K) : Mat K :=
  ⟨fun i j => if i = 3 then (if j = 3 then 1 else 0) else if j = 3 then 0 else x.m i j, x.ident⟩

/-- `normalTransform`, include/aqsis/math/matrix.h:992-995. -/
def normalTransform (x : Mat K) : Option (Mat K) := (inverse (vectorTransform x)).map transpose

/-! ## Construction -/

/-- A scale, include/aqsis/math/matrix.h:404-417. -/
def scaleMat (x y z : K) : Mat K :=
  if x ≠ 1 ∨ y ≠ 1 ∨ z ≠ 1 then
    ⟨fun i j => if i = 0 ∧ j = 0 then x else if i = 1 ∧ j = 1 then y else if i = 2 ∧ j = 2 then z else if i = j then 1 else 0, false⟩
  else identity

/-- A translation, include/aqsis/math/matrix.h:420-432. -/
def translateMat (t : Fin 3 → K) : Mat K :=
  if t 0 ≠ 0 ∨ t 1 ≠ 0 ∨ t 2 ≠ 0 then
    ⟨fun i j => if i = 3 then (if j = 0 then t 0 else if j = 1 then t 1 else if j = 2 then t 2 else 1) else if i = j then 1 else 0,
      false⟩
  else identity

/-- The matrix of a rotation with the sine `s`, the cosine `c` and the axis `n` (of length one), libs/math/matrix.cpp:100-131. -/
def rotation (s c : K) (n : Fin 3 → K) : Mat K :=
  let t := 1 - c
  ⟨![![t * n 0 * n 0 + c, t * n 0 * n 1 + s * n 2, t * n 0 * n 2 - s * n 1, 0],
     ![t * n 0 * n 1 - s * n 2, t * n 1 * n 1 + c, t * n 1 * n 2 + s * n 0, 0],
     ![t * n 0 * n 2 + s * n 1, t * n 1 * n 2 - s * n 0, t * n 2 * n 2 + c, 0],
     ![0, 0, 0, 1]], false⟩

/-- `S * a`, include/aqsis/math/matrix.h:919-942. -/
def scalarMul (S : K) (a : Mat K) : Mat K := ⟨fun i j => a.m i j * S, a.ident⟩

/-- `a * S`, include/aqsis/math/matrix.h:673-685. -/
def mulScalar (a : Mat K) (S : K) : Mat K := preMul a (scaleMat S S S)

/-- `a + b`, include/aqsis/math/matrix.h:752-781. -/
def add (a b : Mat K) : Mat K := ⟨fun i j => a.m i j + b.m i j, false⟩

/-- Sum of the squares of all elements, libs/math/matrix.cpp:524-534. -/
def sumSq (x : Matrix (Fin 4) (Fin 4) K) : K :=
  (List.finRange 4).foldl (fun r i => (List.finRange 4).foldl (fun r j => r + x i j * x i j) r) 0

/-- The comparison of the elements, libs/math/matrix.cpp:524-536. -/
def closeElements (tol : K) (a b : Matrix (Fin 4) (Fin 4) K) : Bool :=
  let diff := sumSq (a - b)
  decide (diff ≤ tol * tol * sumSq a) || decide (diff ≤ tol * tol * sumSq b)

/-- `isClose`, libs/math/matrix.cpp:502-537, for matrices at different addresses; `dflt` is the default tolerance,
include/aqsis/math/matrix.h:377-378. -/
def isClose (dflt : K) (a b : Mat K) (tol : K) : Bool :=
  if a.ident && b.ident then true
  else if a.ident then closeElements dflt b.m (identity : Mat K).m
  else if b.ident then closeElements dflt a.m (identity : Mat K).m
  else closeElements tol a.m b.m

/-- The matrix `Rot` of a skew, from the axes, libs/math/matrix.cpp:67-81: the columns are `right`, `d1ortho` and `d2`. -/
def skewRot (right ortho d2 : Fin 3 → K) : Mat K :=
  ⟨![![right 0, ortho 0, d2 0, 0], ![right 1, ortho 1, d2 1, 0], ![right 2, ortho 2, d2 2, 0], ![0, 0, 0, 1]], false⟩

/-- The matrix `Skw`, libs/math/matrix.cpp:85-88. -/
def skewMat (s : K) : Mat K := ⟨![![1, 0, 0, 0], ![0, 1, s, 0], ![0, 0, 1, 0], ![0, 0, 0, 1]], false⟩

/-- Cross product, include/aqsis/math/vector3d.h:608-616. -/
def cross (a b : Fin 3 → K) : Fin 3 → K := ![a 1 * b 2 - a 2 * b 1, a 2 * b 0 - a 0 * b 2, a 0 * b 1 - a 1 * b 0]

/-- Inner product, include/aqsis/math/vector3d.h:602-606. -/
def dot (a b : Fin 3 → K) : K := a 0 * b 0 + a 1 * b 1 + a 2 * b 2

/-- The amount of the skew, libs/math/matrix.cpp:82-84. -/
noncomputable def skewAmount (angle par : ℝ) : ℝ :=
  let perp := √(1 - par * par)
  Real.tan (angle + Real.arccos perp) * perp - par

/-- A skew with axes of length one, libs/math/matrix.cpp:39-92. -/
noncomputable def skew (angle : ℝ) (d1 d2 : Fin 3 → ℝ) : Mat ℝ :=
  let par := dot d1 d2
  let axisangle := Real.arccos par
  if angle ≥ axisangle ∨ angle ≤ axisangle - Real.pi then identity
  else
    let r := cross d1 d2
    let len := √(dot r r)
    let right : Fin 3 → ℝ := fun i => r i / len
    let ortho := cross d2 right
    let rot := skewRot right ortho d2
    mul (mul (transpose rot) (skewMat (skewAmount angle par))) rot

end Verif.Math.Matrix4
