import Verif.Math.MatrixLemmas
import Mathlib.Data.Rat.Floor
import Mathlib.Tactic.NormNum
import Mathlib.Tactic.LinearCombination
import Mathlib.LinearAlgebra.Matrix.Determinant.Basic

/-! # C60: matrices -/

namespace Verif.Math.Matrix4

variable {K : Type} [Field K] [LinearOrder K] [IsStrictOrderedRing K]

/-- The flag does not lie: a matrix that is marked as the identity is the identity. -/
def Sound (a : Mat K) : Prop := a.ident = true → a.m = 1

/-- A vector with the fourth component one. -/
def hom (v : Fin 3 → K) : Fin 4 → K := ![v 0, v 1, v 2, 1]

/-- **C60.** `a * b` is the matrix that applies `b` first, `PreMultiply` the one that applies the old matrix first; the flags stay
right; so are transposes, identities and sums. -/
theorem C60_product (a b : Mat K) (ha : Sound a) (hb : Sound b) :
    (mul a b).m = b.m * a.m ∧ Sound (mul a b) ∧ (preMul a b).m = a.m * b.m ∧ Sound (preMul a b) ∧
    (transpose a).m = a.m.transpose ∧ Sound (transpose a) ∧ (identity : Mat K).m = 1 ∧
    (add a b).m = a.m + b.m ∧ Sound (add a b) := by
  refine ⟨mul_m a b ha hb, ?_, preMul_m a b ha hb, ?_, ?_, ?_, identity_m, ?_, ?_⟩
  · unfold Sound mul
    by_cases h1 : a.ident = true
    · rw [if_pos h1]; exact hb
    rw [if_neg h1]
    by_cases h2 : b.ident = true
    · rw [if_pos h2]; exact ha
    rw [if_neg h2]
    exact fun h => absurd h (by simp)
  · unfold Sound preMul
    by_cases h1 : a.ident = true
    · rw [if_pos h1]; exact hb
    rw [if_neg h1]
    by_cases h2 : b.ident = true
    · rw [if_pos h2]; exact ha
    rw [if_neg h2]
    exact fun h => absurd h (by simp)
  · unfold transpose
    by_cases h1 : a.ident = true
    · rw [if_pos h1, ha h1, Matrix.transpose_one]
    · rw [if_neg h1]; rfl
  · unfold Sound transpose
    by_cases h1 : a.ident = true
    · rw [if_pos h1]; exact ha
    · rw [if_neg h1]; exact fun h => absurd h (by simp)
  · rfl
  · exact fun h => absurd h (by simp [add])

/-- Not vacuous: two translations and a scale. -/
example : (mul (translateMat (K := ℚ) ![1, 2, 3]) (scaleMat 2 2 2)).m 3 0 = 1 ∧
    (mul (scaleMat (K := ℚ) 2 2 2) (translateMat ![1, 2, 3])).m 3 0 = 2 := by decide +kernel

/-- **C60.** The inverse exists just for a matrix with a determinant other than zero, and it is the inverse. -/
theorem C60_inverse (a : Mat K) (ha : Sound a) :
    (inverse a = none ↔ a.m.det = 0) ∧
    ∀ b, inverse a = some b → Sound b ∧ b.m * a.m = 1 ∧ a.m * b.m = 1 := by
  unfold inverse
  by_cases h : a.ident = true
  · rw [if_pos h]
    refine ⟨⟨fun e => absurd e (by simp), fun e => ?_⟩, fun b hb => ?_⟩
    · rw [ha h, Matrix.det_one] at e
      exact absurd e one_ne_zero
    · have := Option.some.inj hb
      subst this
      exact ⟨ha, by rw [ha h, mul_one], by rw [ha h, mul_one]⟩
  · rw [if_neg h, identity_m]
    obtain ⟨h1, h2⟩ := inverse_spec a.m
    refine ⟨by rw [Option.map_eq_none_iff]; exact h1, fun b hb => ?_⟩
    obtain ⟨s, hs, rfl⟩ := Option.map_eq_some_iff.1 hb
    have := h2 s hs
    exact ⟨fun e => absurd e (by simp), this, mul_eq_one_comm.1 this⟩

/-- Not vacuous: a matrix that needs its rows exchanged, and a singular one. -/
example : ((inverse (⟨![![0, 2, 0, 0], ![1, 1, 0, 0], ![0, 0, 1, 3], ![0, 0, 1, 1]], false⟩ : Mat ℚ)).map fun b =>
      (List.finRange 4).map fun i => (List.finRange 4).map fun j => b.m i j) =
      some [[-1/2, 1, 0, 0], [1/2, 0, 0, 0], [0, 0, -1/2, 3/2], [0, 0, 1/2, -1/2]] ∧
    (inverse (⟨![![1, 2, 0, 0], ![2, 4, 0, 0], ![0, 0, 1, 3], ![0, 0, 1, 1]], false⟩ : Mat ℚ)).isNone = true := by
  decide +kernel

omit [LinearOrder K] [IsStrictOrderedRing K] in
/-- **C60.** `Determinant` is the determinant. -/
theorem C60_determinant (a : Mat K) : determinant a = a.m.det := by
  rw [Matrix.det_succ_row_zero]
  simp only [Fin.sum_univ_four, Matrix.det_fin_three, Matrix.submatrix_apply, determinant, det3x3, det2x2]
  simp [Fin.succAbove, Fin.lt_def]
  ring

example : determinant (scaleMat (K := ℚ) 2 3 5) = 30 := by decide +kernel

/-- **C60.** A product applied to a vector is one matrix after the other; `PreMultiply` of a vector is the product with the
column vector. -/
theorem C60_vectors (a b : Mat K) (ha : Sound a) (hb : Sound b) (v : Fin 4 → K) :
    apply4 a v = Matrix.vecMul v a.m ∧ preApply4 a v = Matrix.mulVec a.m v ∧
    apply4 (mul a b) v = apply4 a (apply4 b v) ∧ preApply4 (mul a b) v = preApply4 b (preApply4 a v) := by
  have e1 : ∀ x : Mat K, Sound x → ∀ v, apply4 x v = Matrix.vecMul v x.m := by
    intro x hx v
    unfold apply4
    by_cases h : x.ident = true
    · rw [if_pos h, hx h, Matrix.vecMul_one]
    · rw [if_neg h]
      funext j
      simp only [Matrix.vecMul, dotProduct, Fin.sum_univ_four]
      ring
  have e2 : ∀ x : Mat K, Sound x → ∀ v, preApply4 x v = Matrix.mulVec x.m v := by
    intro x hx v
    unfold preApply4
    by_cases h : x.ident = true
    · rw [if_pos h, hx h, Matrix.one_mulVec]
    · rw [if_neg h]
      funext j
      simp only [Matrix.mulVec, dotProduct, Fin.sum_univ_four]
  obtain ⟨m1, m2, -⟩ := C60_product a b ha hb
  refine ⟨e1 a ha v, e2 a ha v, ?_, ?_⟩
  · rw [e1 _ m2, e1 a ha, e1 b hb, m1, Matrix.vecMul_vecMul]
  · rw [e2 _ m2, e2 a ha, e2 b hb, m1, Matrix.mulVec_mulVec]

example : apply4 (mul (translateMat (K := ℚ) ![1, 2, 3]) (scaleMat 2 2 2)) ![1, 1, 1, 1] = ![3, 4, 5, 1] := by decide +kernel

/-- What `apply3` does, without the flag. -/
theorem apply3_spec (a : Mat K) (ha : Sound a) (v : Fin 3 → K) :
    apply3 a v = if Matrix.vecMul (hom v) a.m 3 = 0 then none
      else some fun j => Matrix.vecMul (hom v) a.m j.castSucc / Matrix.vecMul (hom v) a.m 3 := by
  unfold apply3
  by_cases h : a.ident = true
  · rw [if_pos h, ha h, Matrix.vecMul_one, if_neg (by simp [hom])]
    congr 1
    funext j
    fin_cases j <;> simp [hom]
  · rw [if_neg h]
    have e3 : Matrix.vecMul (hom v) a.m 3 = a.m 0 3 * v 0 + a.m 1 3 * v 1 + a.m 2 3 * v 2 + a.m 3 3 := by
      simp only [Matrix.vecMul, dotProduct, Fin.sum_univ_four, hom]
      simp
      ring
    have ej : ∀ j : Fin 4, Matrix.vecMul (hom v) a.m j = a.m 0 j * v 0 + a.m 1 j * v 1 + a.m 2 j * v 2 + a.m 3 j := by
      intro j
      simp only [Matrix.vecMul, dotProduct, Fin.sum_univ_four, hom]
      simp
      ring
    simp only [ej]
    by_cases h1 : a.m 0 3 * v 0 + a.m 1 3 * v 1 + a.m 2 3 * v 2 + a.m 3 3 = 1
    · rw [if_pos h1, h1, if_neg one_ne_zero]
      congr 1
      funext j
      rw [div_one]
    · rw [if_neg h1]
      by_cases h0 : a.m 0 3 * v 0 + a.m 1 3 * v 1 + a.m 2 3 * v 2 + a.m 3 3 = 0
      · rw [if_pos h0, if_pos h0]
      · rw [if_neg h0, if_neg h0]
        congr 1
        funext j
        rw [mul_one_div]

/-- **C60.** A point is transformed to the point with the transformed homogeneous coordinates; the assertion fails just when
there is none, and a product transforms by one matrix after the other. -/
theorem C60_points (a b : Mat K) (ha : Sound a) (hb : Sound b) (v : Fin 3 → K) :
    (apply3 a v = none ↔ Matrix.vecMul (hom v) a.m 3 = 0) ∧
    (∀ w, apply3 a v = some w →
      ∃ h : K, h ≠ 0 ∧ Matrix.vecMul (hom v) a.m = h • hom w) ∧
    (∀ w, apply3 b v = some w → apply3 (mul a b) v = apply3 a w) := by
  have s2 : ∀ x : Mat K, Sound x → ∀ v w, apply3 x v = some w →
      Matrix.vecMul (hom v) x.m 3 ≠ 0 ∧ Matrix.vecMul (hom v) x.m = Matrix.vecMul (hom v) x.m 3 • hom w := by
    intro x hx v w hw
    rw [apply3_spec x hx] at hw
    by_cases h0 : Matrix.vecMul (hom v) x.m 3 = 0
    · rw [if_pos h0] at hw; exact absurd hw (by simp)
    · rw [if_neg h0] at hw
      have := Option.some.inj hw
      subst this
      refine ⟨h0, ?_⟩
      funext j
      rw [Pi.smul_apply, smul_eq_mul]
      fin_cases j
      · show Matrix.vecMul (hom v) x.m 0 = _ * (_ / _); rw [mul_div_cancel₀ _ h0]; rfl
      · show Matrix.vecMul (hom v) x.m 1 = _ * (_ / _); rw [mul_div_cancel₀ _ h0]; rfl
      · show Matrix.vecMul (hom v) x.m 2 = _ * (_ / _); rw [mul_div_cancel₀ _ h0]; rfl
      · show Matrix.vecMul (hom v) x.m 3 = _ * 1; rw [mul_one]
  refine ⟨?_, ?_, ?_⟩
  · rw [apply3_spec a ha]
    split_ifs with h <;> simp [h]
  · intro w hw
    exact ⟨_, s2 a ha v w hw⟩
  · intro w hw
    obtain ⟨h0, h1⟩ := s2 b hb v w hw
    obtain ⟨m1, m2, -⟩ := C60_product a b ha hb
    rw [apply3_spec _ m2, apply3_spec a ha, m1, ← Matrix.vecMul_vecMul, h1, Matrix.smul_vecMul]
    simp only [Pi.smul_apply, smul_eq_mul]
    by_cases h2 : Matrix.vecMul (hom w) a.m 3 = 0
    · rw [if_pos h2, if_pos (by rw [h2, mul_zero])]
    · rw [if_neg h2, if_neg (mul_ne_zero h0 h2)]
      congr 1
      funext j
      rw [mul_div_mul_left _ _ h0]

/-- Not vacuous: a projection divides by the depth, and sends a point to infinity. -/
example : apply3 (⟨![![1, 0, 0, 0], ![0, 1, 0, 0], ![0, 0, 1, 1], ![0, 0, 0, 0]], false⟩ : Mat ℚ) ![4, 6, 2] = some ![2, 3, 1] ∧
    (apply3 (⟨![![1, 0, 0, 0], ![0, 1, 0, 0], ![0, 0, 1, 1], ![0, 0, 0, 0]], false⟩ : Mat ℚ) ![4, 6, 0]).isNone = true := by
  decide +kernel

omit [IsStrictOrderedRing K] in
/-- **C60.** Translations move, scales scale, and both say truly whether they are the identity. -/
theorem C60_translate_scale (t v : Fin 3 → K) (x y z : K) :
    apply3 (translateMat t) v = some (fun j => v j + t j) ∧ Sound (translateMat t) ∧
    apply3 (scaleMat x y z) v = some ![v 0 * x, v 1 * y, v 2 * z] ∧ Sound (scaleMat x y z) := by
  have st : Sound (translateMat t) := by
    unfold Sound translateMat
    split_ifs
    · exact fun h => absurd h (by simp)
    · exact fun _ => identity_m
  have ss : Sound (scaleMat x y z) := by
    unfold Sound scaleMat
    split_ifs
    · exact fun h => absurd h (by simp)
    · exact fun _ => identity_m
  refine ⟨?_, st, ?_, ss⟩
  · unfold translateMat
    split_ifs with h
    · unfold apply3
      simp
      funext j
      fin_cases j <;> simp
    · push Not at h
      obtain ⟨h0, h1, h2⟩ := h
      show some v = _
      congr 1
      funext j
      fin_cases j <;> simp [h0, h1, h2]
  · unfold scaleMat
    split_ifs with h
    · unfold apply3
      simp
      funext j
      fin_cases j <;> simp [mul_comm]
    · push Not at h
      obtain ⟨h0, h1, h2⟩ := h
      show some v = _
      congr 1
      funext j
      fin_cases j <;> simp [h0, h1, h2]

/-- **C60.** A rotation about an axis of length one is the rotation of Rodrigues' formula: the axis stays, lengths and angles
stay, and a vector at right angles to the axis is turned by the angle. -/
theorem C60_rotation (s c : K) (n v w : Fin 3 → K) (hn : dot n n = 1) (hsc : s * s + c * c = 1) :
    ∃ r : (Fin 3 → K) → Fin 3 → K,
      (∀ x, apply3 (rotation s c n) x = some (r x)) ∧
      (∀ x, r x = fun j => c * x j + (1 - c) * dot n x * n j + s * cross n x j) ∧
      r n = n ∧ dot (r v) (r w) = dot v w := by
  have e : ∀ x : Fin 3 → K, apply3 (rotation s c n) x =
      some (fun j => c * x j + (1 - c) * dot n x * n j + s * cross n x j) := by
    intro x
    unfold apply3 rotation
    simp [dot, cross]
    funext j
    fin_cases j <;> simp <;> ring
  simp only [dot] at hn
  refine ⟨fun x j => c * x j + (1 - c) * dot n x * n j + s * cross n x j, e, fun x => rfl, ?_, ?_⟩
  · funext j
    fin_cases j
    · simp [dot, cross]; linear_combination ((1 - c) * n 0) * hn
    · simp [dot, cross]; linear_combination ((1 - c) * n 1) * hn
    · simp [dot, cross]; linear_combination ((1 - c) * n 2) * hn
  · simp [dot, cross]
    linear_combination
      (v 0 * w 0 + v 1 * w 1 + v 2 * w 2) * hsc +
      (s * s * (v 0 * w 0 + v 1 * w 1 + v 2 * w 2)
        + (1 - c) * (1 - c) * (n 0 * v 0 + n 1 * v 1 + n 2 * v 2) * (n 0 * w 0 + n 1 * w 1 + n 2 * w 2)) * hn +
      (-(n 0 * v 0 + n 1 * v 1 + n 2 * v 2) * (n 0 * w 0 + n 1 * w 1 + n 2 * w 2)) * hsc

example : apply3 (rotation (K := ℚ) 1 0 ![0, 0, 1]) ![1, 0, 0] = some ![0, 1, 0] := by decide +kernel

/-! ## Vectors and normals -/

/-- The matrix does not project: the fourth column is that of the identity. -/
def Affine (a : Mat K) : Prop := a.m 0 3 = 0 ∧ a.m 1 3 = 0 ∧ a.m 2 3 = 0 ∧ a.m 3 3 = 1

/-- What the left upper part of a matrix makes of a vector. -/
def lin (a : M K) (v : Fin 3 → K) : Fin 3 → K := fun j => v 0 * a 0 j.castSucc + v 1 * a 1 j.castSucc + v 2 * a 2 j.castSucc

omit [LinearOrder K] [IsStrictOrderedRing K] in
theorem vectorTransform_sound (a : Mat K) (ha : Sound a) : Sound (vectorTransform a) := by
  intro h
  have h1 := ha h
  ext i j
  show (if i = 3 then (if j = 3 then 1 else 0) else if j = 3 then 0 else a.m i j) = _
  rw [h1, Matrix.one_apply]
  fin_cases i <;> fin_cases j <;> simp

omit [IsStrictOrderedRing K] in
/-- A matrix without translation and projection. -/
theorem apply3_lin (a : Mat K) (ha : Sound a) (h : Affine a) (v : Fin 3 → K) :
    apply3 a v = some (fun j => lin a.m v j + a.m 3 j.castSucc) := by
  obtain ⟨h0, h1, h2, h3⟩ := h
  unfold apply3
  by_cases hi : a.ident = true
  · rw [if_pos hi, ha hi]
    congr 1
    funext j
    rcases (by omega : j = 0 ∨ j = 1 ∨ j = 2) with rfl | rfl | rfl
    · simp [lin, Matrix.one_apply]
    · simp [lin, Matrix.one_apply]
    · simp [lin, Matrix.one_apply]
  · rw [if_neg hi]
    simp only [h0, h1, h2, h3]
    rw [if_pos (by ring)]
    congr 1
    funext j
    simp only [lin]
    ring

omit [IsStrictOrderedRing K] in
/-- **C60.** For a matrix that does not project, `vectorTransform` transforms a vector to the difference of the transformed ends. -/
theorem C60_vector_transform (a : Mat K) (ha : Sound a) (h : Affine a) (p v : Fin 3 → K) :
    ∃ q r d, apply3 a p = some q ∧ apply3 a (fun j => p j + v j) = some r ∧ apply3 (vectorTransform a) v = some d ∧
      Sound (vectorTransform a) ∧ ∀ j, d j = r j - q j := by
  have hv : Affine (vectorTransform a) := by
    unfold Affine vectorTransform
    simp
  refine ⟨_, _, _, apply3_lin a ha h p, apply3_lin a ha h _, apply3_lin _ (vectorTransform_sound a ha) hv v,
    vectorTransform_sound a ha, ?_⟩
  intro j
  have e : ∀ i : Fin 4, i ≠ 3 → (vectorTransform a).m i j.castSucc = a.m i j.castSucc := by
    intro i hi
    show (if i = 3 then _ else if j.castSucc = 3 then 0 else _) = _
    rw [if_neg hi, if_neg]
    intro hj
    have := congrArg Fin.val hj
    simp at this
    omega
  have e3 : (vectorTransform a).m 3 j.castSucc = 0 := by
    show (if (3 : Fin 4) = 3 then (if j.castSucc = 3 then 1 else 0) else if j.castSucc = 3 then 0 else a.m 3 j.castSucc) = 0
    rw [if_pos rfl, if_neg]
    intro hj
    have := congrArg Fin.val hj
    simp at this
    omega
  simp only [lin, e 0 (by decide), e 1 (by decide), e 2 (by decide), e3]
  ring

/-- **C60.** `normalTransform` keeps right angles between normals and vectors, and all inner products of the two; there is none
just when the vectors are flattened. -/
theorem C60_normal_transform (a : Mat K) (ha : Sound a) :
    (normalTransform a = none ↔ (vectorTransform a).m.det = 0) ∧
    ∀ n, normalTransform a = some n → ∀ u v : Fin 3 → K, ∃ u' v',
      apply3 n u = some u' ∧ apply3 (vectorTransform a) v = some v' ∧ dot u' v' = dot u v := by
  have hs := vectorTransform_sound a ha
  obtain ⟨h1, h2⟩ := C60_inverse (vectorTransform a) hs
  unfold normalTransform
  refine ⟨by rw [Option.map_eq_none_iff]; exact h1, ?_⟩
  intro n hn u v
  obtain ⟨b, hb, rfl⟩ := Option.map_eq_some_iff.1 hn
  obtain ⟨sb, m1, m2⟩ := h2 b hb
  have hv : Affine (vectorTransform a) := by
    unfold Affine vectorTransform
    simp
  obtain ⟨-, -, -, -, tm, ts, -⟩ := C60_product b b sb sb
  have r3 : ∀ j, (vectorTransform a).m 3 j = if j = 3 then 1 else 0 := fun j => by
    show (if (3 : Fin 4) = 3 then (if j = 3 then 1 else 0) else if j = 3 then 0 else a.m 3 j) = _
    rw [if_pos rfl]
  obtain ⟨c0, c1, c2, c3⟩ := hv
  have E : ∀ i j, b.m i 0 * (vectorTransform a).m 0 j + b.m i 1 * (vectorTransform a).m 1 j +
      b.m i 2 * (vectorTransform a).m 2 j + b.m i 3 * (vectorTransform a).m 3 j = (1 : M K) i j := by
    intro i j
    rw [← m1, Matrix.mul_apply, Fin.sum_univ_four]
  have F : ∀ i j, (vectorTransform a).m i 0 * b.m 0 j + (vectorTransform a).m i 1 * b.m 1 j +
      (vectorTransform a).m i 2 * b.m 2 j + (vectorTransform a).m i 3 * b.m 3 j = (1 : M K) i j := by
    intro i j
    rw [← m2, Matrix.mul_apply, Fin.sum_univ_four]
  -- the last row of the inverse
  have b3 : ∀ j, b.m 3 j = (1 : M K) 3 j := by
    intro j
    have := F 3 j
    simp only [r3] at this
    simpa using this
  have bc : ∀ i, b.m i 3 = (1 : M K) i 3 := by
    intro i
    have := E i 3
    rw [c0, c1, c2, c3] at this
    simpa using this
  have hta : Affine (transpose b) := by
    unfold Affine
    rw [tm]
    simp only [Matrix.transpose_apply, b3]
    simp
  refine ⟨_, _, apply3_lin _ ts hta u, apply3_lin _ hs ⟨c0, c1, c2, c3⟩ v, ?_⟩
  rw [tm]
  simp only [dot, lin, Matrix.transpose_apply, bc, r3]
  have f : ∀ i j : Fin 4, i ≠ 3 → (vectorTransform a).m i 0 * b.m 0 j + (vectorTransform a).m i 1 * b.m 1 j +
      (vectorTransform a).m i 2 * b.m 2 j = (1 : M K) i j := by
    intro i j hi
    have h := F i j
    have hz : (vectorTransform a).m i 3 = 0 := by
      show (if i = 3 then _ else if (3 : Fin 4) = 3 then 0 else _) = _
      rw [if_neg hi, if_pos rfl]
    rw [hz, zero_mul, add_zero] at h
    exact h
  have f00 := f 0 0 (by decide); have f01 := f 0 1 (by decide); have f02 := f 0 2 (by decide)
  have f10 := f 1 0 (by decide); have f11 := f 1 1 (by decide); have f12 := f 1 2 (by decide)
  have f20 := f 2 0 (by decide); have f21 := f 2 1 (by decide); have f22 := f 2 2 (by decide)
  simp [Matrix.one_apply] at f00 f01 f02 f10 f11 f12 f20 f21 f22 ⊢
  linear_combination (v 0 * u 0) * f00 + (v 0 * u 1) * f01 + (v 0 * u 2) * f02 + (v 1 * u 0) * f10 + (v 1 * u 1) * f11 +
    (v 1 * u 2) * f12 + (v 2 * u 0) * f20 + (v 2 * u 1) * f21 + (v 2 * u 2) * f22

/-- Not vacuous: a scale that is not the same in all directions, and a translation. -/
example : ((normalTransform (preMul (scaleMat (K := ℚ) 2 1 1) (translateMat ![5, 6, 7]))).bind fun n => apply3 n ![1, -1, 0]) =
      some ![1/2, -1, 0] ∧
    apply3 (vectorTransform (preMul (scaleMat (K := ℚ) 2 1 1) (translateMat ![5, 6, 7]))) ![1, 1, 0] = some ![2, 1, 0] := by
  decide +kernel

/-! ## Scalars -/

omit [LinearOrder K] [IsStrictOrderedRing K] in
/-- **C60**, what holds: `S * a` scales all elements, with a true flag when the matrix is not marked as the identity (or the
factor is one); sums of scaled matrices are right in any case. (Missing: see the violations.) -/
theorem C60_scalar_partial (S T : K) (a b : Mat K) (ha : Sound a) :
    (scalarMul S a).m = S • a.m ∧ (a.ident = false ∨ S = 1 → Sound (scalarMul S a)) ∧
    (add (scalarMul S a) (scalarMul T b)).m = S • a.m + T • b.m ∧ Sound (add (scalarMul S a) (scalarMul T b)) := by
  have e : ∀ (S : K) (a : Mat K), (scalarMul S a).m = S • a.m := by
    intro S a
    ext i j
    show a.m i j * S = S * a.m i j
    rw [mul_comm]
  refine ⟨e S a, ?_, ?_, fun h => absurd h (by simp [add])⟩
  · intro h hi
    rcases h with h | h
    · exact absurd hi (by rw [show (scalarMul S a).ident = a.ident from rfl, h]; simp)
    · rw [e, h, one_smul]
      exact ha hi
  · rw [← e, ← e]; rfl

/-- **C60 fails for `S * a`**: twice the identity is still marked as the identity, and products with it and vectors transformed by
it ignore the factor. -/
theorem C60_scalar_violated :
    ∃ a : Mat ℚ, Sound a ∧ ¬ Sound (scalarMul 2 a) ∧ (scalarMul 2 a).m 0 0 = 2 ∧
      (∀ b : Mat ℚ, mul (scalarMul 2 a) b = b) ∧ ∀ v, apply4 (scalarMul 2 a) v = v := by
  refine ⟨identity, fun _ => identity_m, ?_, ?_, ?_, ?_⟩
  · intro h
    have := congrFun (congrFun (h rfl) 0) 0
    simp [scalarMul, identity] at this
  · simp [scalarMul, identity]
  · intro b; rfl
  · intro v; rfl

/-- **C60 fails for `a * S`**: it does not scale the fourth column, and so it is not `S * a`. -/
theorem C60_scalar_sides_violated :
    ∃ a : Mat ℚ, Sound a ∧ (mulScalar a 2).m 3 3 = a.m 3 3 ∧ (scalarMul 2 a).m 3 3 = 2 * a.m 3 3 ∧ a.m 3 3 ≠ 0 :=
  ⟨⟨fun _ _ => 1, false⟩, fun h => absurd h (by simp), by decide +kernel, by decide +kernel, by decide +kernel⟩

/-! ## Comparison -/

/-- **C60**, what holds: two matrices that are not marked as the identity are close when the distance of their elements is at most
the tolerance times the length of one of them. (Missing: see the violation.) -/
theorem C60_close_partial (dflt tol : K) (a b : Mat K) (ha : a.ident = false) (hb : b.ident = false) :
    isClose dflt a b tol = true ↔
      (∑ i, ∑ j, (a.m i j - b.m i j) ^ 2) ≤ tol ^ 2 * max (∑ i, ∑ j, (a.m i j) ^ 2) (∑ i, ∑ j, (b.m i j) ^ 2) := by
  have e : ∀ x : M K, sumSq x = ∑ i, ∑ j, (x i j) ^ 2 := by
    intro x
    have hr : List.finRange 4 = [0, 1, 2, 3] := by decide
    simp only [sumSq, hr, List.foldl_cons, List.foldl_nil, Fin.sum_univ_four]
    ring
  unfold isClose
  simp only [ha, hb, Bool.false_and, Bool.false_eq_true, if_false, closeElements, Bool.or_eq_true, decide_eq_true_eq]
  rw [e, e, e, ← pow_two]
  simp only [Matrix.sub_apply]
  constructor
  · rintro (h | h)
    · exact le_trans h (mul_le_mul_of_nonneg_left (le_max_left _ _) (sq_nonneg _))
    · exact le_trans h (mul_le_mul_of_nonneg_left (le_max_right _ _) (sq_nonneg _))
  · intro h
    rcases le_total (∑ i, ∑ j, (a.m i j) ^ 2) (∑ i, ∑ j, (b.m i j) ^ 2) with h1 | h1
    · rw [max_eq_right h1] at h; exact Or.inr h
    · rw [max_eq_left h1] at h; exact Or.inl h

/-- **C60 fails for comparisons with the identity**: they take the default tolerance and ignore the one that was asked for. -/
theorem C60_close_violated :
    ∃ a b : Mat ℚ, Sound a ∧ Sound b ∧ isClose (10 / 2 ^ 23) a b 1 = false ∧
      (∑ i, ∑ j, (a.m i j - b.m i j) ^ 2) < 1 ^ 2 * ∑ i, ∑ j, (a.m i j) ^ 2 := by
  refine ⟨identity, translateMat ![1/10, 0, 0], fun _ => identity_m, (C60_translate_scale _ 0 1 1 1).2.1, by decide +kernel, ?_⟩
  simp only [Fin.sum_univ_four]
  decide +kernel

/-! ## Skews -/

omit [LinearOrder K] [IsStrictOrderedRing K] in
theorem rows_of_cols (r o d : Fin 3 → K) (hrr : dot r r = 1) (hoo : dot o o = 1) (hdd : dot d d = 1)
    (hro : dot r o = 0) (hrd : dot r d = 0) (hod : dot o d = 0) (i j : Fin 3) :
    r i * r j + o i * o j + d i * d j = if i = j then 1 else 0 := by
  let A : Matrix (Fin 3) (Fin 3) K := fun i k => ![r i, o i, d i] k
  let B : Matrix (Fin 3) (Fin 3) K := fun k i => ![r i, o i, d i] k
  have h : B * A = 1 := by
    simp only [dot] at *
    ext a b
    rw [Matrix.mul_apply, Fin.sum_univ_three, Matrix.one_apply]
    fin_cases a <;> fin_cases b <;> simp [A, B] <;> first | linear_combination hrr | linear_combination hoo | linear_combination hdd | linear_combination hro | linear_combination hrd | linear_combination hod
  have h' := mul_eq_one_comm.1 h
  have := congrFun (congrFun h' i) j
  rw [Matrix.mul_apply, Fin.sum_univ_three, Matrix.one_apply] at this
  exact this

theorem skewRot_apply (r o d : Fin 3 → K) (hrr : dot r r = 1) (hoo : dot o o = 1) (hdd : dot d d = 1)
    (hro : dot r o = 0) (hrd : dot r d = 0) (hod : dot o d = 0) (s : K) (v : Fin 3 → K) :
    apply3 (mul (mul (transpose (skewRot r o d)) (skewMat s)) (skewRot r o d)) v = some (fun j => v j + s * dot v o * d j) := by
  have hR := rows_of_cols r o d hrr hoo hdd hro hrd hod
  have e1 : transpose (skewRot r o d) = ⟨![![r 0, r 1, r 2, 0], ![o 0, o 1, o 2, 0], ![d 0, d 1, d 2, 0], ![0, 0, 0, 1]], false⟩ := by
    unfold transpose skewRot
    simp only [Bool.false_eq_true, if_false]
    congr 1
    ext i j
    fin_cases i <;> fin_cases j <;> simp
  rw [e1]
  unfold mul skewMat skewRot apply3
  simp [dot]
  funext j
  have h0 := hR 0 j; have h1 := hR 1 j; have h2 := hR 2 j
  fin_cases j
  · simp at h0 h1 h2 ⊢
    linear_combination v 0 * h0 + v 1 * h1 + v 2 * h2
  · simp at h0 h1 h2 ⊢
    linear_combination v 0 * h0 + v 1 * h1 + v 2 * h2
  · simp at h0 h1 h2 ⊢
    linear_combination v 0 * h0 + v 1 * h1 + v 2 * h2

theorem skew_apply (angle : ℝ) (d1 d2 : Fin 3 → ℝ) (h1 : dot d1 d1 = 1) (h2 : dot d2 d2 = 1) (hp : dot d1 d2 * dot d1 d2 < 1)
    (ha : ¬ (angle ≥ Real.arccos (dot d1 d2) ∨ angle ≤ Real.arccos (dot d1 d2) - Real.pi)) (v : Fin 3 → ℝ) :
    apply3 (skew angle d1 d2) v = some (fun j => v j + skewAmount angle (dot d1 d2) *
      ((dot v d1 - dot d1 d2 * dot v d2) / √(1 - dot d1 d2 * dot d1 d2)) * d2 j) := by
  have hpos : 0 < 1 - dot d1 d2 * dot d1 d2 := by linarith
  have hl : dot (cross d1 d2) (cross d1 d2) = 1 - dot d1 d2 * dot d1 d2 := by
    simp only [dot] at *
    simp [cross]
    linear_combination (d2 0 * d2 0 + d2 1 * d2 1 + d2 2 * d2 2) * h1 + h2
  have hq : √(1 - dot d1 d2 * dot d1 d2) ≠ 0 := (Real.sqrt_pos.2 hpos).ne'
  have hqq : √(1 - dot d1 d2 * dot d1 d2) * √(1 - dot d1 d2 * dot d1 d2) = 1 - dot d1 d2 * dot d1 d2 :=
    Real.mul_self_sqrt hpos.le
  unfold skew
  simp only
  rw [if_neg ha, hl]
  generalize hQ : √(1 - dot d1 d2 * dot d1 d2) = Q at hq hqq ⊢
  have ho : cross d2 (fun i => cross d1 d2 i / Q) = fun j => (d1 j - dot d1 d2 * d2 j) / Q := by
    funext j
    simp only [dot] at *
    fin_cases j <;> simp [cross] <;> field_simp
    · linear_combination d1 0 * h2
    · linear_combination d1 1 * h2
    · linear_combination d1 2 * h2
  rw [ho, skewRot_apply]
  · congr 1
    funext j
    simp only [dot]
    ring
  · simp only [dot] at *
    simp [cross] at hl ⊢
    field_simp
    linear_combination hl - hqq
  · simp only [dot] at *
    field_simp
    linear_combination h1 + (d1 0 * d2 0 + d1 1 * d2 1 + d1 2 * d2 2) ^ 2 * h2 - hqq
  · exact h2
  · simp only [dot] at *
    simp [cross]
    field_simp
    ring
  · simp only [dot]
    simp [cross]
    field_simp
    ring
  · simp only [dot] at *
    field_simp
    linear_combination -(d1 0 * d2 0 + d1 1 * d2 1 + d1 2 * d2 2) * h2

/-- **C60**, what holds for skews: with axes of length one at right angles, points are moved along the second axis, and the first
axis is turned by the angle towards the second. (Missing: other axes; see the violations.) -/
theorem C60_skew_partial (angle : ℝ) (d1 d2 : Fin 3 → ℝ) (h1 : dot d1 d1 = 1) (h2 : dot d2 d2 = 1) (hp : dot d1 d2 = 0)
    (ha : -(Real.pi / 2) < angle ∧ angle < Real.pi / 2) (v : Fin 3 → ℝ) :
    apply3 (skew angle d1 d2) v = some (fun j => v j + Real.tan angle * dot v d1 * d2 j) := by
  rw [skew_apply angle d1 d2 h1 h2 (by rw [hp]; norm_num) (by
    rw [hp, Real.arccos_zero]
    rintro (h | h)
    · linarith
    · linarith)]
  congr 1
  funext j
  simp only [hp, skewAmount]
  simp

/-- Not vacuous. -/
example : dot (K := ℝ) ![0, 1, 0] ![0, 1, 0] = 1 ∧ dot (K := ℝ) ![0, 1, 0] ![1, 0, 0] = 0 := by simp [dot]

/-- **C60 fails for skews about axes at an obtuse angle**: a skew by the angle zero moves points. -/
theorem C60_skew_zero_violated :
    ∃ d1 d2 : Fin 3 → ℝ, dot d1 d1 = 1 ∧ dot d2 d2 = 1 ∧ dot d1 d2 < 0 ∧
      apply3 (skew 0 d1 d2) d1 = some ![4 / 25, 3 / 5, 0] ∧ d1 = ![-4 / 5, 3 / 5, 0] := by
  have e1 : dot (K := ℝ) ![-4 / 5, 3 / 5, 0] ![-4 / 5, 3 / 5, 0] = 1 := by simp [dot]; norm_num
  have e2 : dot (K := ℝ) ![1, 0, 0] ![1, 0, 0] = 1 := by simp [dot]
  have ep : dot (K := ℝ) ![-4 / 5, 3 / 5, 0] ![1, 0, 0] = -4 / 5 := by simp [dot]
  have hs : √(1 - (-4 / 5 : ℝ) * (-4 / 5)) = 3 / 5 := by
    rw [show (1 - (-4 / 5 : ℝ) * (-4 / 5)) = (3 / 5) ^ 2 by norm_num, Real.sqrt_sq (by norm_num)]
  refine ⟨![-4 / 5, 3 / 5, 0], ![1, 0, 0], e1, e2, by rw [ep]; norm_num, ?_, rfl⟩
  rw [skew_apply 0 _ _ e1 e2 (by rw [ep]; norm_num) (by
    rw [ep]
    rintro (h | h)
    · have : 0 < Real.arccos (-4 / 5) := Real.arccos_pos.2 (by norm_num)
      linarith
    · have h1 : Real.arccos (-4 / 5) ≤ Real.pi := Real.arccos_le_pi _
      have h2 : Real.arccos (-4 / 5) = Real.pi := by linarith
      rw [Real.arccos_eq_pi] at h2
      norm_num at h2)]
  have ht : skewAmount 0 (-4 / 5) = 8 / 5 := by
    unfold skewAmount
    simp only
    rw [hs, zero_add, Real.tan_arccos, show (1 - (3 / 5 : ℝ) ^ 2) = (4 / 5) ^ 2 by norm_num, Real.sqrt_sq (by norm_num)]
    norm_num
  rw [ep, hs, ht]
  congr 1
  funext j
  fin_cases j <;> simp [dot] <;> norm_num

/-- **C60 fails for skews about axes at an acute angle**: turned away from the second axis by the angle that makes them
perpendicular, the first axis is not perpendicular to the second. -/
theorem C60_skew_angle_violated :
    ∃ (angle : ℝ) (d1 d2 w : Fin 3 → ℝ), dot d1 d1 = 1 ∧ dot d2 d2 = 1 ∧ 0 < dot d1 d2 ∧
      angle = Real.arccos (dot d1 d2) - Real.pi / 2 ∧ apply3 (skew angle d1 d2) d1 = some w ∧ dot w d2 ≠ 0 := by
  have e1 : dot (K := ℝ) ![4 / 5, 3 / 5, 0] ![4 / 5, 3 / 5, 0] = 1 := by simp [dot]; norm_num
  have e2 : dot (K := ℝ) ![1, 0, 0] ![1, 0, 0] = 1 := by simp [dot]
  have ep : dot (K := ℝ) ![4 / 5, 3 / 5, 0] ![1, 0, 0] = 4 / 5 := by simp [dot]
  have hs : √(1 - (4 / 5 : ℝ) * (4 / 5)) = 3 / 5 := by
    rw [show (1 - (4 / 5 : ℝ) * (4 / 5)) = (3 / 5) ^ 2 by norm_num, Real.sqrt_sq (by norm_num)]
  have ha : Real.arccos (4 / 5) + Real.arccos (3 / 5) = Real.pi / 2 := by
    have : Real.arccos (3 / 5) = Real.arcsin (4 / 5) := by
      rw [Real.arccos_eq_arcsin (by norm_num), show (1 - (3 / 5 : ℝ) ^ 2) = (4 / 5) ^ 2 by norm_num, Real.sqrt_sq (by norm_num)]
    rw [this, Real.arccos]
    ring
  have hb : 0 < Real.arccos (4 / 5) := Real.arccos_pos.2 (by norm_num)
  have hb' : 0 < Real.arccos (3 / 5) := Real.arccos_pos.2 (by norm_num)
  have ht : skewAmount (Real.arccos (4 / 5) - Real.pi / 2) (4 / 5) = -4 / 5 := by
    unfold skewAmount
    simp only
    rw [hs, show Real.arccos (4 / 5) - Real.pi / 2 + Real.arccos (3 / 5) = 0 by linarith, Real.tan_zero]
    norm_num
  refine ⟨Real.arccos (4 / 5) - Real.pi / 2, ![4 / 5, 3 / 5, 0], ![1, 0, 0], ![8 / 25, 3 / 5, 0], e1, e2, by rw [ep]; norm_num,
    by rw [ep], ?_, by simp [dot]⟩
  rw [skew_apply _ _ _ e1 e2 (by rw [ep]; norm_num) (by
    rw [ep]
    rintro (h | h)
    · linarith [Real.pi_pos]
    · linarith [Real.pi_pos])]
  rw [ep, hs, ht]
  congr 1
  funext j
  fin_cases j <;> simp [dot] <;> norm_num

end Verif.Math.Matrix4
