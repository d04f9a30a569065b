import Verif.Geom.BicubicLemmas

/-!
# C61: Bicubic patches are diced, split, bounded and converted as Bézier surfaces

The specification is the Bézier surface `surf` of sixteen values (`BicubicLemmas`), and for other bases the surface
`basisSurf`, below.
-/

namespace Verif.Geom.Bicubic

open Verif.Math.Matrix4 (Mat Sound)

variable {K : Type} [Field K] [LinearOrder K] [IsStrictOrderedRing K]

/-- **C61** A grid of floats has one value for each pair of steps, and the value at `(iu, iv)` is that of the surface at
`(iu / uSize, iv / vSize)`: forward differences add up exactly. -/
theorem C61_dice_partial (uSize vSize : ℕ) (p : Net K) :
    (dice floatOps uSize vSize p).length = (vSize + 1) * (uSize + 1) ∧
    ∀ iu iv : ℕ, iu ≤ uSize → iv ≤ vSize →
      (dice floatOps uSize vSize p)[iv * (uSize + 1) + iu]? = some (surf p (iu / (uSize : K)) (iv / (vSize : K))) := by
  refine ⟨diceV_length _ _ _ _, fun iu iv hu hv => ?_⟩
  unfold dice
  rw [diceV_get _ _ _ _ _ _ (by omega) hu, fdiff_value, surf_swap]
  simp only [fdiff_value]
  rw [mul_one_div, mul_one_div]

/-- Non-vacuity: a corner and the middle of a patch that is no plane. -/
example : let p : Net ℚ := fun i j => (i.val : ℚ) * j.val * j.val
    (dice floatOps 2 2 p)[8]? = some 27 ∧ (dice floatOps 2 2 p)[4]? = some (9 / 2) ∧
    surf p (1 / 2) (1 / 2) = 9 / 2 := by decide +kernel

/-- **C61, disagreement.** The differences of integers are cut off: a parameter that goes from 0 to 3 ends at 2
(libs/core/forwarddiff.h:76-78). -/
theorem C61_dice_integer_violated : ∃ p : Net ℚ,
    (∀ i j, trunc (p i j) = p i j) ∧
    (∀ i j, p i j = j.val) ∧ (dice intOps 2 1 p)[2]? = some 2 ∧ surf p 1 0 = 3 :=
  ⟨fun _ j => j.val, by decide +kernel, fun _ _ => rfl, by decide +kernel, by decide +kernel⟩

/-- **C61, disagreement.** Multiples of matrices leave out the fourth column: a patch with the same matrix at each control point has
another matrix inside (libs/core/forwarddiff.h:76-78 with include/aqsis/math/matrix.h:680-685). -/
theorem C61_dice_matrix_violated : ∃ a : Mat ℚ, Sound a ∧
    (((dice matOps 2 1 (fun _ _ => a))[1]?).map fun b => b.m 3 3) ≠ some (a.m 3 3) ∧
    (((dice matOps 2 1 (fun _ _ => a))[1]?).map fun b => b.m 0 0) = some (a.m 0 0) :=
  ⟨⟨![![2, 0, 0, 0], ![0, 1, 0, 0], ![0, 0, 1, 0], ![0, 0, 0, 1]], false⟩, by intro h; exact absurd h (by decide),
    by decide +kernel, by decide +kernel⟩

/-- **C61** The two halves of a patch are the two halves of its surface, in either direction; the patches meet in the same
points. -/
theorem C61_split_partial (p : Net K) (u v : K) :
    surf (subdivide false id true p).1 u v = surf p (u / 2) v ∧
    surf (subdivide false id true p).2 u v = surf p ((1 + u) / 2) v ∧
    surf (subdivide false id false p).1 u v = surf p u (v / 2) ∧
    surf (subdivide false id false p).2 u v = surf p u ((1 + v) / 2) := by
  refine ⟨?_, ?_, ?_, ?_⟩
  · show bez (fun iv => bez (halve id (p iv)).1 u) v = _
    simp only [halve_left]; rfl
  · show bez (fun iv => bez (halve id (p iv)).2 u) v = _
    simp only [halve_right]; rfl
  · rw [surf_swap, surf_swap]
    show bez (fun iu => bez (fun iv => (halve id fun k => p k iu).1 iv) v) u = _
    congr 1
    funext iu
    exact halve_left (fun k => p k iu) v
  · rw [surf_swap, surf_swap]
    show bez (fun iu => bez (fun iv => (halve id fun k => p k iu).2 iv) v) u = _
    congr 1
    funext iu
    exact halve_right (fun k => p k iu) v

/-- Non-vacuity: a patch whose halves differ. -/
example : let p : Net ℚ := fun i j => (i.val : ℚ) * j.val * j.val
    surf (subdivide false id true p).1 1 1 = surf p (1 / 2) 1 ∧ surf p (1 / 2) 1 ≠ surf p 1 1 ∧
    surf (subdivide false id false p).2 1 0 = surf p 1 (1 / 2) ∧ surf p 1 (1 / 2) ≠ surf p 1 0 := by decide +kernel

/-- **C61, disagreement.** Integers are cut off while splitting (libs/core/geometry/patch.cpp:102-109), and the values of matrices are
not split at all: both halves have the values of the whole patch (157-163). -/
theorem C61_split_types_violated : ∃ p : Net ℚ,
    (∀ i j, trunc (p i j) = p i j) ∧
    surf (subdivide false trunc true p).1 1 0 = 0 ∧ surf (subdivide true id true p).1 1 0 = 3 ∧
    surf (subdivide true id true p).2 0 0 = 0 ∧ surf p (1 / 2) 0 = 3 / 2 :=
  ⟨fun _ j => j.val, by decide +kernel, by decide +kernel, by decide +kernel, by decide +kernel, by decide +kernel⟩

/-- **C61** The bound of a patch with positive weights contains its surface; its ends are attained by control points unless
these are all beyond `FLT_MAX`. -/
theorem C61_bound (big : K) (x h : Net K) (hh : ∀ i j, 0 < h i j) :
    (∀ u v, 0 ≤ u ∧ u ≤ 1 → 0 ≤ v ∧ v ≤ 1 → 0 < surf h u v ∧
      (patchBound big x h).1 ≤ surf x u v / surf h u v ∧ surf x u v / surf h u v ≤ (patchBound big x h).2) ∧
    ((∃ i j, x i j / h i j ≤ big) → ∃ i j, (patchBound big x h).1 = x i j / h i j) ∧
    ((∃ i j, -big ≤ x i j / h i j) → ∃ i j, (patchBound big x h).2 = x i j / h i j) := by
  have hm : ∀ i j, (patchBound big x h).1 ≤ x i j / h i j ∧ x i j / h i j ≤ (patchBound big x h).2 := by
    intro i j
    have := fold_mem (points x h) (big, -big) _ (mem_points x h i j)
    rw [project_eq] at this
    exact this
  refine ⟨fun u v hu hv => ?_, ?_, ?_⟩
  · have hp := surf_pos h u v hu hv hh
    refine ⟨hp, ?_, ?_⟩
    · rw [le_div_iff₀ hp, ← surf_smul]
      exact surf_mono _ _ u v hu hv fun i j => (le_div_iff₀ (hh i j)).1 (hm i j).1
    · rw [div_le_iff₀ hp, ← surf_smul]
      exact surf_mono _ _ u v hu hv fun i j => (div_le_iff₀ (hh i j)).1 (hm i j).2
  · rintro ⟨i, j, hb⟩
    rcases (fold_attained (points x h) (big, -big)).1 with e | e
    · refine ⟨i, j, le_antisymm (hm i j).1 ?_⟩
      have e' : (patchBound big x h).1 = big := e
      rw [e']; exact hb
    · obtain ⟨i, j, e2⟩ := of_mem_points _ _ _ e
      exact ⟨i, j, by rw [← project_eq]; exact e2⟩
  · rintro ⟨i, j, hb⟩
    rcases (fold_attained (points x h) (big, -big)).2 with e | e
    · refine ⟨i, j, le_antisymm ?_ (hm i j).2⟩
      have e' : (patchBound big x h).2 = -big := e
      rw [e']; exact hb
    · obtain ⟨i, j, e2⟩ := of_mem_points _ _ _ e
      exact ⟨i, j, by rw [← project_eq]; exact e2⟩

/-- Non-vacuity: weights other than one. -/
example : let x : Net ℚ := fun i j => (i.val : ℚ) * j.val
    let h : Net ℚ := fun i j => 1 + (i.val : ℚ) * j.val
    (∀ i j, 0 < h i j) ∧ patchBound 1000 x h = (0, 9 / 10) ∧ surf x 1 1 / surf h 1 1 = 9 / 10 := by decide +kernel

/-- With coordinates and weights split by component the bounds of the halves are inside the bound of the patch (points of the code are not
split by component, see `C61_split_bound`).
-/
theorem split_bound_components (big : K) (x h : Net K) (hh : ∀ i j, 0 < h i j) (u : Bool) :
    (∀ i j, 0 < (subdivide false id u h).1 i j ∧ 0 < (subdivide false id u h).2 i j) ∧
    (patchBound big x h).1 ≤ (patchBound big (subdivide false id u x).1 (subdivide false id u h).1).1 ∧
    (patchBound big (subdivide false id u x).1 (subdivide false id u h).1).2 ≤ (patchBound big x h).2 ∧
    (patchBound big x h).1 ≤ (patchBound big (subdivide false id u x).2 (subdivide false id u h).2).1 ∧
    (patchBound big (subdivide false id u x).2 (subdivide false id u h).2).2 ≤ (patchBound big x h).2 := by
  have hm : ∀ i j, (patchBound big x h).1 ≤ x i j / h i j ∧ x i j / h i j ≤ (patchBound big x h).2 := by
    intro i j
    have := fold_mem (points x h) (big, -big) _ (mem_points x h i j)
    rw [project_eq] at this
    exact this
  have hb := fold_mono (points x h) (big, -big)
  have hpos := natSubdiv_pos u h hh
  have hlo : ∀ i j, (patchBound big x h).1 * h i j ≤ x i j := fun i j => (le_div_iff₀ (hh i j)).1 (hm i j).1
  have hhi : ∀ i j, x i j ≤ (patchBound big x h).2 * h i j := fun i j => (div_le_iff₀ (hh i j)).1 (hm i j).2
  have low : ∀ i j, (patchBound big x h).1 ≤ (natSubdiv id u x).1 i j / (natSubdiv id u h).1 i j ∧
      (patchBound big x h).1 ≤ (natSubdiv id u x).2 i j / (natSubdiv id u h).2 i j := by
    intro i j
    have m := natSubdiv_mono u _ _ hlo i j
    rw [(natSubdiv_smul u _ h i j).1, (natSubdiv_smul u _ h i j).2] at m
    exact ⟨(le_div_iff₀ (hpos i j).1).2 m.1, (le_div_iff₀ (hpos i j).2).2 m.2⟩
  have high : ∀ i j, (natSubdiv id u x).1 i j / (natSubdiv id u h).1 i j ≤ (patchBound big x h).2 ∧
      (natSubdiv id u x).2 i j / (natSubdiv id u h).2 i j ≤ (patchBound big x h).2 := by
    intro i j
    have m := natSubdiv_mono u _ _ hhi i j
    rw [(natSubdiv_smul u _ h i j).1, (natSubdiv_smul u _ h i j).2] at m
    exact ⟨(div_le_iff₀ (hpos i j).1).2 m.1, (div_le_iff₀ (hpos i j).2).2 m.2⟩
  refine ⟨hpos, ?_, ?_, ?_, ?_⟩
  · rcases (fold_attained (points (natSubdiv id u x).1 (natSubdiv id u h).1) (big, -big)).1 with e | e
    · exact le_trans hb.1 (le_of_eq e.symm)
    · obtain ⟨i, j, e2⟩ := of_mem_points _ _ _ e
      rw [project_eq] at e2
      exact le_trans (low i j).1 (le_of_eq e2.symm)
  · rcases (fold_attained (points (natSubdiv id u x).1 (natSubdiv id u h).1) (big, -big)).2 with e | e
    · exact le_trans (le_of_eq e) hb.2
    · obtain ⟨i, j, e2⟩ := of_mem_points _ _ _ e
      rw [project_eq] at e2
      exact le_trans (le_of_eq e2) (high i j).1
  · rcases (fold_attained (points (natSubdiv id u x).2 (natSubdiv id u h).2) (big, -big)).1 with e | e
    · exact le_trans hb.1 (le_of_eq e.symm)
    · obtain ⟨i, j, e2⟩ := of_mem_points _ _ _ e
      rw [project_eq] at e2
      exact le_trans (low i j).2 (le_of_eq e2.symm)
  · rcases (fold_attained (points (natSubdiv id u x).2 (natSubdiv id u h).2) (big, -big)).2 with e | e
    · exact le_trans (le_of_eq e) hb.2
    · obtain ⟨i, j, e2⟩ := of_mem_points _ _ _ e
      rw [project_eq] at e2
      exact le_trans (le_of_eq e2) (high i j).2

/-- Non-vacuity: a half with a smaller bound. -/
example : let x : Net ℚ := fun i j => (i.val : ℚ) * j.val
    let h : Net ℚ := fun i j => 1 + (i.val : ℚ) * j.val
    patchBound 1000 (subdivide false id true x).1 (subdivide false id true h).1 = (0, 9 / 11) := by decide +kernel

/-! ## Bases -/

/-- Specification: the weight of control value `j` at `t` in the basis `M`. -/
def blend (M : Matrix (Fin 4) (Fin 4) K) (t : K) (j : Fin 4) : K := t ^ 3 * M 0 j + t ^ 2 * M 1 j + t * M 2 j + M 3 j

/-- Specification: the surface of sixteen values in the bases `Mu` and `Mv`. -/
def basisSurf (Mu Mv : Matrix (Fin 4) (Fin 4) K) (p : Net K) (u v : K) : K :=
  ∑ i, ∑ j, blend Mv v i * blend Mu u j * p i j

theorem basisSurf_eq (Mu Mv : Matrix (Fin 4) (Fin 4) K) (p : Net K) (u v : K) :
    basisSurf Mu Mv p u v =
      dotProduct (Matrix.vecMul (Matrix.vecMul ![v ^ 3, v ^ 2, v, 1] Mv) (Matrix.of p))
        (Matrix.vecMul ![u ^ 3, u ^ 2, u, 1] Mu) := by
  simp only [basisSurf, blend, Matrix.vecMul, dotProduct, Fin.sum_univ_four, Matrix.of_apply, Matrix.cons_val]
  ring

theorem bezier_surf (p : Net K) (u v : K) :
    surf p u v = basisSurf (bezierBasis : Mat K).m (bezierBasis : Mat K).m p u v := by
  simp only [surf, bez, basisSurf, blend, bezierBasis, Fin.sum_univ_four, Matrix.cons_val]
  ring

theorem bezier_inverse : ∃ b : Mat K, Verif.Math.Matrix4.inverse (bezierBasis : Mat K) = some b ∧ Sound b ∧
    b.m * (bezierBasis : Mat K).m = 1 ∧ (bezierBasis : Mat K).m * b.m = 1 := by
  have hs : Sound (bezierBasis : Mat K) := by intro h; exact absurd h (by simp [bezierBasis])
  have hi := Verif.Math.Matrix4.C60_inverse (bezierBasis : Mat K) hs
  have hdet : (bezierBasis : Mat K).m.det ≠ 0 := by
    have hmul : (bezierBasis : Mat K).m *
        (!![0, 0, 0, 1; 0, 0, 1 / 3, 1; 0, 1 / 3, 2 / 3, 1; 1, 1, 1, 1] : Matrix (Fin 4) (Fin 4) K) = 1 := by
      ext i j
      fin_cases i <;> fin_cases j <;>
        rw [Matrix.mul_apply, Fin.sum_univ_four] <;> simp [bezierBasis] <;> norm_num
    intro h0
    have := congrArg Matrix.det hmul
    rw [Matrix.det_mul, h0, zero_mul, Matrix.det_one] at this
    exact zero_ne_one this
  cases h : Verif.Math.Matrix4.inverse (bezierBasis : Mat K) with
  | none => exact absurd (hi.1.1 h) hdet
  | some b => exact ⟨b, rfl, hi.2 b h⟩

/-- **C61** Conversion to the Bézier basis keeps the surface, whatever the two bases (and whether or not they are marked as the
identity). -/
theorem C61_basis_partial (uBasis vBasis : Mat K) (hu : Sound uBasis) (hv : Sound vBasis) (p : Net K) :
    ∃ q, convert uBasis vBasis p = some q ∧ ∀ u v, surf q u v = basisSurf uBasis.m vBasis.m p u v := by
  obtain ⟨b, e, sb, _, hb⟩ := bezier_inverse (K := K)
  unfold convert
  rw [e]
  refine ⟨_, rfl, fun u v => ?_⟩
  have c1 := Verif.Math.Matrix4.C60_product uBasis b hu sb
  have c2 := Verif.Math.Matrix4.C60_product vBasis b hv sb
  have ct := Verif.Math.Matrix4.C60_product (Verif.Math.Matrix4.mul uBasis b) b c1.2.1 sb
  have sp : Sound (⟨Matrix.of p, false⟩ : Mat K) := by intro h; exact absurd h (by simp)
  have c3 := Verif.Math.Matrix4.C60_product (Verif.Math.Matrix4.transpose (Verif.Math.Matrix4.mul uBasis b))
    ⟨Matrix.of p, false⟩ ct.2.2.2.2.2.1 sp
  have c4 := Verif.Math.Matrix4.C60_product
    (Verif.Math.Matrix4.mul (Verif.Math.Matrix4.transpose (Verif.Math.Matrix4.mul uBasis b)) ⟨Matrix.of p, false⟩)
    (Verif.Math.Matrix4.mul vBasis b) c3.2.1 c2.2.1
  have eq : (Verif.Math.Matrix4.mul (Verif.Math.Matrix4.mul
      (Verif.Math.Matrix4.transpose (Verif.Math.Matrix4.mul uBasis b)) ⟨Matrix.of p, false⟩)
      (Verif.Math.Matrix4.mul vBasis b)).m = (b.m * vBasis.m) * (Matrix.of p * (b.m * uBasis.m).transpose) := by
    rw [c4.1, c2.1, c3.1, ct.2.2.2.2.1, c1.1]
  rw [bezier_surf, basisSurf_eq, basisSurf_eq]
  set tv : Fin 4 → K := ![v ^ 3, v ^ 2, v, 1]
  set tu : Fin 4 → K := ![u ^ 3, u ^ 2, u, 1]
  show dotProduct (Matrix.vecMul (Matrix.vecMul tv (bezierBasis : Mat K).m) (Verif.Math.Matrix4.mul (Verif.Math.Matrix4.mul
      (Verif.Math.Matrix4.transpose (Verif.Math.Matrix4.mul uBasis b)) ⟨Matrix.of p, false⟩)
      (Verif.Math.Matrix4.mul vBasis b)).m) (Matrix.vecMul tu (bezierBasis : Mat K).m) = _
  rw [eq]
  have l : Matrix.vecMul (Matrix.vecMul tv (bezierBasis : Mat K).m) (b.m * vBasis.m * (Matrix.of p * (b.m * uBasis.m).transpose)) =
      Matrix.vecMul (Matrix.vecMul (Matrix.vecMul tv vBasis.m) (Matrix.of p)) (b.m * uBasis.m).transpose := by
    rw [Matrix.vecMul_vecMul, Matrix.vecMul_vecMul, Matrix.vecMul_vecMul]
    congr 1
    calc (bezierBasis : Mat K).m * (b.m * vBasis.m * (Matrix.of p * (b.m * uBasis.m).transpose))
        = ((bezierBasis : Mat K).m * b.m) * vBasis.m * (Matrix.of p * (b.m * uBasis.m).transpose) := by
          simp only [Matrix.mul_assoc]
      _ = _ := by rw [hb, Matrix.one_mul]
  rw [l, ← Matrix.dotProduct_mulVec, ← Matrix.vecMul_transpose, Matrix.transpose_transpose, Matrix.vecMul_vecMul, Matrix.vecMul_vecMul, ← Matrix.mul_assoc,
    hb, Matrix.one_mul]

/-- Non-vacuity: the power basis of RI, whose matrix is the identity: the surface with `p 2 2 = 1` is `u * v`. -/
example : ∃ q : Net ℚ, convert ⟨1, true⟩ ⟨1, false⟩ (fun i j => if i = 2 ∧ j = 2 then 1 else 0) = some q ∧
    ∀ u v, surf q u v = u * v := by
  obtain ⟨q, h1, h2⟩ := C61_basis_partial (K := ℚ) ⟨1, true⟩ ⟨1, false⟩ (fun _ => rfl) (by intro h; exact absurd h (by decide))
    (fun i j => if i = 2 ∧ j = 2 then 1 else 0)
  refine ⟨q, h1, fun u v => ?_⟩
  rw [h2]
  simp [basisSurf, blend, Fin.sum_univ_four, Matrix.one_apply]
  ring

/-- **C61** Of an array only the first element is converted, of integers and matrices nothing. -/
theorem C61_basis_arrays_violated :
    (∀ (uBasis vBasis : Mat ℚ) (p : ℕ → Net ℚ) q, convertParam .float uBasis vBasis p = some q → q 1 = p 1) ∧
    (∀ (uBasis vBasis : Mat ℚ) (p : ℕ → Net ℚ), convertParam .integer uBasis vBasis p = some p ∧
      convertParam .matrix uBasis vBasis p = some p) ∧
    ∃ (uBasis : Mat ℚ) (p : Net ℚ), Sound uBasis ∧ surf p 1 0 ≠ basisSurf uBasis.m (bezierBasis : Mat ℚ).m p 1 0 := by
  refine ⟨fun a b p q h => ?_, fun a b p => ⟨rfl, rfl⟩, ⟨1, true⟩, fun _ j => j.val, fun _ => rfl, ?_⟩
  · unfold convertParam at h
    rw [if_pos (show converted PType.float = true from rfl)] at h
    obtain ⟨r, _, e⟩ := Option.map_eq_some_iff.1 h
    rw [← e]
    exact Function.update_of_ne (by decide) _ _
  · decide +kernel

end Verif.Geom.Bicubic
