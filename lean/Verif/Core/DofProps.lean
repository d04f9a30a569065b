import Verif.Core.DofLemmas

/-!
# C57: depth of field

Every sample looks through a point of the lens. The lens is divided into as many cells as a pixel has samples, and each
sample of a pixel gets a point of another cell. For each cell a bound of its points is kept. A micropolygon, moved
according to its depth and the bound of the cell, is compared with the one sample per pixel that looks through the cell.
-/

namespace Verif.Core.Dof

open Verif.Core.HitTest Verif.Core.Motion Verif.Core.Sampler

/-! ## Lens positions -/

/-- Squares around the centre of the lens become circles: every lens position is in the unit disc. -/
theorem C57_disc (x y : ℝ) :
    (projectToCircle (x, y)).1 ^ 2 + (projectToCircle (x, y)).2 ^ 2 = max |x| |y| ^ 2 ∧
    ∃ k : ℝ, 0 ≤ k ∧ projectToCircle (x, y) = (k * x, k * y) := by
  constructor
  · rw [project_eq]
    unfold px
    dsimp only
    rw [max_comm |y| |x|, add_comm (y ^ 2) (x ^ 2), mul_pow, mul_pow, div_pow, Real.sq_sqrt (by positivity)]
    by_cases h : x ^ 2 + y ^ 2 = 0
    · have hx : x = 0 := by nlinarith [sq_nonneg x, sq_nonneg y]
      have hy : y = 0 := by nlinarith [sq_nonneg x, sq_nonneg y]
      rw [hx, hy]; simp
    · field_simp
  · refine ⟨max |x| |y| / √(x ^ 2 + y ^ 2), ?_, ?_⟩
    · exact div_nonneg (le_max_of_le_left (abs_nonneg _)) (Real.sqrt_nonneg _)
    · rw [project_eq]
      unfold px
      rw [max_comm |y| |x|, add_comm (y ^ 2) (x ^ 2), mul_comm x, mul_comm y]

example : (projectToCircle (1, 1)).1 ^ 2 + (projectToCircle (1, 1)).2 ^ 2 = 1 := by
  rw [(C57_disc 1 1).1]; norm_num

lemma grid_abs {m : Nat} (hm : 0 < m) (i : Nat) : |(-1 + 2 * (i : ℝ) / ((2 * m : Nat) : ℝ))| = |(i : ℝ) - m| / m := by
  have hmr : (0 : ℝ) < m := by exact_mod_cast hm
  have : (-1 + 2 * (i : ℝ) / ((2 * m : Nat) : ℝ)) = ((i : ℝ) - m) / m := by push_cast; field_simp; ring
  rw [this, abs_div, abs_of_pos hmr]

lemma grid_abs_int (i m : Nat) : |(i : ℝ) - m| = ((|(i : ℤ) - m| : ℤ) : ℝ) := by push_cast; rfl

lemma grid_clear {m : Nat} (hm : 0 < m) (i j : Nat) :
    Clear (edge (2 * m) i) (edge (2 * m) (i + 1)) (edge (2 * m) j) (edge (2 * m) (j + 1)) := by
  have hmr : (0 : ℝ) < m := by exact_mod_cast hm
  unfold Clear
  rw [edge_eq, edge_eq, edge_eq, edge_eq, grid_abs hm, grid_abs hm, grid_abs hm, grid_abs hm, grid_abs_int, grid_abs_int,
    grid_abs_int, grid_abs_int]
  rw [min_div_div_right hmr.le, max_div_div_right hmr.le, min_div_div_right hmr.le,
    div_le_div_iff_of_pos_right hmr, div_le_div_iff_of_pos_right hmr]
  have hi : |((i + 1 : Nat) : ℤ) - m| = |(i : ℤ) - m| + 1 ∨ |((i + 1 : Nat) : ℤ) - m| = |(i : ℤ) - m| - 1 := by
    rcases abs_cases (((i + 1 : Nat) : ℤ) - m) with h | h <;> rcases abs_cases ((i : ℤ) - m) with h' | h' <;> omega
  have hj : |((j + 1 : Nat) : ℤ) - m| = |(j : ℤ) - m| + 1 ∨ |((j + 1 : Nat) : ℤ) - m| = |(j : ℤ) - m| - 1 := by
    rcases abs_cases (((j + 1 : Nat) : ℤ) - m) with h | h <;> rcases abs_cases ((j : ℤ) - m) with h' | h' <;> omega
  generalize |((i + 1 : Nat) : ℤ) - m| = a1 at *
  generalize |((i : Nat) : ℤ) - m| = a0 at *
  generalize |((j + 1 : Nat) : ℤ) - m| = b1 at *
  generalize |((j : Nat) : ℤ) - m| = b0 at *
  norm_cast
  omega

lemma grid_side {m : Nat} (hm : 0 < m) (i : Nat) : OneSide (edge (2 * m) i) (edge (2 * m) (i + 1)) := by
  have hmr : (0 : ℝ) < m := by exact_mod_cast hm
  unfold OneSide
  rw [edge_eq, edge_eq]
  push_cast
  rcases Nat.lt_or_ge i m with h | h
  · right
    have : (i : ℝ) + 1 ≤ m := by exact_mod_cast h
    have h2 : 2 * ((i : ℝ) + 1) / (2 * m) ≤ 1 := by rw [div_le_one (by positivity)]; linarith
    linarith
  · left
    have : (m : ℝ) ≤ i := by exact_mod_cast h
    have h2 : 1 ≤ 2 * (i : ℝ) / (2 * m) := by rw [one_le_div (by positivity)]; linarith
    linarith

/-- The bound of a cell contains all its lens positions – for an even number of samples in both directions, the same in both
(partial, see `C57_cells_violated` and `C57_oblong_violated`). -/
theorem C57_cells_partial (m : Nat) (hm : 0 < m) (i j : Nat) (hi : i < 2 * m) (x y : ℝ)
    (hx : -1 + 2 * i / ((2 * m : Nat) : ℝ) ≤ x ∧ x ≤ -1 + 2 * (i + 1) / ((2 * m : Nat) : ℝ))
    (hy : -1 + 2 * j / ((2 * m : Nat) : ℝ) ≤ y ∧ y ≤ -1 + 2 * (j + 1) / ((2 * m : Nat) : ℝ)) :
    (dofBound (2 * m) (2 * m) (j * (2 * m) + i)).Has (projectToCircle (x, y)) := by
  unfold dofBound
  have h1 : (j * (2 * m) + i) % (2 * m) = i := by rw [Nat.mul_add_mod_of_lt' hi]
  have h2 : (j * (2 * m) + i) / (2 * m) = j := by
    rw [add_comm, Nat.add_mul_div_right _ _ (by omega), Nat.div_eq_of_lt hi, zero_add]
  rw [h1, h2]
  have e1 : ∀ k, edge (2 * m) k + 2 / ((2 * m : Nat) : ℝ) = edge (2 * m) (k + 1) := fun k => rfl
  refine cell_has ?_ ?_ ?_ ?_ ?_ ?_ ?_ ?_
  · rw [edge_eq]; exact hx.1
  · rw [e1, edge_eq]; push_cast at hx ⊢; exact hx.2
  · rw [edge_eq]; exact hy.1
  · rw [e1, edge_eq]; push_cast at hy ⊢; exact hy.2
  · rw [e1]; exact grid_side hm i
  · rw [e1]; exact grid_side hm j
  · rw [e1, e1]; exact grid_clear hm i j
  · rw [e1, e1]; exact grid_clear hm j i
where
  Nat.mul_add_mod_of_lt' {a b c : Nat} (h : c < b) : (a * b + c) % b = c := by
    rw [Nat.mul_comm, Nat.mul_add_mod, Nat.mod_eq_of_lt h]

/-- One sample per pixel: the only cell is the whole lens. -/
theorem C57_one (x y : ℝ) (hx : -1 ≤ x ∧ x ≤ 1) (hy : -1 ≤ y ∧ y ≤ 1) :
    (dofBound 1 1 0).Has (projectToCircle (x, y)) := by
  have hb : (dofBound 1 1 0).xMin ≤ -1 ∧ 1 ≤ (dofBound 1 1 0).xMax ∧ (dofBound 1 1 0).yMin ≤ -1 ∧
      1 ≤ (dofBound 1 1 0).yMax := by
    have hy1 : straddles (px (-1) (-1)) (px 1 (-1)) := by
      right
      rw [px_neg]
      have h1 := px_pos (x := 1) (-1) one_pos
      exact ⟨by linarith, h1⟩
    have hx1 : straddles (-1) 1 := by right; norm_num
    unfold dofBound
    rw [show edge 1 (0 % 1) = -1 from rfl]
    unfold cellBound
    rw [show (-1 + 2 / ((1 : Nat) : ℝ)) = 1 by norm_num, project_eq, project_eq, project_eq, project_eq]
    dsimp only
    rw [if_pos hy1, if_pos hy1, if_pos hy1, if_pos hy1]
    dsimp only
    rw [if_pos hx1, if_pos hx1, if_pos hx1, if_pos hx1]
    unfold RBound.encapsulate
    dsimp only
    norm_num
  rw [project_eq]
  have h1 := abs_le.mp ((px_abs_le x y).trans (abs_le.mpr hx))
  have h2 := abs_le.mp ((px_abs_le y x).trans (abs_le.mpr hy))
  exact ⟨⟨by linarith [hb.1], by linarith [hb.2.1]⟩, by linarith [hb.2.2.1], by linarith [hb.2.2.2]⟩

lemma px_345 : px (1 / 3) (1 / 4) = 4 / 15 := by
  unfold px
  have : √((1 / 3 : ℝ) ^ 2 + (1 / 4) ^ 2) = 5 / 12 := by
    rw [Real.sqrt_eq_iff_eq_sq (by norm_num) (by norm_num)]; norm_num
  rw [this, abs_of_pos (by norm_num), abs_of_pos (by norm_num), max_eq_left (by norm_num)]
  norm_num

/-- Three samples in both directions: the lens position of the point (1/3, 1/4) of a cell beside the middle one is not in the
bound of the cell. -/
theorem C57_cells_violated : ∃ (i j : Nat) (x y : ℝ), i < 3 ∧ j < 3 ∧
    (-1 + 2 * i / 3 ≤ x ∧ x < -1 + 2 * ((i : ℝ) + 1) / 3) ∧ (-1 + 2 * j / 3 ≤ y ∧ y < -1 + 2 * ((j : ℝ) + 1) / 3) ∧
    ¬ (dofBound 3 3 (j * 3 + i)).Has (projectToCircle (x, y)) := by
  refine ⟨2, 1, 1 / 3, 1 / 4, by norm_num, by norm_num, by norm_num, by norm_num, ?_⟩
  rw [project_eq]
  intro h
  have hlo := h.1.1
  dsimp only at hlo
  rw [px_345] at hlo
  have hb : (dofBound 3 3 (1 * 3 + 2)).xMin = 1 / 3 := by
    unfold dofBound
    rw [show (1 * 3 + 2) % 3 = 2 by norm_num, show (1 * 3 + 2) / 3 = 1 by norm_num]
    have e1 : edge 3 2 = 1 / 3 := by rw [edge_eq]; norm_num
    have e2 : edge 3 1 = -(1 / 3) := by rw [edge_eq]; norm_num
    rw [e1, e2]
    unfold cellBound
    rw [show (1 / 3 + 2 / ((3 : Nat) : ℝ)) = 1 by norm_num, show (-(1 / 3) + 2 / ((3 : Nat) : ℝ)) = 1 / 3 by norm_num]
    rw [project_eq, project_eq, project_eq, project_eq]
    have hs : straddles (px (-(1 / 3)) (1 / 3)) (px (1 / 3) (1 / 3)) := by
      right
      rw [px_neg]
      have := px_pos (x := 1 / 3) (1 / 3) (by norm_num)
      exact ⟨by linarith, this⟩
    have hs2 : ¬ straddles (1 / 3) 1 := by unfold straddles; norm_num
    dsimp only
    rw [if_pos hs, if_pos hs, if_pos hs, if_pos hs]
    dsimp only
    rw [if_neg hs2, if_neg hs2, if_neg hs2, if_neg hs2]
    unfold RBound.encapsulate
    dsimp only
    norm_num
  rw [hb] at hlo
  norm_num at hlo

/-- Two samples in `x` and four in `y`: the lens position of the point (3/8, 1/2) is not in the bound of its cell. -/
theorem C57_oblong_violated : ∃ (i j : Nat) (x y : ℝ), i < 2 ∧ j < 4 ∧
    (-1 + 2 * i / 2 ≤ x ∧ x < -1 + 2 * ((i : ℝ) + 1) / 2) ∧ (-1 + 2 * j / 4 ≤ y ∧ y < -1 + 2 * ((j : ℝ) + 1) / 4) ∧
    ¬ (dofBound 2 4 (j * 2 + i)).Has (projectToCircle (x, y)) := by
  refine ⟨1, 3, 3 / 8, 1 / 2, by norm_num, by norm_num, by norm_num, by norm_num, ?_⟩
  rw [project_eq]
  intro h
  have hlo := h.2.1
  have hp : px (1 / 2) (3 / 8) = 2 / 5 := by
    unfold px
    have : √((1 / 2 : ℝ) ^ 2 + (3 / 8) ^ 2) = 5 / 8 := by
      rw [Real.sqrt_eq_iff_eq_sq (by norm_num) (by norm_num)]; norm_num
    rw [this, abs_of_pos (by norm_num), abs_of_pos (by norm_num), max_eq_left (by norm_num)]
    norm_num
  dsimp only at hlo
  rw [hp] at hlo
  unfold dofBound at hlo
  rw [show (3 * 2 + 1) % 2 = 1 by norm_num, show (3 * 2 + 1) / 2 = 3 by norm_num] at hlo
  have e1 : edge 2 1 = 0 := by rw [edge_eq]; norm_num
  have e2 : edge 4 3 = 1 / 2 := by rw [edge_eq]; norm_num
  rw [e1, e2, cellBound_corners (by norm_num) (by norm_num) (Or.inl (le_refl _)) (Or.inl (by norm_num))] at hlo
  dsimp only at hlo
  rw [show (0 + 2 / ((2 : Nat) : ℝ)) = 1 by norm_num, show (1 / 2 + 2 / ((4 : Nat) : ℝ)) = 1 by norm_num] at hlo
  have big : ∀ v : ℝ, 0 ≤ v → 1 / 5 ≤ v ^ 2 → 2 / 5 < v := by
    intro v h0 h1
    by_contra hc
    push Not at hc
    nlinarith
  have c1 : 2 / 5 < px (1 / 2) 0 := big _ (px_nonneg _ (by norm_num)) (by rw [px_sq (by norm_num) (by norm_num)]; norm_num)
  have c2 : 2 / 5 < px (1 / 2) 1 := big _ (px_nonneg _ (by norm_num)) (by rw [px_sq (by norm_num) (by norm_num)]; norm_num)
  have c3 : 2 / 5 < px 1 0 := big _ (px_nonneg _ (by norm_num)) (by rw [px_sq (by norm_num) (by norm_num)]; norm_num)
  have c4 : 2 / 5 < px 1 1 := big _ (px_nonneg _ (by norm_num)) (by rw [px_sq (by norm_num) (by norm_num)]; norm_num)
  have := lt_min (lt_min (lt_min c1 c2) c3) c4
  linarith

/-! ## Circle of confusion -/

/-- The circle of confusion of a depth in a range is at most the greater of those at the ends; it is at least
`MinCoCForBound`. -/
theorem C57_coc (l : Lens) (hl : l.Good) (hf : 0 < l.invFocal) (z z1 z2 : ℚ) (h0 : 0 < z1) (h1 : z1 ≤ z) (h2 : z ≤ z2) :
    ((coc l z).1 ≤ max (coc l z1).1 (coc l z2).1 ∧ (coc l z).2 ≤ max (coc l z1).2 (coc l z2).2) ∧
    minCoc l z1 z2 ≤ (coc l z).1 ∧ minCoc l z1 z2 ≤ (coc l z).2 := by
  refine ⟨coc_le hl h0 h1 h2, ?_⟩
  unfold minCoc
  dsimp only
  by_cases hs : (z1 - 1 / l.invFocal) * (z2 - 1 / l.invFocal) < 0
  · rw [if_pos hs]
    exact coc_nonneg hl z
  · rw [if_neg hs]
    have hm : min |1 / z1 - l.invFocal| |1 / z2 - l.invFocal| ≤ |1 / z - l.invFocal| := by
      have a1 : 1 / z ≤ 1 / z1 := one_div_le_one_div_of_le h0 h1
      have a2 : 1 / z2 ≤ 1 / z := one_div_le_one_div_of_le (by linarith) h2
      have hfd : 1 / (1 / l.invFocal) = l.invFocal := by rw [one_div_one_div]
      have hfp : 0 < 1 / l.invFocal := by positivity
      rcases le_total z2 (1 / l.invFocal) with hle | hle
      · have := one_div_le_one_div_of_le (show 0 < z2 by linarith) hle
        rw [hfd] at this
        refine min_le_of_right_le ?_
        rw [abs_of_nonneg (by linarith), abs_of_nonneg (by linarith)]; linarith
      · have hz1 : 1 / l.invFocal ≤ z1 ∨ z2 = 1 / l.invFocal := by
          by_contra hc
          push Not at hc
          exact hs (mul_neg_of_neg_of_pos (by linarith) (sub_pos.mpr (lt_of_le_of_ne hle hc.2.symm)))
        rcases hz1 with hz1 | hz1
        · have := one_div_le_one_div_of_le hfp hz1
          rw [hfd] at this
          refine min_le_of_left_le ?_
          rw [abs_of_nonpos (by linarith), abs_of_nonpos (by linarith)]; linarith
        · refine min_le_of_right_le ?_
          rw [hz1, hfd, sub_self, abs_zero]
          exact abs_nonneg _
    have hk : 0 ≤ min |1 / z1 - l.invFocal| |1 / z2 - l.invFocal| := le_min (abs_nonneg _) (abs_nonneg _)
    unfold coc
    dsimp only
    have s1 : l.mult * min l.sx l.sy ≤ l.mult * l.sx := mul_le_mul_of_nonneg_left (min_le_left _ _) hl.mult
    have s2 : l.mult * min l.sx l.sy ≤ l.mult * l.sy := mul_le_mul_of_nonneg_left (min_le_right _ _) hl.mult
    constructor
    · calc l.mult * min l.sx l.sy * min |1 / z1 - l.invFocal| |1 / z2 - l.invFocal|
          ≤ l.mult * l.sx * |1 / z - l.invFocal| := mul_le_mul s1 hm hk (mul_nonneg hl.mult hl.sx)
        _ = l.sx * (l.mult * |1 / z - l.invFocal|) := by ring
    · calc l.mult * min l.sx l.sy * min |1 / z1 - l.invFocal| |1 / z2 - l.invFocal|
          ≤ l.mult * l.sy * |1 / z - l.invFocal| := mul_le_mul s2 hm hk (mul_nonneg hl.mult hl.sy)
        _ = l.sy * (l.mult * |1 / z - l.invFocal|) := by ring

/-- **C57** A lens made from positive parameters has a positive multiplier, whatever the sizes of aperture and focal distance; only
points at the focal distance are sharp. -/
theorem C57_lens (fstop focalLength focalDistance sx sy : ℚ) (h1 : 0 < fstop) (h2 : 0 < focalLength) (h3 : 0 < focalDistance)
    (hx : 0 < sx) (hy : 0 < sy) :
    (mkLens fstop focalLength focalDistance sx sy).Good ∧ 0 < (mkLens fstop focalLength focalDistance sx sy).invFocal ∧
    (mkLens fstop focalLength focalDistance sx sy).mult =
      focalLength * focalDistance / (2 * (fstop * focalDistance + focalLength)) ∧
    ∀ z, 0 < z → ((coc (mkLens fstop focalLength focalDistance sx sy) z).1 = 0 ↔ z = focalDistance) := by
  have hm : (mkLens fstop focalLength focalDistance sx sy).mult =
      focalLength * focalDistance / (2 * (fstop * focalDistance + focalLength)) := by
    unfold mkLens
    dsimp only
    have : fstop * focalDistance + focalLength ≠ 0 := by positivity
    have h5 : focalDistance + focalLength / fstop ≠ 0 := by positivity
    field_simp
  have hp : 0 < (mkLens fstop focalLength focalDistance sx sy).mult := by rw [hm]; positivity
  refine ⟨⟨hp.le, hx.le, hy.le⟩, by unfold mkLens; dsimp only; positivity, hm, fun z hz => ?_⟩
  unfold coc
  dsimp only
  have e1 : (mkLens fstop focalLength focalDistance sx sy).sx = sx := rfl
  have e2 : (mkLens fstop focalLength focalDistance sx sy).invFocal = 1 / focalDistance := rfl
  rw [e1, e2, mul_eq_zero, mul_eq_zero, abs_eq_zero, sub_eq_zero]
  constructor
  · rintro (h | h | h)
    · exact absurd h hx.ne'
    · exact absurd h hp.ne'
    · field_simp at h
      exact h.symm
  · rintro rfl
    exact Or.inr (Or.inr rfl)

example : coc (mkLens 2 1 3 1 1) 3 = (0, 0) ∧ coc (mkLens 2 1 3 1 1) 6 = (1 / 28, 1 / 28) ∧
    minCoc (mkLens 2 1 3 1 1) 2 6 = 0 ∧ minCoc (mkLens 2 1 3 1 1) 6 12 = 1 / 28 := by decide +kernel

/-! ## Single samples -/

lemma bound_le_xMin {q : Quad} {v : ℚ} (h0 : v ≤ q.p0.x) (h1 : v ≤ q.p1.x) (h2 : v ≤ q.p2.x) (h3 : v ≤ q.p3.x) :
    v ≤ (bound q).xMin := by unfold bound; dsimp only; exact le_min (le_min (le_min h0 h1) h3) h2
lemma bound_le_yMin {q : Quad} {v : ℚ} (h0 : v ≤ q.p0.y) (h1 : v ≤ q.p1.y) (h2 : v ≤ q.p2.y) (h3 : v ≤ q.p3.y) :
    v ≤ (bound q).yMin := by unfold bound; dsimp only; exact le_min (le_min (le_min h0 h1) h3) h2
lemma bound_xMax_le {q : Quad} {v : ℚ} (h0 : q.p0.x ≤ v) (h1 : q.p1.x ≤ v) (h2 : q.p2.x ≤ v) (h3 : q.p3.x ≤ v) :
    (bound q).xMax ≤ v := by unfold bound; dsimp only; exact max_le (max_le (max_le h0 h1) h3) h2
lemma bound_yMax_le {q : Quad} {v : ℚ} (h0 : q.p0.y ≤ v) (h1 : q.p1.y ≤ v) (h2 : q.p2.y ≤ v) (h3 : q.p3.y ≤ v) :
    (bound q).yMax ≤ v := by unfold bound; dsimp only; exact max_le (max_le (max_le h0 h1) h3) h2

/-- One of the vertices. -/
def Vertex (q : Quad) (p : P3) : Prop := p = q.p0 ∨ p = q.p1 ∨ p = q.p2 ∨ p = q.p3

lemma vertex_bound {q : Quad} {p : P3} (h : Vertex q p) :
    ((bound q).xMin ≤ p.x ∧ p.x ≤ (bound q).xMax) ∧ ((bound q).yMin ≤ p.y ∧ p.y ≤ (bound q).yMax) := by
  unfold bound
  rcases h with rfl | rfl | rfl | rfl <;> simp

lemma vertex_range {l : Lens} {q : Quad} {p : P3} (h : Vertex q p) :
    ((cocRange l q).1.1 ≤ (coc l p.z).1 ∧ (coc l p.z).1 ≤ (cocRange l q).2.1) ∧
    ((cocRange l q).1.2 ≤ (coc l p.z).2 ∧ (coc l p.z).2 ≤ (cocRange l q).2.2) := by
  unfold cocRange minVec maxVec
  rcases h with rfl | rfl | rfl | rfl <;> simp

lemma vertex_z {q : Quad} {p : P3} (h : Vertex q p) : zMin q ≤ p.z ∧ p.z ≤ zMax q := by
  have a := zMin_le q
  have b := le_zMax q
  rcases h with rfl | rfl | rfl | rfl
  · exact ⟨a.1, b.1⟩
  · exact ⟨a.2.1, b.2.1⟩
  · exact ⟨a.2.2.1, b.2.2.1⟩
  · exact ⟨a.2.2.2, b.2.2.2⟩

/-- To bound the moved micropolygon, bound the moved vertices. -/
lemma shifted_within {l : Lens} {d : ℚ × ℚ} {q : Quad} {B : Bound}
    (h : ∀ p, Vertex q p → (B.xMin ≤ p.x - (coc l p.z).1 * d.1 ∧ p.x - (coc l p.z).1 * d.1 ≤ B.xMax) ∧
      (B.yMin ≤ p.y - (coc l p.z).2 * d.2 ∧ p.y - (coc l p.z).2 * d.2 ≤ B.yMax)) :
    Within (bound (shifted l d q)) B := by
  have h0 := h q.p0 (Or.inl rfl)
  have h1 := h q.p1 (Or.inr (Or.inl rfl))
  have h2 := h q.p2 (Or.inr (Or.inr (Or.inl rfl)))
  have h3 := h q.p3 (Or.inr (Or.inr (Or.inr rfl)))
  exact ⟨bound_le_xMin h0.1.1 h1.1.1 h2.1.1 h3.1.1, bound_le_yMin h0.2.1 h1.2.1 h2.2.1 h3.2.1,
    bound_xMax_le h0.1.2 h1.1.2 h2.1.2 h3.1.2, bound_yMax_le h0.2.2 h1.2.2 h2.2.2 h3.2.2⟩

lemma reject_axis {lo hi cmin cmax d s : ℚ} (h1 : lo ≤ s + cmin * d ∨ lo ≤ s + cmax * d)
    (h2 : s + cmin * d ≤ hi ∨ s + cmax * d ≤ hi) (hc : cmin ≤ cmax) :
    (if d < 0 then (s + cmax * d, s + cmin * d) else (s + cmin * d, s + cmax * d)).1 ≤ hi ∧
    lo ≤ (if d < 0 then (s + cmax * d, s + cmin * d) else (s + cmin * d, s + cmax * d)).2 := by
  by_cases h : d < 0
  · rw [if_pos h]
    have := mul_le_mul_of_nonpos_right hc h.le
    dsimp only
    exact ⟨by rcases h2 with h2 | h2 <;> linarith, by rcases h1 with h1 | h1 <;> linarith⟩
  · rw [if_neg h]
    have := mul_le_mul_of_nonneg_right hc (not_lt.mp h)
    dsimp only
    exact ⟨by rcases h2 with h2 | h2 <;> linarith, by rcases h1 with h1 | h1 <;> linarith⟩

lemma between_mul {a b c d : ℚ} (h1 : a ≤ c) (h2 : c ≤ b) : (a * d ≤ c * d ∨ b * d ≤ c * d) ∧ (c * d ≤ a * d ∨ c * d ≤ b * d) := by
  rcases le_total 0 d with h | h
  · exact ⟨Or.inl (mul_le_mul_of_nonneg_right h1 h), Or.inr (mul_le_mul_of_nonneg_right h2 h)⟩
  · exact ⟨Or.inr (mul_le_mul_of_nonpos_right h2 h), Or.inl (mul_le_mul_of_nonpos_right h1 h)⟩

/-- The quick test never rejects a sample that the moved micropolygon covers. -/
theorem C57_reject (l : Lens) (q : Quad) (dof pos : ℚ × ℚ)
    (h : (bound (shifted l dof q)).contains pos.1 pos.2 = true) :
    dofSampleInBound (bound q) (cocRange l q) dof pos = true := by
  rw [contains_iff] at h
  -- one direction of one axis
  have ex1 : (bound q).xMin ≤ pos.1 + (cocRange l q).1.1 * dof.1 ∨ (bound q).xMin ≤ pos.1 + (cocRange l q).2.1 * dof.1 := by
    by_contra hc
    push Not at hc
    have : pos.1 < (bound (shifted l dof q)).xMin := by
      have key : ∀ p, Vertex q p → pos.1 < p.x - (coc l p.z).1 * dof.1 := by
        intro p hp
        have hb := (vertex_bound hp).1.1
        have hr := (vertex_range (l := l) hp).1
        rcases (between_mul (d := dof.1) hr.1 hr.2).2 with h' | h' <;> linarith
      unfold bound shifted
      dsimp only
      exact lt_min (lt_min (lt_min (key _ (Or.inl rfl)) (key _ (Or.inr (Or.inl rfl))))
        (key _ (Or.inr (Or.inr (Or.inr rfl))))) (key _ (Or.inr (Or.inr (Or.inl rfl))))
    linarith [h.1]
  have ex2 : pos.1 + (cocRange l q).1.1 * dof.1 ≤ (bound q).xMax ∨ pos.1 + (cocRange l q).2.1 * dof.1 ≤ (bound q).xMax := by
    by_contra hc
    push Not at hc
    have : (bound (shifted l dof q)).xMax < pos.1 := by
      have key : ∀ p, Vertex q p → p.x - (coc l p.z).1 * dof.1 < pos.1 := by
        intro p hp
        have hb := (vertex_bound hp).1.2
        have hr := (vertex_range (l := l) hp).1
        rcases (between_mul (d := dof.1) hr.1 hr.2).1 with h' | h' <;> linarith
      unfold bound shifted
      dsimp only
      exact max_lt (max_lt (max_lt (key _ (Or.inl rfl)) (key _ (Or.inr (Or.inl rfl))))
        (key _ (Or.inr (Or.inr (Or.inr rfl))))) (key _ (Or.inr (Or.inr (Or.inl rfl))))
    linarith [h.2.1]
  have ey1 : (bound q).yMin ≤ pos.2 + (cocRange l q).1.2 * dof.2 ∨ (bound q).yMin ≤ pos.2 + (cocRange l q).2.2 * dof.2 := by
    by_contra hc
    push Not at hc
    have : pos.2 < (bound (shifted l dof q)).yMin := by
      have key : ∀ p, Vertex q p → pos.2 < p.y - (coc l p.z).2 * dof.2 := by
        intro p hp
        have hb := (vertex_bound hp).2.1
        have hr := (vertex_range (l := l) hp).2
        rcases (between_mul (d := dof.2) hr.1 hr.2).2 with h' | h' <;> linarith
      unfold bound shifted
      dsimp only
      exact lt_min (lt_min (lt_min (key _ (Or.inl rfl)) (key _ (Or.inr (Or.inl rfl))))
        (key _ (Or.inr (Or.inr (Or.inr rfl))))) (key _ (Or.inr (Or.inr (Or.inl rfl))))
    linarith [h.2.2.1]
  have ey2 : pos.2 + (cocRange l q).1.2 * dof.2 ≤ (bound q).yMax ∨ pos.2 + (cocRange l q).2.2 * dof.2 ≤ (bound q).yMax := by
    by_contra hc
    push Not at hc
    have : (bound (shifted l dof q)).yMax < pos.2 := by
      have key : ∀ p, Vertex q p → p.y - (coc l p.z).2 * dof.2 < pos.2 := by
        intro p hp
        have hb := (vertex_bound hp).2.2
        have hr := (vertex_range (l := l) hp).2
        rcases (between_mul (d := dof.2) hr.1 hr.2).1 with h' | h' <;> linarith
      unfold bound shifted
      dsimp only
      exact max_lt (max_lt (max_lt (key _ (Or.inl rfl)) (key _ (Or.inr (Or.inl rfl))))
        (key _ (Or.inr (Or.inr (Or.inr rfl))))) (key _ (Or.inr (Or.inr (Or.inl rfl))))
    linarith [h.2.2.2]
  have hr := vertex_range (l := l) (q := q) (p := q.p0) (Or.inl rfl)
  obtain ⟨a1, a2⟩ := reject_axis ex1 ex2 (hr.1.1.trans hr.1.2)
  obtain ⟨b1, b2⟩ := reject_axis ey1 ey2 (hr.2.1.trans hr.2.2)
  unfold dofSampleInBound intersects
  dsimp only at a1 a2 b1 b2 ⊢
  simp only [Bool.not_eq_true', Bool.or_eq_false_iff, decide_eq_false_iff_not, not_lt]
  exact ⟨⟨⟨a1, b1⟩, a2⟩, b2⟩

/-- The test of a sample is the test of C53 for the micropolygon as seen from the lens position – if the vertices are then in
the same order (partial: see C56_order_violated for what happens otherwise). -/
theorem C57_sample_partial (l : Lens) (q : Quad) (dof pos : ℚ × ℚ) (ho : indexCode (shifted l dof q) = indexCode q) :
    sampleDof l q dof pos = hits (shifted l dof q) pos.1 pos.2 := by
  unfold sampleDof
  rw [← ho]
  show (_ && hits (shifted l dof q) pos.1 pos.2) = _
  rcases h : hits (shifted l dof q) pos.1 pos.2 with _ | _
  · rw [Bool.and_false]
  · rw [Bool.and_true]
    exact C57_reject l q dof pos (hits_bound h)

/-- A micropolygon whose vertices have the same depth keeps its order. -/
theorem C57_order (l : Lens) (q : Quad) (dof : ℚ × ℚ) (h1 : q.p1.z = q.p0.z) (h2 : q.p2.z = q.p0.z) (h3 : q.p3.z = q.p0.z) :
    indexCode (shifted l dof q) = indexCode q := by
  obtain ⟨⟨x0, y0, z0⟩, ⟨x1, y1, z1⟩, ⟨x2, y2, z2⟩, ⟨x3, y3, z3⟩⟩ := q
  dsimp only at h1 h2 h3
  subst z1 z2 z3
  have hat : ∀ i, (shifted l dof ⟨⟨x0, y0, z0⟩, ⟨x1, y1, z0⟩, ⟨x2, y2, z0⟩, ⟨x3, y3, z0⟩⟩).at i =
      ⟨((⟨⟨x0, y0, z0⟩, ⟨x1, y1, z0⟩, ⟨x2, y2, z0⟩, ⟨x3, y3, z0⟩⟩ : Quad).at i).x - (coc l z0).1 * dof.1,
       ((⟨⟨x0, y0, z0⟩, ⟨x1, y1, z0⟩, ⟨x2, y2, z0⟩, ⟨x3, y3, z0⟩⟩ : Quad).at i).y - (coc l z0).2 * dof.2,
       ((⟨⟨x0, y0, z0⟩, ⟨x1, y1, z0⟩, ⟨x2, y2, z0⟩, ⟨x3, y3, z0⟩⟩ : Quad).at i).z⟩ := by
    intro i
    unfold Quad.at
    rcases i % 4 with _ | _ | _ | i <;> rfl
  have hd : ∀ (a b : P3) (u v : ℚ), dist2 ⟨a.x - u, a.y - v, a.z⟩ ⟨b.x - u, b.y - v, b.z⟩ = dist2 a b := by
    intro a b u v; unfold dist2; ring
  have hf : ∀ (a b c : P3) (u v : ℚ), HitTest.flip ⟨a.x - u, a.y - v, a.z⟩ ⟨b.x - u, b.y - v, b.z⟩ ⟨c.x - u, c.y - v, c.z⟩
      = HitTest.flip a b c := by
    intro a b c u v
    unfold HitTest.flip
    dsimp only
    congr 1
    ring_nf
  unfold indexCode codes
  simp only [hat, hd, hf]

/-- The bound for the distribution to buckets contains the micropolygon as seen from any point of the lens. -/
theorem C57_expand (l : Lens) (hl : l.Good) (q : Quad) (hz : 0 < zMin q) (dof : ℚ × ℚ)
    (hd : (-1 ≤ dof.1 ∧ dof.1 ≤ 1) ∧ (-1 ≤ dof.2 ∧ dof.2 ≤ 1)) :
    Within (bound (shifted l dof q)) (expand (bound q) (maxCoc l q)) := by
  refine shifted_within ?_
  intro p hp
  have hb := vertex_bound hp
  have hc := coc_le hl hz (vertex_z hp).1 (vertex_z hp).2
  have hn := coc_nonneg hl p.z
  unfold expand maxCoc
  dsimp only
  have a1 := mul_le_mul_of_nonneg_left hd.1.1 hn.1
  have a2 := mul_le_mul_of_nonneg_left hd.1.2 hn.1
  have b1 := mul_le_mul_of_nonneg_left hd.2.1 hn.2
  have b2 := mul_le_mul_of_nonneg_left hd.2.2 hn.2
  exact ⟨⟨by linarith [hb.1.1, hc.1], by linarith [hb.1.2, hc.1]⟩, by linarith [hb.2.1, hc.2], by linarith [hb.2.2, hc.2]⟩

/-! ## All the samples -/

/-- Parallel to the image. -/
def Flat (q : Quad) : Prop := q.p1.z = q.p0.z ∧ q.p2.z = q.p0.z ∧ q.p3.z = q.p0.z

/-- The bound of a cell touches both axes. -/
def Central (D : Bound) : Prop := (D.xMin ≤ 0 ∧ 0 ≤ D.xMax) ∧ (D.yMin ≤ 0 ∧ 0 ≤ D.yMax)

lemma flat_z {q : Quad} (h : Flat q) : zMin q = q.p0.z ∧ zMax q = q.p0.z := by
  unfold zMin zMax
  rw [h.1, h.2.1, h.2.2]; simp

lemma axis_shift {c C d D0 D1 : ℚ} (h0 : 0 ≤ c) (hcC : c ≤ C) (hd0 : D0 ≤ d) (hd1 : d ≤ D1)
    (h : c = C ∨ (D0 ≤ 0 ∧ 0 ≤ D1)) : D0 * C ≤ c * d ∧ c * d ≤ D1 * C := by
  have a := mul_le_mul_of_nonneg_left hd0 h0
  have b := mul_le_mul_of_nonneg_left hd1 h0
  rcases h with h | ⟨h1, h2⟩
  · rw [← h]; exact ⟨by linarith, by linarith⟩
  · have e1 := mul_le_mul_of_nonpos_left hcC h1
    have e2 := mul_le_mul_of_nonneg_left hcC h2
    exact ⟨by linarith, by linarith⟩

/-- The moved bound of a micropolygon contains it as seen from every point of the cell of the lens – if it is parallel to the
image or the cell touches both axes (partial, see `C57_tilted_violated`). -/
theorem C57_shift_partial (l : Lens) (hl : l.Good) (q : Quad) (hz : 0 < zMin q) (D : Bound) (hf : Flat q ∨ Central D)
    (dof : ℚ × ℚ) (hd : D.contains dof.1 dof.2 = true) :
    Within (bound (shifted l dof q)) (shiftBound (bound q) D (maxCoc l q)) := by
  rw [contains_iff] at hd
  refine shifted_within ?_
  intro p hp
  have hb := vertex_bound hp
  have hc := coc_le hl hz (vertex_z hp).1 (vertex_z hp).2
  have hn := coc_nonneg hl p.z
  have hx : (coc l p.z).1 = (maxCoc l q).1 ∨ (D.xMin ≤ 0 ∧ 0 ≤ D.xMax) := by
    rcases hf with hf | hf
    · left
      have := flat_z hf
      have hpz : p.z = q.p0.z := le_antisymm ((vertex_z hp).2.trans this.2.le) (this.1.ge.trans (vertex_z hp).1)
      unfold maxCoc maxVec
      rw [this.1, this.2, hpz]; simp
    · exact Or.inr hf.1
  have hy : (coc l p.z).2 = (maxCoc l q).2 ∨ (D.yMin ≤ 0 ∧ 0 ≤ D.yMax) := by
    rcases hf with hf | hf
    · left
      have := flat_z hf
      have hpz : p.z = q.p0.z := le_antisymm ((vertex_z hp).2.trans this.2.le) (this.1.ge.trans (vertex_z hp).1)
      unfold maxCoc maxVec
      rw [this.1, this.2, hpz]; simp
    · exact Or.inr hf.2
  change _ ≤ (maxCoc l q).1 ∧ _ ≤ (maxCoc l q).2 at hc
  have ax := axis_shift hn.1 hc.1 hd.1 hd.2.1 hx
  have ay := axis_shift hn.2 hc.2 hd.2.2.1 hd.2.2.2 hy
  unfold shiftBound
  dsimp only
  exact ⟨⟨by linarith [hb.1.1, ax.2], by linarith [hb.1.2, ax.1]⟩, by linarith [hb.2.1, ay.2], by linarith [hb.2.2, ay.1]⟩

/-- The samples of all pixels: one for each cell, in the bound of the cell, inside of the pixel. -/
structure Samples.Good (s : Samples) (N : Nat) (D : Nat → Bound) : Prop where
  cells : ∀ px py, Shuffled N (s.cell px py)
  dof : ∀ px py which, which < N →
    (D which).contains (s.dof px py (s.cell px py which)).1 (s.dof px py (s.cell px py which)).2 = true
  pos : ∀ (px py : ℤ) (i : Nat), i < N →
    ((px : ℚ) < (s.pos px py i).1 ∧ (s.pos px py i).1 < px + 1) ∧ ((py : ℚ) < (s.pos px py i).2 ∧ (s.pos px py i).2 < py + 1)

/-- Which samples a micropolygon is stored in: once in exactly those samples of the sample region that are hit. (Partial: the
micropolygon has to be parallel to the image or all cells have to touch the axes, as for 2 × 2 samples; the bounds of the
cells have to contain the lens positions, see above; no sample may be on the lower or left border of its pixel, see
C56_border_violated.) -/
theorem C57_render_partial (l : Lens) (hl : l.Good) (q : Quad) (hz : 0 < zMin q) (D : Nat → Bound) (r : Region) (s : Samples)
    (hs : s.Good (r.xs * r.ys) D) (hf : Flat q ∨ ∀ which, which < r.xs * r.ys → Central (D which))
    (ho : ∀ px py i, indexCode (shifted l (s.dof px py i) q) = indexCode q) :
    (renderDof l q D r s).Nodup ∧
    ∀ (px py : ℤ) (i : Nat), (px, py, i) ∈ renderDof l q D r s ↔ (r.x0 ≤ px ∧ px < r.x1) ∧ (r.y0 ≤ py ∧ py < r.y1) ∧
      i < r.xs * r.ys ∧ hits (shifted l (s.dof px py i) q) (s.pos px py i).1 (s.pos px py i).2 = true := by
  have hmem : ∀ (b : Bound) (which : Nat) (py : ℤ) (z : ℤ × ℤ × Nat),
      z ∈ (pixels b.xMin b.xMax r.x0 r.x1).filterMap (fun px =>
        if b.contains (s.pos px py (s.cell px py which)).1 (s.pos px py (s.cell px py which)).2 &&
          sampleDof l q (s.dof px py (s.cell px py which)) (s.pos px py (s.cell px py which)) then
          some (px, py, s.cell px py which) else none) ↔
      z.1 ∈ pixels b.xMin b.xMax r.x0 r.x1 ∧ z.2.1 = py ∧ z.2.2 = s.cell z.1 py which ∧
        b.contains (s.pos z.1 py z.2.2).1 (s.pos z.1 py z.2.2).2 = true ∧
        sampleDof l q (s.dof z.1 py z.2.2) (s.pos z.1 py z.2.2) = true := by
    intro b which py z
    rw [List.mem_filterMap]
    constructor
    · rintro ⟨px, hpx, h⟩
      split_ifs at h with hc
      cases h
      rw [Bool.and_eq_true] at hc
      exact ⟨hpx, rfl, rfl, hc.1, hc.2⟩
    · rintro ⟨h1, h2, h3, h4, h5⟩
      refine ⟨z.1, h1, ?_⟩
      rw [← h3, if_pos (by rw [h4, h5]; rfl), ← h2]
  constructor
  · unfold renderDof
    dsimp only
    refine nodup_flatMap _ _ List.nodup_range ?_ ?_
    · intro which _
      refine nodup_flatMap _ _ (nodup_upto _ _) ?_ ?_
      · intro py _
        refine List.Nodup.filterMap ?_ (nodup_upto _ _)
        intro a a' z ha ha'
        rw [Option.mem_def] at ha ha'
        split_ifs at ha ha'
        cases ha
        simp only [Option.some.injEq, Prod.mk.injEq] at ha'
        exact ha'.1.symm
      · intro py _ py' _ z hz hz'
        rw [hmem] at hz hz'
        exact hz.2.1.symm.trans hz'.2.1
    · intro w hw w' hw' z hz hz'
      rw [List.mem_range] at hw hw'
      rw [List.mem_flatMap] at hz hz'
      obtain ⟨py, -, hz⟩ := hz
      obtain ⟨py', -, hz'⟩ := hz'
      rw [hmem] at hz hz'
      obtain ⟨-, e1, e2, -⟩ := hz
      obtain ⟨-, e1', e2', -⟩ := hz'
      rw [← e1] at e2
      rw [← e1'] at e2'
      obtain ⟨k, -, hu⟩ := (hs.cells z.1 z.2.1).2 z.2.2 (e2 ▸ (hs.cells z.1 z.2.1).1 w hw)
      rw [hu w ⟨hw, e2.symm⟩, hu w' ⟨hw', e2'.symm⟩]
  · intro px py i
    unfold renderDof
    dsimp only
    rw [List.mem_flatMap]
    constructor
    · rintro ⟨w, hw, h⟩
      rw [List.mem_range] at hw
      rw [List.mem_flatMap] at h
      obtain ⟨py', hpy, h⟩ := h
      rw [hmem] at h
      obtain ⟨h1, h2, h3, -, h5⟩ := h
      dsimp only at h1 h2 h3 h5
      subst h2
      rw [mem_pixels] at h1 hpy
      rw [C57_sample_partial l q _ _ (ho _ _ _)] at h5
      exact ⟨h1.1, hpy.1, h3 ▸ (hs.cells px py).1 w hw, h5⟩
    · rintro ⟨hx, hy, hi, hh⟩
      obtain ⟨w, ⟨hw, hcell⟩, -⟩ := (hs.cells px py).2 i hi
      have hd := hs.dof px py w hw
      rw [hcell] at hd
      have hW := C57_shift_partial l hl q hz (D w) (hf.imp id (fun h => h w hw)) _ hd
      have hcont := hW.contains (hits_bound hh)
      obtain ⟨c1, c2, c3, c4⟩ := (contains_iff _ _ _).mp hcont
      obtain ⟨⟨p1, p2⟩, p3, p4⟩ := hs.pos px py i hi
      refine ⟨w, List.mem_range.mpr hw, List.mem_flatMap.mpr ⟨py, ?_, (hmem _ _ _ _).mpr ⟨?_, rfl, hcell.symm, hcont, ?_⟩⟩⟩
      · rw [mem_pixels]
        refine ⟨hy, ?_, ?_⟩
        · rw [← Int.lt_add_one_iff, Int.floor_lt]; push_cast; linarith
        · rw [Int.lt_ceil]; linarith
      · rw [mem_pixels]
        refine ⟨hx, ?_, ?_⟩
        · rw [← Int.lt_add_one_iff, Int.floor_lt]; push_cast; linarith
        · rw [Int.lt_ceil]; linarith
      · dsimp only
        rw [C57_sample_partial l q _ _ (ho _ _ _)]
        exact hh

/-- A lens focused at the depth 1. -/
def exampleLens : Lens := ⟨1, 1, 1, 1⟩

/-- One sample, in the middle of the pixel, looking through the left half of the lens. -/
def exampleSamples : Samples := ⟨fun _ _ w => w, fun px py _ => ((px : ℚ) + 1 / 2, (py : ℚ) + 1 / 2), fun _ _ _ => (-1 / 2, 0)⟩

example : exampleLens.Good := ⟨by norm_num [exampleLens], by norm_num [exampleLens], by norm_num [exampleLens]⟩

/-- A unit square at the depth 2, where the circle of confusion has the radius 1/2: it is seen a quarter further to the
right. -/
example : renderDof exampleLens ⟨⟨0, 0, 2⟩, ⟨1, 0, 2⟩, ⟨0, 1, 2⟩, ⟨1, 1, 2⟩⟩ (fun _ => ⟨-1, -1, 1, 1⟩) ⟨0, 4, 0, 4, 1, 1⟩
    exampleSamples = [(0, 0, 0)] := by decide +kernel

/-- A micropolygon that is not parallel to the image, one corner at the depth 2 and the others in focus, seen through a cell
at the left of the lens (as with 4 × 4 samples): the sample is hit, and not found. -/
theorem C57_tilted_violated : ∃ (q : Quad) (D : Bound) (s : Samples), exampleLens.Good ∧ 0 < zMin q ∧
    s.Good 1 (fun _ => D) ∧ indexCode (shifted exampleLens (s.dof 0 0 0) q) = indexCode q ∧
    hits (shifted exampleLens (s.dof 0 0 0) q) (s.pos 0 0 0).1 (s.pos 0 0 0).2 = true ∧
    ((0 : ℤ), (0 : ℤ), (0 : Nat)) ∉ renderDof exampleLens q (fun _ => D) ⟨0, 4, 0, 4, 1, 1⟩ s := by
  refine ⟨⟨⟨0, 0, 1⟩, ⟨1, 0, 1⟩, ⟨0, 1, 1⟩, ⟨1, 1, 2⟩⟩, ⟨-1, -9 / 10, -1 / 3, 0⟩,
    ⟨fun _ _ w => w, fun px py _ => ((px : ℚ) + 1 / 20, (py : ℚ) + 1 / 2), fun _ _ _ => (-1 / 2, -1 / 4)⟩, ?_, ?_, ?_, ?_, ?_, ?_⟩
  · exact ⟨by norm_num [exampleLens], by norm_num [exampleLens], by norm_num [exampleLens]⟩
  · decide +kernel
  · refine ⟨?_, ?_, ?_⟩
    · intro _ _
      exact ⟨fun i hi => hi, fun v hv => ⟨v, ⟨hv, rfl⟩, fun j hj => hj.2⟩⟩
    · intro _ _ _ _
      show Bound.contains ⟨-1, -9 / 10, -1 / 3, 0⟩ (-1 / 2) (-1 / 4) = true
      decide +kernel
    · intro px py i _
      refine ⟨⟨?_, ?_⟩, ?_, ?_⟩ <;> dsimp only <;> linarith
  · decide +kernel
  · decide +kernel
  · decide +kernel

end Verif.Core.Dof
