import Verif.Geom.QuadricProps

/-!
# C81: normals of quadrics
-/

noncomputable section

namespace Verif.Geom.Quadric

open Real

/-- The derivative of the curve. -/
def dcurve : Shape → ℝ → V
  | .sphere r pmin pmax, t =>
    ⟨-(r * sin (mix pmin pmax t) * (pmax - pmin)), 0, r * cos (mix pmin pmax t) * (pmax - pmin)⟩
  | .cone h r vmin vmax, _ => ⟨-(r * (vmax - vmin)), 0, h * (vmax - vmin)⟩
  | .cylinder _ zmin zmax, _ => ⟨0, 0, zmax - zmin⟩
  | .hyperboloid p1 p2, _ => sub p2 p1
  | .paraboloid r zmin zmax, t => ⟨r * ((zmax - zmin) / zmax / (2 * √(mix zmin zmax t / zmax))), 0, zmax - zmin⟩
  | .torus _ minor pmin pmax, t =>
    ⟨-(minor * sin (mix pmin pmax t * π / 180) * ((pmax - pmin) * π / 180)), 0,
      minor * cos (mix pmin pmax t * π / 180) * ((pmax - pmin) * π / 180)⟩
  | .disk _ major minor, _ => ⟨minor - major, 0, 0⟩

theorem mix_deriv (a b t : ℝ) : HasDerivAt (fun t => mix a b t) (b - a) t := by
  have := ((hasDerivAt_id t).mul_const (b - a)).const_add a
  simpa [mix] using this

theorem deg_deriv (a b t : ℝ) : HasDerivAt (fun t => mix a b t * π / 180) ((b - a) * π / 180) t := by
  have := ((mix_deriv a b t).mul_const π).div_const 180
  simpa using this

theorem curve_deriv (sh : Shape) (t : ℝ) (hsm : Smooth sh t) : HasDerivV (curve sh) (dcurve sh t) t := by
  cases sh with
  | sphere r pmin pmax =>
    refine ⟨?_, hasDerivAt_const _ _, ?_⟩
    · have := ((mix_deriv pmin pmax t).cos).const_mul r
      exact this.congr_deriv (by simp only [dcurve]; ring)
    · have := ((mix_deriv pmin pmax t).sin).const_mul r
      exact this.congr_deriv (by simp only [dcurve]; ring)
  | cone h r vmin vmax =>
    refine ⟨?_, hasDerivAt_const _ _, ?_⟩
    · have := ((mix_deriv vmin vmax t).const_sub 1).const_mul r
      exact this.congr_deriv (by simp only [dcurve]; ring)
    · exact (mix_deriv vmin vmax t).const_mul h
  | cylinder r zmin zmax => exact ⟨hasDerivAt_const _ _, hasDerivAt_const _ _, mix_deriv zmin zmax t⟩
  | hyperboloid p1 p2 => exact ⟨mix_deriv _ _ t, mix_deriv _ _ t, mix_deriv _ _ t⟩
  | paraboloid r zmin zmax =>
    obtain ⟨h1, h2, h3⟩ := hsm
    refine ⟨?_, hasDerivAt_const _ _, mix_deriv zmin zmax t⟩
    exact (((mix_deriv zmin zmax t).div_const zmax).sqrt (div_pos h3 h2).ne').const_mul r
  | torus major minor pmin pmax =>
    refine ⟨?_, hasDerivAt_const _ _, ?_⟩
    · have := (((deg_deriv pmin pmax t).cos).const_mul minor).const_add major
      exact this.congr_deriv (by simp only [dcurve]; ring)
    · have := ((deg_deriv pmin pmax t).sin).const_mul minor
      exact this.congr_deriv (by simp only [dcurve]; ring)
  | disk h major minor => exact ⟨mix_deriv _ _ t, hasDerivAt_const _ _, hasDerivAt_const _ _⟩

theorem surf_deriv_s (q : Quad) (s t : ℝ) :
    HasDerivV (fun s => surf q s t)
      (smul ((q.tmax - q.tmin) * π / 180) ⟨-(surf q s t).y, (surf q s t).x, 0⟩) s := by
  have h := deg_deriv q.tmin q.tmax s
  refine ⟨?_, ?_, ?_⟩
  · have := ((h.cos).const_mul (curve q.shape t).x).sub ((h.sin).const_mul (curve q.shape t).y)
    exact this.congr_deriv (by simp only [smul, surf]; ring)
  · have := ((h.sin).const_mul (curve q.shape t).x).add ((h.cos).const_mul (curve q.shape t).y)
    exact this.congr_deriv (by simp only [smul, surf]; ring)
  · have := hasDerivAt_const s (curve q.shape t).z
    exact this.congr_deriv (by simp only [smul]; ring)

theorem surf_deriv_t (q : Quad) (s t : ℝ) (h : Smooth q.shape t) :
    HasDerivV (fun t => surf q s t) (rotZ (mix q.tmin q.tmax s * π / 180) (dcurve q.shape t)) t := by
  obtain ⟨h1, h2, h3⟩ := curve_deriv q.shape t h
  exact ⟨(h1.mul_const _).sub (h2.mul_const _), (h1.mul_const _).add (h2.mul_const _), h3⟩

theorem derivV_unique {f : ℝ → V} {d d' : V} {x : ℝ} (h : HasDerivV f d x) (h' : HasDerivV f d' x) : d = d' :=
  V.ext (h.1.unique h'.1) (h.2.1.unique h'.2.1) (h.2.2.unique h'.2.2)

theorem dice_normal (q : Quad) (n m u v : Nat) :
    (dicePoint q n m u v).2 =
      (dice q.shape q.tmax (cos (mix q.tmin q.tmax ((u : ℝ) / n) * π / 180))
        (sin (mix q.tmin q.tmax ((u : ℝ) / n) * π / 180)) m v).2 := by
  unfold dicePoint
  simp only [grid_eq, mix_rad]

theorem mix_cast (a b : ℝ) (v m : Nat) : a + v * (b - a) / m = mix a b ((v : ℝ) / m) := by unfold mix; ring

theorem normal_main (sh : Shape) (tmax c s k : ℝ) (m v : Nat) (hcs : c ^ 2 + s ^ 2 = 1) (hsm : Smooth sh ((v : ℝ) / m)) :
    let p := curve sh ((v : ℝ) / m)
    let d := dcurve sh ((v : ℝ) / m)
    let N := (dice sh tmax c s m v).2
    dot N (smul k ⟨-(p.x * s + p.y * c), p.x * c - p.y * s, 0⟩) = 0 ∧
      dot N ⟨d.x * c - d.y * s, d.x * s + d.y * c, d.z⟩ = 0 := by
  cases sh with
  | sphere r pmin pmax =>
    simp only [dice, curve, dcurve, dot, smul, grid_eq]
    generalize cos (mix pmin pmax ((v : ℝ) / m)) = x
    generalize sin (mix pmin pmax ((v : ℝ) / m)) = y
    exact ⟨by ring, by linear_combination (-(r * x * y * (pmax - pmin))) * hcs⟩
  | cone h r vmin vmax =>
    simp only [dice, curve, dcurve, dot, smul]
    generalize √(h * h + r * r) = l
    exact ⟨by ring, by linear_combination (-(h / l * r * (vmax - vmin))) * hcs⟩
  | cylinder r zmin zmax =>
    simp only [dice, curve, dcurve, dot, smul]
    exact ⟨by ring, by ring⟩
  | hyperboloid p1 p2 =>
    simp only [dice, curve, dcurve, dot, smul, cross, sub, add, mix]
    constructor <;> ring
  | paraboloid r zmin zmax =>
    obtain ⟨h1, h2, h3⟩ := hsm
    have hq : 0 < √(mix zmin zmax ((v : ℝ) / m) / zmax) := sqrt_pos.mpr (div_pos h3 h2)
    simp only [dice, curve, dcurve, dot, smul, mix_cast]
    generalize √(mix zmin zmax ((v : ℝ) / m) / zmax) = w at hq ⊢
    rw [if_neg (mul_ne_zero h1 hq.ne')]
    refine ⟨by ring, ?_⟩
    field_simp
    linear_combination (r * (zmax - zmin)) * hcs
  | torus major minor pmin pmax =>
    simp only [dice, curve, dcurve, dot, smul, grid_eq, mix_rad]
    generalize cos (mix pmin pmax ((v : ℝ) / m) * π / 180) = x
    generalize sin (mix pmin pmax ((v : ℝ) / m) * π / 180) = y
    exact ⟨by ring, by linear_combination (-(minor * x * y * ((pmax - pmin) * π / 180))) * hcs⟩
  | disk h major minor =>
    simp only [dice, curve, dcurve, dot, smul]
    exact ⟨by ring, by ring⟩

/-- Normals are perpendicular to the surface in both directions, except at the apex of a paraboloid. -/
theorem C81_perpendicular_partial (q : Quad) (flip : Bool) (n m u v : Nat) (h : Smooth q.shape ((v : ℝ) / m)) (du dv : V)
    (hu : HasDerivV (fun s => surf q s ((v : ℝ) / m)) du ((u : ℝ) / n))
    (hv : HasDerivV (fun t => surf q ((u : ℝ) / n) t) dv ((v : ℝ) / m)) :
    dot (gridNormal q flip n m u v) du = 0 ∧ dot (gridNormal q flip n m u v) dv = 0 := by
  have main : dot (dicePoint q n m u v).2 du = 0 ∧ dot (dicePoint q n m u v).2 dv = 0 := by
    rw [derivV_unique hu (surf_deriv_s q _ _), derivV_unique hv (surf_deriv_t q _ _ h), dice_normal]
    exact normal_main q.shape q.tmax _ _ _ m v (cos_sq_add_sin_sq _) h
  unfold gridNormal
  cases flip
  · exact main
  · simp only [if_true, dot_smul_l, main.1, main.2, mul_zero, and_self]

example : Smooth (.paraboloid 1 0 2) ((1 : ℕ) / (2 : ℕ)) ∧
    ∃ du dv, HasDerivV (fun s => surf ⟨.paraboloid 1 0 2, 0, 360⟩ s ((1 : ℕ) / (2 : ℕ))) du ((1 : ℕ) / (4 : ℕ)) ∧
      HasDerivV (fun t => surf ⟨.paraboloid 1 0 2, 0, 360⟩ ((1 : ℕ) / (4 : ℕ)) t) dv ((1 : ℕ) / (2 : ℕ)) := by
  have h : Smooth (.paraboloid 1 0 2) ((1 : ℕ) / (2 : ℕ)) := ⟨one_ne_zero, by norm_num, by norm_num [mix]⟩
  exact ⟨h, _, _, surf_deriv_s _ _ _, surf_deriv_t _ _ _ h⟩

theorem orient_main (sh : Shape) (tmax c s k : ℝ) (m v : Nat) (hcs : c ^ 2 + s ^ 2 = 1) (hsm : Smooth sh ((v : ℝ) / m))
    (hus : Usual sh) (hk : 0 ≤ k) (ht : 0 < tmax) (hv : (v : ℝ) / m ≤ 1) :
    let p := curve sh ((v : ℝ) / m)
    let d := dcurve sh ((v : ℝ) / m)
    let N := (dice sh tmax c s m v).2
    0 ≤ dot N (cross (smul k ⟨-(p.x * s + p.y * c), p.x * c - p.y * s, 0⟩)
      ⟨d.x * c - d.y * s, d.x * s + d.y * c, d.z⟩) := by
  have hv0 : 0 ≤ (v : ℝ) / m := by positivity
  cases sh with
  | sphere r pmin pmax =>
    obtain ⟨h1, h2, h3, h4⟩ := hus
    obtain ⟨b1, b2⟩ := mix_between (a := pmin) (b := pmax) hv0 hv
    rw [min_eq_left h3] at b1
    rw [max_eq_right h3] at b2
    have hc : 0 ≤ cos (mix pmin pmax ((v : ℝ) / m)) := cos_nonneg_of_mem_Icc ⟨by linarith, by linarith⟩
    have he := cos_sq_add_sin_sq (mix pmin pmax ((v : ℝ) / m))
    simp only [dice, curve, dcurve, dot, smul, cross, grid_eq]
    generalize cos (mix pmin pmax ((v : ℝ) / m)) = x at hc he ⊢
    generalize sin (mix pmin pmax ((v : ℝ) / m)) = y at he ⊢
    have : 0 ≤ k * (r * r) * x * (pmax - pmin) := by
      have : 0 ≤ pmax - pmin := by linarith
      positivity
    refine this.trans (le_of_eq ?_)
    linear_combination (-(k * r * r * x * (pmax - pmin))) * he - (k * r * r * x * (pmax - pmin)) * (x ^ 2 + y ^ 2) * hcs
  | cone h r vmin vmax =>
    obtain ⟨h1, h2, h3, h4, h5⟩ := hus
    obtain ⟨b1, b2⟩ := mix_between (a := vmin) (b := vmax) hv0 hv
    rw [max_eq_right h4] at b2
    simp only [dice, curve, dcurve, dot, smul, cross]
    have hl : 0 ≤ √(h * h + r * r) := sqrt_nonneg _
    generalize √(h * h + r * r) = l at hl ⊢
    have : 0 ≤ k * (r * (1 - mix vmin vmax ((v : ℝ) / m))) * (vmax - vmin) * ((h * h + r * r) / l) := by
      have : 0 ≤ vmax - vmin := by linarith
      have : 0 ≤ 1 - mix vmin vmax ((v : ℝ) / m) := by linarith
      positivity
    refine this.trans (le_of_eq ?_)
    linear_combination (-(k * (r * (1 - mix vmin vmax ((v : ℝ) / m))) * (vmax - vmin) * ((h * h + r * r) / l))) * hcs
  | cylinder r zmin zmax =>
    simp only [dice, curve, dcurve, dot, smul, cross]
    have : 0 ≤ k * (r * r) * (zmax - zmin) := by
      have : 0 ≤ zmax - zmin := by simpa [Usual] using hus
      have := mul_self_nonneg r
      positivity
    refine this.trans (le_of_eq ?_)
    linear_combination (-(k * (r * r) * (zmax - zmin))) * hcs
  | hyperboloid p1 p2 =>
    have : ∀ w : V, 0 ≤ (tmax * k) * dot w w := by
      intro w
      have : 0 ≤ dot w w := by
        unfold dot; nlinarith [mul_self_nonneg w.x, mul_self_nonneg w.y, mul_self_nonneg w.z]
      positivity
    let p := curve (.hyperboloid p1 p2) ((v : ℝ) / m)
    refine (this (cross ⟨-(p.x * s + p.y * c), p.x * c - p.y * s, 0⟩
      ⟨(p2.x - p1.x) * c - (p2.y - p1.y) * s, (p2.x - p1.x) * s + (p2.y - p1.y) * c, p2.z - p1.z⟩)).trans (le_of_eq ?_)
    simp only [p, dice, curve, dcurve, dot, smul, cross, sub, add, mix]
    ring
  | paraboloid r zmin zmax =>
    obtain ⟨h1, h2, h3⟩ := hsm
    obtain ⟨u1, u2, u3⟩ := hus
    have hq : 0 < √(mix zmin zmax ((v : ℝ) / m) / zmax) := sqrt_pos.mpr (div_pos h3 h2)
    simp only [dice, curve, dcurve, dot, smul, cross, mix_cast]
    generalize √(mix zmin zmax ((v : ℝ) / m) / zmax) = w at hq ⊢
    rw [if_neg (mul_ne_zero h1 hq.ne')]
    have : 0 ≤ k * (r * w) * (zmax - zmin) * (1 + r * r / zmax / (2 * w) * (1 / 2 / zmax / w)) := by
      have : 0 ≤ zmax - zmin := by linarith
      positivity
    refine this.trans (le_of_eq ?_)
    field_simp
    linear_combination (-(k * r * w * (zmax - zmin) * (zmax ^ 2 * w ^ 2 * 4 + r ^ 2))) * hcs
  | torus major minor pmin pmax =>
    obtain ⟨h1, h2, h3⟩ := hus
    have he := cos_sq_add_sin_sq (mix pmin pmax ((v : ℝ) / m) * π / 180)
    have hc := neg_one_le_cos (mix pmin pmax ((v : ℝ) / m) * π / 180)
    simp only [dice, curve, dcurve, dot, smul, cross, grid_eq, mix_rad]
    generalize cos (mix pmin pmax ((v : ℝ) / m) * π / 180) = x at hc he ⊢
    generalize sin (mix pmin pmax ((v : ℝ) / m) * π / 180) = y at he ⊢
    have hpi := pi_pos
    have : 0 ≤ k * (major + minor * x) * (minor * ((pmax - pmin) * π / 180)) := by
      have : 0 ≤ pmax - pmin := by linarith
      have : 0 ≤ major + minor * x := by nlinarith
      positivity
    refine this.trans (le_of_eq ?_)
    linear_combination (-(k * (major + minor * x) * (minor * ((pmax - pmin) * π / 180)))) * he -
      (k * (major + minor * x) * (minor * ((pmax - pmin) * π / 180))) * (x ^ 2 + y ^ 2) * hcs
  | disk h major minor =>
    obtain ⟨h1, h2⟩ := hus
    simp only [dice, curve, dcurve, dot, smul, cross, if_pos ht]
    have : 0 ≤ k * mix major minor ((v : ℝ) / m) * (major - minor) := by
      obtain ⟨b1, b2⟩ := mix_between (a := major) (b := minor) hv0 hv
      rw [min_eq_right h2] at b1
      have : 0 ≤ major - minor := by linarith
      have : 0 ≤ mix major minor ((v : ℝ) / m) := by linarith
      positivity
    refine this.trans (le_of_eq ?_)
    linear_combination (-(k * mix major minor ((v : ℝ) / m) * (major - minor))) * hcs

/-- For quadrics turned forwards, normals are on the side of the cross product of the derivatives, and on the other one if the
orientation is reversed. -/
theorem C81_side_partial (q : Quad) (flip : Bool) (n m u v : Nat) (h : Smooth q.shape ((v : ℝ) / m)) (hus : Usual q.shape)
    (ht : q.tmin ≤ q.tmax) (ht0 : 0 < q.tmax) (hm : 0 < m) (hvm : v ≤ m) (du dv : V)
    (hu : HasDerivV (fun s => surf q s ((v : ℝ) / m)) du ((u : ℝ) / n))
    (hv : HasDerivV (fun t => surf q ((u : ℝ) / n) t) dv ((v : ℝ) / m)) :
    if flip then dot (gridNormal q flip n m u v) (cross du dv) ≤ 0
    else 0 ≤ dot (gridNormal q flip n m u v) (cross du dv) := by
  have main : 0 ≤ dot (dicePoint q n m u v).2 (cross du dv) := by
    rw [derivV_unique hu (surf_deriv_s q _ _), derivV_unique hv (surf_deriv_t q _ _ h), dice_normal]
    have hm' : (0 : ℝ) < m := by exact_mod_cast hm
    have hpi := pi_pos
    have : 0 ≤ q.tmax - q.tmin := by linarith
    exact orient_main q.shape q.tmax _ _ _ m v (cos_sq_add_sin_sq _) h hus (by positivity) ht0
      ((div_le_one hm').mpr (by exact_mod_cast hvm))
  unfold gridNormal
  cases flip
  · exact main
  · simp only [if_true, dot_smul_l]; linarith

example : Usual (.sphere 1 (-(π / 2)) (π / 2)) ∧ Usual (.disk 0 1 0) := by
  have := pi_pos
  exact ⟨⟨one_pos, le_refl _, by linarith, le_refl _⟩, le_refl _, zero_le_one⟩

/-- At the apex the normal of a paraboloid leans to the side by 45 degrees, in a direction that depends on the angle. -/
theorem C81_apex_violated :
    (dicePoint ⟨.paraboloid 1 0 1, 0, 360⟩ 2 1 0 0).1 = ⟨0, 0, 0⟩ ∧
      (dicePoint ⟨.paraboloid 1 0 1, 0, 360⟩ 2 1 1 0).1 = ⟨0, 0, 0⟩ ∧
      (dicePoint ⟨.paraboloid 1 0 1, 0, 360⟩ 2 1 0 0).2 = ⟨1, 0, -1⟩ ∧
      (dicePoint ⟨.paraboloid 1 0 1, 0, 360⟩ 2 1 1 0).2 = ⟨-1, 0, -1⟩ := by
  have ha : mix 0 360 ((1 : ℕ) / (2 : ℕ)) * π / 180 = π := by unfold mix; push_cast; ring
  have hb : mix 0 360 ((0 : ℕ) / (2 : ℕ)) * π / 180 = 0 := by unfold mix; push_cast; ring
  refine ⟨?_, ?_, ?_, ?_⟩
  · rw [C80_dice]; simp [surf, curve, mix]
  · rw [C80_dice]; simp [surf, curve, mix]
  · rw [dice_normal]; simp only [hb]; simp [dice]
  · rw [dice_normal]; simp only [ha]; simp [dice]

/-- Turned backwards, the normal of a disk is on the side of the cross product of the derivatives, and the normal of a
cylinder is on the other one. -/
theorem C81_backwards_violated :
    (∃ du dv, HasDerivV (fun s => surf ⟨.cylinder 1 0 1, 0, -360⟩ s ((0 : ℕ) / (1 : ℕ))) du ((0 : ℕ) / (1 : ℕ)) ∧
      HasDerivV (fun t => surf ⟨.cylinder 1 0 1, 0, -360⟩ ((0 : ℕ) / (1 : ℕ)) t) dv ((0 : ℕ) / (1 : ℕ)) ∧
      dot (gridNormal ⟨.cylinder 1 0 1, 0, -360⟩ false 1 1 0 0) (cross du dv) < 0) ∧
    (∃ du dv, HasDerivV (fun s => surf ⟨.disk 0 1 0, 0, -360⟩ s ((0 : ℕ) / (1 : ℕ))) du ((0 : ℕ) / (1 : ℕ)) ∧
      HasDerivV (fun t => surf ⟨.disk 0 1 0, 0, -360⟩ ((0 : ℕ) / (1 : ℕ)) t) dv ((0 : ℕ) / (1 : ℕ)) ∧
      0 < dot (gridNormal ⟨.disk 0 1 0, 0, -360⟩ false 1 1 0 0) (cross du dv)) := by
  have hpi := pi_pos
  refine ⟨⟨_, _, surf_deriv_s _ _ _, surf_deriv_t _ _ _ trivial, ?_⟩,
    ⟨_, _, surf_deriv_s _ _ _, surf_deriv_t _ _ _ trivial, ?_⟩⟩
  · simp only [gridNormal, Bool.false_eq_true, if_false, dice_normal]
    simp [dice, dcurve, rotZ, surf, curve, mix, smul, cross, dot]
    linarith
  · simp only [gridNormal, Bool.false_eq_true, if_false, dice_normal]
    simp [dice, dcurve, rotZ, surf, curve, mix, smul, cross, dot]
    norm_num
    linarith

end Verif.Geom.Quadric
