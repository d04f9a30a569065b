import Verif.Tex.EwaLemmas
import Mathlib.Analysis.Convex.Deriv
import Mathlib.Analysis.Convex.SpecificFunctions.Basic

/-!
C86: the elliptical filters of textures.
-/

namespace Verif.Tex.Ewa
open Real Spec

theorem var0_eq : var0 = unitVar := by
  unfold var0 unitVar
  have := Real.pi_ne_zero
  field_simp
  norm_num

theorem var0_pos : 0 < unitVar := by unfold unitVar; positivity

theorem val_cov (p : Pllgram) (resS resT : ℝ) (blur : M2) (w : V2) :
    val (covariance p resS resT blur) w = variance p resS resT blur w := by
  simp only [val, covariance, variance, px, dot, var0_eq, M2.add, M2.mul, M2.smul, M2.tr, M2.diag]
  ring

theorem cov_symm (p : Pllgram) (resS resT : ℝ) (blur : M2) (hb : blur.b = blur.c) :
    (covariance p resS resT blur).b = (covariance p resS resT blur).c := by
  simp only [covariance, M2.add, M2.mul, M2.smul, M2.tr, M2.diag, hb]
  ring

theorem variance_ge (p : Pllgram) (resS resT : ℝ) (blur : M2) (hb : IsCov blur) (w : V2) :
    unitVar * dot w w ≤ variance p resS resT blur w := by
  unfold variance
  have h1 := hb.2 (px resS resT w)
  have h2 := var0_pos
  have : 0 ≤ unitVar * (dot (px resS resT p.s1) w ^ 2 + dot (px resS resT p.s2) w ^ 2) := by positivity
  linarith

theorem cov_pos (p : Pllgram) (resS resT : ℝ) (blur : M2) (hb : IsCov blur) (w : V2)
    (hw : dot w w = 1) : 0 < val (covariance p resS resT blur) w := by
  rw [val_cov]
  have := variance_ge p resS resT blur hb w
  rw [hw] at this
  have h2 := var0_pos
  linarith

theorem factory_shape (p : Pllgram) (resS resT : ℝ) (blur : M2) (hb : IsCov blur) (E k : ℝ)
    (hk : 1 ≤ k) :
    ∃ (u : V2) (e1 l2 e2 : ℝ), dot u u = 1 ∧ 0 < l2 ∧ l2 ≤ e2 ∧ e2 ≤ e1 ∧
      (∀ w, variance p resS resT blur w = l2 * dot w w + (e1 - l2) * dot u w ^ 2) ∧
      (makeFactory p resS resT blur E k).quad = along u (1 / (2 * e1)) (1 / (2 * e2)) ∧
      (makeFactory p resS resT blur E k).minorAxis = √(8 * e2 * E) ∧
      e1 ≤ k ^ 2 * e2 ∧ (e1 ≤ k ^ 2 * l2 → e2 = l2) := by
  obtain ⟨u, e1, l2, e2, hu, h1, h2, h3, hm, hc, h4, h5⟩ :=
    clamp_shape (covariance p resS resT blur) (cov_symm p resS resT blur hb.1) k E hk
      (cov_pos p resS resT blur hb)
  have he2 : 0 < e2 := lt_of_lt_of_le h1 h2
  have he1 : 0 < e1 := lt_of_lt_of_le he2 h3
  refine ⟨u, e1, l2, e2, hu, h1, h2, h3, ?_, ?_, ?_, h4, h5⟩
  · intro w
    rw [← val_cov, hm, val_along]
  · unfold makeFactory
    simp only [hc]
    rw [inv_along u hu e1 e2 he1 he2]
    ext <;> simp only [M2.smul, along] <;> norm_num <;> field_simp
  · unfold makeFactory
    simp only [hc]

/-- C86: the filter of a pixel is the Gaussian whose covariance `v` is the sum of that of the pixel,
the blur and the reconstruction, except that it is made wider, and no wider than it was at its
widest, where it is more than `k` times as wide along one direction as along another. -/
theorem C86_filter (p : Pllgram) (resS resT : ℝ) (blur : M2) (hb : IsCov blur) (E k : ℝ)
    (hk : 1 ≤ k) :
    ∃ v : M2, IsCov v ∧ (M2.smul 2 (makeFactory p resS resT blur E k).quad).mul v = M2.diag 1 1 ∧
      (∀ w, variance p resS resT blur w ≤ val v w) ∧
      (∀ w, dot w w = 1 → ∃ u, dot u u = 1 ∧ val v w ≤ variance p resS resT blur u) ∧
      AspectWithin k (val v) ∧
      (AspectWithin k (variance p resS resT blur) → ∀ w, val v w = variance p resS resT blur w) ∧
      (makeFactory p resS resT blur E k).quad.b = (makeFactory p resS resT blur E k).quad.c ∧
      0 < (makeFactory p resS resT blur E k).quad.a ∧
      0 < (makeFactory p resS resT blur E k).quad.det := by
  obtain ⟨u, e1, l2, e2, hu, h1, h2, h3, hv, hq, _, h4, h5⟩ := factory_shape p resS resT blur hb E k hk
  have he2 : 0 < e2 := lt_of_lt_of_le h1 h2
  have he1 : 0 < e1 := lt_of_lt_of_le he2 h3
  have hsq : ∀ w : V2, 0 ≤ dot w w := by
    intro w; simp only [dot]; nlinarith [mul_self_nonneg w.x, mul_self_nonneg w.y]
  have hlo : ∀ w, e2 * dot w w ≤ val (along u e1 e2) w := by
    intro w; rw [val_along]
    have := mul_nonneg (sub_nonneg.mpr h3) (sq_nonneg (dot u w))
    linarith
  have hhi : ∀ w, val (along u e1 e2) w ≤ e1 * dot w w := by
    intro w; rw [val_along]
    have := mul_le_mul_of_nonneg_left (cauchy u w hu) (sub_nonneg.mpr h3)
    linarith
  have hx : u.y ^ 2 = 1 - u.x ^ 2 := by simp only [dot] at hu; nlinarith
  refine ⟨along u e1 e2, ⟨rfl, fun w => ?_⟩, ?_, ?_, ?_, ?_, ?_, ?_, ?_, ?_⟩
  · have := hlo w
    have := mul_nonneg he2.le (hsq w)
    linarith
  · rw [hq]
    ext <;> simp only [M2.smul, M2.mul, along, M2.diag]
    · have : u.x * u.y * (u.x * u.y) = u.x ^ 2 * (1 - u.x ^ 2) := by rw [← hx]; ring
      field_simp
      linear_combination (2 * e1 * e2 - e1 ^ 2 - e2 ^ 2) * this
    · field_simp
      linear_combination (2 * e1 * e2 - e1 ^ 2 - e2 ^ 2) * (u.x * u.y) * hx
    · field_simp
      linear_combination (2 * e1 * e2 - e1 ^ 2 - e2 ^ 2) * (u.x * u.y) * hx
    · have : u.x * u.y * (u.x * u.y) = u.x ^ 2 * (1 - u.x ^ 2) := by rw [← hx]; ring
      rw [hx]
      field_simp
      linear_combination (2 * e1 * e2 - e1 ^ 2 - e2 ^ 2) * this
  · intro w
    rw [hv, val_along]
    have := mul_le_mul_of_nonneg_left (cauchy u w hu) (sub_nonneg.mpr h2)
    linarith
  · intro w hw
    refine ⟨u, hu, ?_⟩
    have := hhi w
    rw [hw] at this
    rw [hv, hu]
    linarith
  · intro a w ha hw
    have h6 := hhi a
    have h7 := hlo w
    rw [ha] at h6
    rw [hw] at h7
    have := mul_le_mul_of_nonneg_left h7 (sq_nonneg k)
    linarith
  · intro hasp w
    have hn : dot (⟨-u.y, u.x⟩ : V2) ⟨-u.y, u.x⟩ = 1 := by rw [← hu]; simp only [dot]; ring
    have h0 : dot u (⟨-u.y, u.x⟩ : V2) = 0 := by simp only [dot]; ring
    have := hasp u ⟨-u.y, u.x⟩ hu hn
    rw [hv, hv, hu, hn, h0] at this
    rw [val_along, hv, h5 (by linarith)]
  · rw [hq]; rfl
  · rw [hq]
    simp only [along]
    have e : 1 / (2 * e2) + (1 / (2 * e1) - 1 / (2 * e2)) * u.x ^ 2 =
        1 / (2 * e2) * u.y ^ 2 + 1 / (2 * e1) * u.x ^ 2 := by rw [hx]; ring
    rw [e]
    by_cases hz : u.x = 0
    · rw [hx, hz]; simp; positivity
    · have : 0 < u.x ^ 2 := by positivity
      positivity
  · rw [hq, det_along u hu]
    positivity

/-- A parallelogram and no blur. -/
example : ∃ (p : Pllgram) (blur : M2), IsCov blur ∧ ¬ AspectWithin 2 (variance p 1 1 blur) := by
  refine ⟨⟨⟨0, 0⟩, ⟨10, 0⟩, ⟨0, 0⟩⟩, M2.diag 0 0, ⟨rfl, fun w => by simp [val, M2.diag]⟩, ?_⟩
  intro h
  have := h ⟨1, 0⟩ ⟨0, 1⟩ (by simp [dot]) (by simp [dot])
  simp only [variance, dot, px, val, M2.diag] at this
  have h0 := var0_pos
  nlinarith

/-- C86: the blur matrices of the texture calls are covariances. -/
theorem C86_blur (s t : ℝ) (hs : 0 ≤ s) (ht : 0 ≤ t) (w : V2) :
    IsCov (blurMatrix s t) ∧ val (blurMatrix s t) w = (s / 2 * w.x) ^ 2 + (t / 2 * w.y) ^ 2 := by
  have h : ∀ w, val (blurMatrix s t) w = (s / 2 * w.x) ^ 2 + (t / 2 * w.y) ^ 2 := by
    intro w
    unfold blurMatrix
    split_ifs with hp
    · simp only [val, M2.diag]; ring
    · rw [not_or, not_lt, not_lt] at hp
      have h1 : s = 0 := le_antisymm hp.1 hs
      have h2 : t = 0 := le_antisymm hp.2 ht
      simp [val, M2.diag, h1, h2]
  refine ⟨⟨?_, ?_⟩, h w⟩
  · unfold blurMatrix
    split_ifs <;> rfl
  · intro w
    rw [h w]
    positivity

/-- C86: the reported width of the minor axis is the diameter of the largest disk inside the ellipse:
the disk fits, and along some direction the ellipse is not wider. -/
theorem C86_minor_axis (p : Pllgram) (resS resT : ℝ) (blur : M2) (hb : IsCov blur) (E k : ℝ)
    (hE : 0 ≤ E) (hk : 1 ≤ k) :
    (∀ x, dot x x ≤ ((makeFactory p resS resT blur E k).minorAxis / 2) ^ 2 →
      val (makeFactory p resS resT blur E k).quad x ≤ E) ∧
    ∃ w, dot w w = 1 ∧ ∀ x, val (makeFactory p resS resT blur E k).quad x ≤ E →
      |dot w x| ≤ (makeFactory p resS resT blur E k).minorAxis / 2 := by
  obtain ⟨u, e1, l2, e2, hu, h1, h2, h3, _, hq, hma, _, _⟩ := factory_shape p resS resT blur hb E k hk
  have he2 : 0 < e2 := lt_of_lt_of_le h1 h2
  have he1 : 0 < e1 := lt_of_lt_of_le he2 h3
  rw [hq, hma]
  have hs : (√(8 * e2 * E) / 2) ^ 2 = 2 * e2 * E := by
    rw [div_pow, Real.sq_sqrt (by positivity)]; ring
  have hinv : 1 / (2 * e1) ≤ 1 / (2 * e2) := by
    apply one_div_le_one_div_of_le (by positivity)
    linarith
  constructor
  · intro x hx
    rw [hs] at hx
    rw [val_along]
    have h5 : (1 / (2 * e1) - 1 / (2 * e2)) * dot u x ^ 2 ≤ 0 :=
      mul_nonpos_of_nonpos_of_nonneg (by linarith) (sq_nonneg _)
    have h6 : 1 / (2 * e2) * dot x x ≤ 1 / (2 * e2) * (2 * e2 * E) :=
      mul_le_mul_of_nonneg_left hx (by positivity)
    have h7 : 1 / (2 * e2) * (2 * e2 * E) = E := by field_simp
    linarith
  · refine ⟨⟨-u.y, u.x⟩, by rw [← hu]; simp only [dot]; ring, ?_⟩
    intro x hx
    rw [val_along] at hx
    apply abs_le_of_sq_le_sq _ (by positivity)
    rw [hs]
    have hid : dot (⟨-u.y, u.x⟩ : V2) x ^ 2 = dot x x - dot u x ^ 2 := by
      have hh : dot (⟨-u.y, u.x⟩ : V2) x ^ 2 = dot u u * dot x x - dot u x ^ 2 := by
        simp only [dot]; ring
      rw [hh, hu, one_mul]
    have h8 : 0 ≤ 1 / (2 * e1) * dot u x ^ 2 := by positivity
    have h9 : 1 / (2 * e2) * (dot x x - dot u x ^ 2) ≤ E := by linarith
    rw [hid]
    have := mul_le_mul_of_nonneg_left h9 (show 0 ≤ 2 * e2 by positivity)
    have h10 : 2 * e2 * (1 / (2 * e2) * (dot x x - dot u x ^ 2)) = dot x x - dot u x ^ 2 := by
      field_simp
    linarith

/-! ### Weights -/

theorem step_table : (1 / (((20 : ℕ) : ℝ) - 1) * 6) = 6 / 19 := by norm_num

/-- C86: the weights are looked up inside of the table and differ from the exponential function by
less than an eightieth. -/
theorem C86_table (q : ℝ) (h0 : 0 ≤ q) (h6 : q < 6) :
    ∃ v, negExp q = .ok v ∧ exp (-q) ≤ v ∧ v ≤ exp (-q) + 1 / 80 := by
  unfold negExp tableLookup
  rw [if_neg (not_le.mpr h6)]
  have hr : (((20 : ℕ) : ℝ) - 1) / 6 = 19 / 6 := by norm_num
  simp only [hr]
  set i := ⌊q * (19 / 6)⌋ with hi
  have hi0 : 0 ≤ i := Int.floor_nonneg.mpr (by positivity)
  have hi1 : i < 19 := by
    rw [hi, Int.floor_lt]
    push_cast
    linarith
  have hfl : (i : ℝ) ≤ q * (19 / 6) := Int.floor_le _
  have hfu : q * (19 / 6) < i + 1 := Int.lt_floor_add_one _
  rw [if_neg (by simpa using hi0)]
  have t1 : tableAt 20 6 i = some (exp (-(i : ℝ) * (6 / 19))) := by
    unfold tableAt
    rw [if_pos ⟨hi0, by push_cast; omega⟩, hr]
    norm_num
  have t2 : tableAt 20 6 (i + 1) = some (exp (-((i : ℝ) + 1) * (6 / 19))) := by
    unfold tableAt
    rw [if_pos ⟨by omega, by push_cast; omega⟩, hr]
    norm_num
  simp only [t1, t2]
  refine ⟨_, rfl, ?_⟩
  set t := q * (19 / 6) - i with ht
  have ht0 : 0 ≤ t := by linarith
  have ht1 : t ≤ 1 := by linarith
  have hp : (0 : ℝ) ≤ (i : ℝ) := by exact_mod_cast hi0
  set p : ℝ := (i : ℝ) * (6 / 19) with hpd
  have hp0 : 0 ≤ p := by positivity
  have hq : q = (1 - t) * p + t * (p + 6 / 19) := by
    rw [ht, hpd]; ring
  have e1 : -(i : ℝ) * (6 / 19) = -p := by rw [hpd]; ring
  have e2 : -((i : ℝ) + 1) * (6 / 19) = -(p + 6 / 19) := by rw [hpd]; ring
  rw [e1, e2]
  constructor
  · have hc := convexOn_exp.2 (Set.mem_univ (-p)) (Set.mem_univ (-(p + 6 / 19)))
      (show 0 ≤ 1 - t by linarith) ht0 (by ring)
    simp only [smul_eq_mul] at hc
    have : -q = (1 - t) * -p + t * -(p + 6 / 19) := by rw [hq]; ring
    rw [this]
    exact hc
  · have hcc : ConcaveOn ℝ (Set.Ici (0 : ℝ)) (fun x : ℝ => exp (-x) - x ^ 2 / 2) := by
      apply AntitoneOn.concaveOn_of_deriv (convex_Ici 0)
      · fun_prop
      · fun_prop
      · intro x hx y hy hxy
        rw [interior_Ici] at hx hy
        have hd : ∀ z : ℝ, deriv (fun x : ℝ => exp (-x) - x ^ 2 / 2) z = -exp (-z) - z := by
          intro z
          have h1 : HasDerivAt (fun x : ℝ => exp (-x)) (exp (-z) * (-1)) z :=
            (hasDerivAt_neg z).exp
          have h2 : HasDerivAt (fun x : ℝ => x ^ 2 / 2) ((2 : ℕ) * z ^ (2 - 1) / 2) z :=
            (hasDerivAt_pow 2 z).div_const 2
          have := (h1.sub h2).deriv
          rw [show (fun x : ℝ => exp (-x) - x ^ 2 / 2) =
            ((fun x : ℝ => exp (-x)) - fun x : ℝ => x ^ 2 / 2) from rfl, this]
          norm_num
        rw [hd, hd]
        have h3 : exp (-x) ≤ exp (-y) + (y - x) := by
          have h4 : exp (-x) - exp (-y) = exp (-x) * (1 - exp (-(y - x))) := by
            rw [mul_sub, ← exp_add]; ring_nf
          have h5 : -(y - x) + 1 ≤ exp (-(y - x)) := add_one_le_exp _
          have h6 : exp (-x) ≤ 1 := exp_le_one_iff.mpr (by
            have : 0 < x := hx
            linarith)
          have h7 : 0 < exp (-x) := exp_pos _
          have h8 : 0 ≤ 1 - exp (-(y - x)) := by
            have : exp (-(y - x)) ≤ 1 := exp_le_one_iff.mpr (by linarith)
            linarith
          nlinarith
        linarith
    have hc := hcc.2 (show p ∈ Set.Ici (0 : ℝ) from hp0)
      (show p + 6 / 19 ∈ Set.Ici (0 : ℝ) by simp only [Set.mem_Ici]; positivity)
      (show 0 ≤ 1 - t by linarith) ht0 (by ring)
    simp only [smul_eq_mul] at hc
    rw [← hq] at hc
    have hb : t * (1 - t) ≤ 1 / 4 := by nlinarith [sq_nonneg (t - 1 / 2)]
    have hqs : (1 - t) * p ^ 2 + t * (p + 6 / 19) ^ 2 - q ^ 2 = t * (1 - t) * (6 / 19) ^ 2 := by
      rw [hq]; ring
    nlinarith

example : ∃ v, negExp 1 = .ok v ∧ v ≤ exp (-1) + 1 / 80 :=
  let ⟨v, h, _, h2⟩ := C86_table 1 (by norm_num) (by norm_num)
  ⟨v, h, h2⟩

/-- A filter as the factories make them, at any level. -/
structure Ell (f : Filter) : Prop where
  symm : f.quad.b = f.quad.c
  pos : 0 < f.quad.a
  det : 0 < f.quad.det
  edge : 0 < f.logEdge

theorem Ell.posd {f : Filter} (h : Ell f) : 0 < f.quad.d := by
  have h1 := h.det
  unfold M2.det at h1
  rw [h.symm] at h1
  have : 0 < f.quad.a * f.quad.d := by nlinarith [mul_self_nonneg f.quad.c]
  exact (pos_iff_pos_of_mul_pos this).mp h.pos

theorem Ell.form_bounds {f : Filter} (h : Ell f) (x y : ℝ) :
    f.quad.det * (x - f.center.x) ^ 2 ≤ f.quad.d * f.form x y ∧
    f.quad.det * (y - f.center.y) ^ 2 ≤ f.quad.a * f.form x y ∧ 0 ≤ f.form x y := by
  have hd := h.posd
  have e1 : f.quad.d * f.form x y = f.quad.det * (x - f.center.x) ^ 2 +
      (f.quad.d * (y - f.center.y) + f.quad.c * (x - f.center.x)) ^ 2 := by
    unfold Filter.form M2.det
    simp only
    rw [h.symm]; ring
  have e2 : f.quad.a * f.form x y = f.quad.det * (y - f.center.y) ^ 2 +
      (f.quad.a * (x - f.center.x) + f.quad.c * (y - f.center.y)) ^ 2 := by
    unfold Filter.form M2.det
    simp only
    rw [h.symm]; ring
  refine ⟨by rw [e1]; nlinarith [sq_nonneg (f.quad.d * (y - f.center.y) + f.quad.c * (x - f.center.x))],
    by rw [e2]; nlinarith [sq_nonneg (f.quad.a * (x - f.center.x) + f.quad.c * (y - f.center.y))], ?_⟩
  have : 0 ≤ f.quad.d * f.form x y := by
    rw [e1]
    have := mul_nonneg h.det.le (sq_nonneg (x - f.center.x))
    positivity
  exact nonneg_of_mul_nonneg_right this hd

/-- C86: weights are numbers: no assertion fails and nothing outside of the table is read.  Inside
of the ellipse and up to 6 they are those of a Gaussian to within an eightieth, elsewhere they are
0. -/
theorem C86_weight (f : Filter) (h : Ell f) (x y : ℝ) :
    ∃ v, f.weight x y = .ok v ∧
      (f.form x y < f.logEdge ∧ f.form x y < 6 →
        exp (-f.form x y) ≤ v ∧ v ≤ exp (-f.form x y) + 1 / 80) ∧
      (¬ (f.form x y < f.logEdge ∧ f.form x y < 6) → v = 0) := by
  have h0 := (h.form_bounds x y).2.2
  unfold Filter.weight
  by_cases h1 : f.form x y < f.logEdge
  · rw [if_pos h1]
    by_cases h2 : f.form x y < 6
    · obtain ⟨v, hv, ha, hb⟩ := C86_table (f.form x y) h0 h2
      exact ⟨v, hv, fun _ => ⟨ha, hb⟩, fun hn => absurd ⟨h1, h2⟩ hn⟩
    · refine ⟨0, ?_, fun hn => absurd hn.2 h2, fun _ => rfl⟩
      unfold negExp tableLookup
      rw [if_pos (not_lt.mp h2)]
  · rw [if_neg h1]
    exact ⟨0, rfl, fun hn => absurd hn.1 h1, fun _ => rfl⟩

/-- C86: all pixels with a weight are in the support. -/
theorem C86_support (f : Filter) (h : Ell f) (x y : ℤ) (hw : f.weight x y ≠ .ok 0) :
    f.support.x0 ≤ x ∧ x < f.support.x1 ∧ f.support.y0 ≤ y ∧ y < f.support.y1 := by
  have hlt : f.form x y < f.logEdge := by
    by_contra hc
    apply hw
    unfold Filter.weight
    rw [if_neg hc]
  obtain ⟨hx, hy, _⟩ := h.form_bounds x y
  have hdet := h.det
  have hd := h.posd
  have ha := h.pos
  have bx : |(x : ℝ) - f.center.x| ≤ f.radii.1 := by
    unfold Filter.radii
    apply Real.abs_le_sqrt
    rw [le_div_iff₀ hdet]
    nlinarith
  have bye : |(y : ℝ) - f.center.y| ≤ f.radii.2 := by
    unfold Filter.radii
    apply Real.abs_le_sqrt
    rw [le_div_iff₀ hdet]
    nlinarith
  obtain ⟨a1, a2⟩ := abs_le.mp bx
  obtain ⟨b1, b2⟩ := abs_le.mp bye
  unfold Filter.support
  refine ⟨Int.ceil_le.mpr (by linarith), ?_, Int.ceil_le.mpr (by linarith), ?_⟩
  · have : x ≤ ⌊f.center.x + f.radii.1⌋ := Int.le_floor.mpr (by linarith)
    simp only; omega
  · have : y ≤ ⌊f.center.y + f.radii.2⌋ := Int.le_floor.mpr (by linarith)
    simp only; omega

/-- C86: the support is not too large: the ellipse touches all four sides of the rectangle the pixels
are taken from. -/
theorem C86_support_tight (f : Filter) (h : Ell f) :
    (∃ y, f.form (f.center.x + f.radii.1) y = f.logEdge) ∧
    (∃ y, f.form (f.center.x - f.radii.1) y = f.logEdge) ∧
    (∃ x, f.form x (f.center.y + f.radii.2) = f.logEdge) ∧
    (∃ x, f.form x (f.center.y - f.radii.2) = f.logEdge) := by
  have hdet := h.det
  have hd := h.posd
  have ha := h.pos
  have hE := h.edge
  have r1 : f.radii.1 ^ 2 = f.quad.d * f.logEdge / f.quad.det := Real.sq_sqrt (by positivity)
  have r2 : f.radii.2 ^ 2 = f.quad.a * f.logEdge / f.quad.det := Real.sq_sqrt (by positivity)
  have gx : ∀ r : ℝ, r ^ 2 = f.quad.d * f.logEdge / f.quad.det →
      f.form (f.center.x + r) (f.center.y - f.quad.c * r / f.quad.d) = f.logEdge := by
    intro r hr
    have e : f.form (f.center.x + r) (f.center.y - f.quad.c * r / f.quad.d) =
        f.quad.det / f.quad.d * r ^ 2 := by
      unfold Filter.form M2.det
      simp only
      rw [h.symm]
      field_simp
      ring
    rw [e, hr]
    field_simp
  have gy : ∀ r : ℝ, r ^ 2 = f.quad.a * f.logEdge / f.quad.det →
      f.form (f.center.x - f.quad.c * r / f.quad.a) (f.center.y + r) = f.logEdge := by
    intro r hr
    have e : f.form (f.center.x - f.quad.c * r / f.quad.a) (f.center.y + r) =
        f.quad.det / f.quad.a * r ^ 2 := by
      unfold Filter.form M2.det
      simp only
      rw [h.symm]
      field_simp
      ring
    rw [e, hr]
    field_simp
  refine ⟨⟨_, gx _ r1⟩, ⟨f.center.y - f.quad.c * (-f.radii.1) / f.quad.d, ?_⟩, ⟨_, gy _ r2⟩,
    ⟨f.center.x - f.quad.c * (-f.radii.2) / f.quad.a, ?_⟩⟩
  · exact gx (-f.radii.1) (by rw [neg_sq, r1])
  · exact gy (-f.radii.2) (by rw [neg_sq, r2])

/-- C86: the filter for a level of the mipmap has at the pixel `(xs (x + xo), ys (y + yo))` of the
level the weight the filter for the base texture has at `(x, y)`, and is one the theorems above are
about. -/
theorem C86_level (f : Factory) (xs xo ys yo : ℝ) (hx : xs ≠ 0) (hy : ys ≠ 0) (x y : ℝ) :
    (f.createFilter xs xo ys yo).weight (xs * (x + xo)) (ys * (y + yo)) =
      (f.createFilter 1 0 1 0).weight x y ∧
    (Ell (f.createFilter 1 0 1 0) → Ell (f.createFilter xs xo ys yo)) := by
  have hb : f.createFilter 1 0 1 0 = ⟨f.quad, f.center, f.logEdge⟩ := by
    unfold Factory.createFilter
    rw [if_pos ⟨rfl, rfl, rfl, rfl⟩]
  rw [hb]
  unfold Factory.createFilter
  by_cases h1 : xs = 1 ∧ ys = 1 ∧ xo = 0 ∧ yo = 0
  · obtain ⟨rfl, rfl, rfl, rfl⟩ := h1
    rw [if_pos ⟨rfl, rfl, rfl, rfl⟩]
    exact ⟨by simp, fun h => h⟩
  · rw [if_neg h1]
    constructor
    · have e : Filter.form ⟨⟨1 / xs * (1 / xs) * f.quad.a, 1 / xs * (1 / ys) * f.quad.b,
          1 / xs * (1 / ys) * f.quad.c, 1 / ys * (1 / ys) * f.quad.d⟩,
          ⟨xs * (f.center.x + xo), ys * (f.center.y + yo)⟩, f.logEdge⟩
          (xs * (x + xo)) (ys * (y + yo)) = Filter.form ⟨f.quad, f.center, f.logEdge⟩ x y := by
        unfold Filter.form
        simp only
        field_simp
        ring
      unfold Filter.weight
      simp only
      rw [e]
    · intro h
      have ha := h.pos
      have hd := h.det
      have hs := h.symm
      refine ⟨?_, ?_, ?_, h.edge⟩
      · simp only at hs ⊢
        rw [hs]
      · simp only at ha ⊢
        have : 0 < 1 / xs * (1 / xs) := by
          rw [← sq]; positivity
        positivity
      · simp only [M2.det] at hd ⊢
        have e : 1 / xs * (1 / xs) * f.quad.a * (1 / ys * (1 / ys) * f.quad.d) -
            1 / xs * (1 / ys) * f.quad.b * (1 / xs * (1 / ys) * f.quad.c) =
            (1 / xs) ^ 2 * (1 / ys) ^ 2 * (f.quad.a * f.quad.d - f.quad.b * f.quad.c) := by ring
        rw [e]
        positivity

/-- C86: the theorems on weights and supports are about the filters of all pixels. -/
theorem C86_all (p : Pllgram) (resS resT : ℝ) (blur : M2) (hb : IsCov blur) (E k : ℝ) (hE : 0 < E)
    (hk : 1 ≤ k) :
    Ell ((makeFactory p resS resT blur E k).createFilter 1 0 1 0) ∧
    ((makeFactory p resS resT blur E k).createFilter 1 0 1 0).center =
      ⟨p.c.x * resS - 1 / 2, p.c.y * resT - 1 / 2⟩ := by
  obtain ⟨_, _, _, _, _, _, _, h1, h2, h3⟩ := C86_filter p resS resT blur hb E k hk
  unfold Factory.createFilter
  rw [if_pos ⟨rfl, rfl, rfl, rfl⟩]
  refine ⟨⟨h1, h2, h3, hE⟩, ?_⟩
  simp only [makeFactory]
  norm_num

example : Ell ⟨M2.diag 1 1, ⟨0, 0⟩, 4⟩ :=
  ⟨rfl, by norm_num [M2.diag], by norm_num [M2.diag, M2.det], by norm_num⟩

end Verif.Tex.Ewa
