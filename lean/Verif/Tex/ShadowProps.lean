import Verif.Tex.ShadowLemmas

/-!
C95: views of shadow maps
-/

namespace Verif.Tex.Shadow

open Verif.Math.Matrix4 Verif.Tex.Ewa Verif.Tex.Env
open Spec

/-- **C95.** A view can be made just from matrices that have an inverse, and its weight for a point is the depth of the point for the
light, up to a factor that depends on the view only and that is one if the view's matrix keeps lengths. -/
theorem C95_weight (w c : Mat ℝ) (hw : Sound w) (hc : Sound c) (h : Affine (mul w c)) :
    (view w c = none ↔ (mul w c).m.det = 0) ∧
    ∀ v, view w c = some v → ∀ P, ∃ q, apply3 (mul w c) P = some q ∧
      v.weight P * Real.sqrt ((mul w c).m 0 2 ^ 2 + (mul w c).m 1 2 ^ 2 + (mul w c).m 2 2 ^ 2) = q 2 := by
  have hs : Sound (mul w c) := (C60_product w c hw hc).2.1
  generalize hac : mul w c = a at *
  have hv : ∀ inv, inverse a = some inv → ∃ p, (∀ j, lin a.m p j + a.m 3 j.castSucc = 0) ∧
      view w c = some ⟨unit fun j => a.m j.castSucc 2, p⟩ := by
    intro inv hi
    obtain ⟨p, hp, hz⟩ := position a inv hs h hi
    refine ⟨p, hz, ?_⟩
    unfold view
    rw [hac]
    simp only [hi, hp, direction a hs h]
  have hnone : inverse a = none → view w c = none := by
    intro hi
    unfold view
    rw [hac]
    simp only [hi]
  refine ⟨?_, ?_⟩
  · rw [← (C60_inverse a hs).1]
    refine ⟨fun e => ?_, hnone⟩
    by_contra hne
    obtain ⟨inv, hi⟩ := Option.ne_none_iff_exists'.mp hne
    obtain ⟨p, _, e2⟩ := hv inv hi
    rw [e] at e2
    exact absurd e2 (by simp)
  · intro v e P
    have hne : inverse a ≠ none := by
      intro q
      rw [hnone q] at e
      exact absurd e (by simp)
    obtain ⟨inv, hi⟩ := Option.ne_none_iff_exists'.mp hne
    obtain ⟨p, hp, e2⟩ := hv inv hi
    rw [e2] at e
    obtain rfl := Option.some.inj e
    refine ⟨_, apply3_lin a hs h P, ?_⟩
    have hd : a.m 0 2 ^ 2 + a.m 1 2 ^ 2 + a.m 2 2 ^ 2 = Math.Matrix4.dot (fun j : Fin 3 => a.m j.castSucc 2) (fun j : Fin 3 => a.m j.castSucc 2) := by
      show _ = a.m 0 2 * a.m 0 2 + a.m 1 2 * a.m 1 2 + a.m 2 2 * a.m 2 2
      ring
    rw [hd]
    have u := unit_mul (fun j : Fin 3 => a.m j.castSucc 2)
    have u0 := u 0
    have u1 := u 1
    have u2 := u 2
    have hz := hp 2
    unfold View.weight
    generalize Real.sqrt (Math.Matrix4.dot (fun j : Fin 3 => a.m j.castSucc 2) (fun j : Fin 3 => a.m j.castSucc 2)) = L at *
    generalize unit (fun j : Fin 3 => a.m j.castSucc 2) = d at *
    unfold lin at hz ⊢
    unfold Math.Matrix4.dot
    have c0 : (Fin.castSucc (0 : Fin 3)) = 0 := rfl
    have c1 : (Fin.castSucc (1 : Fin 3)) = 1 := rfl
    have c2 : (Fin.castSucc (2 : Fin 3)) = 2 := rfl
    rw [c0] at u0
    rw [c1] at u1
    rw [c2] at u2 hz
    rw [c2]
    simp only
    linear_combination (P 0 - p 0) * u0 + (P 1 - p 1) * u1 + (P 2 - p 2) * u2 - hz

-- Not vacuous: a light two units behind the origin.
example : Affine (mul (translateMat (K := ℝ) ![0, 0, 2]) identity) ∧ Sound (translateMat (K := ℝ) ![0, 0, 2]) := by
  refine ⟨?_, (C60_translate_scale ![0, 0, 2] ![0, 0, 0] 1 1 1).2.1⟩
  unfold Affine mul translateMat identity
  simp

/-- **C95.** The view chosen for a point is one of the views: the first of those with the largest weight if some view's weight is
positive, that is if the point is in front of some light, and the first view otherwise. -/
theorem C95_choice (maps : List View) (hm : maps ≠ []) (P : V3) :
    ∃ u, maps[choose maps P]? = some u ∧
      ((∃ v ∈ maps, 0 < v.weight P) → 0 < u.weight P ∧ ∀ j v, maps[j]? = some v →
        v.weight P ≤ u.weight P ∧ (j < choose maps P → v.weight P < u.weight P)) ∧
      ((∀ v ∈ maps, v.weight P ≤ 0) → choose maps P = 0) := by
  have hlen : 0 < maps.length := List.length_pos_of_ne_nil hm
  unfold choose
  by_cases h : maps.length > 1
  · rw [if_pos h]
    rcases best_spec P maps 0 0 0 with ⟨h1, h2⟩ | ⟨i, u, h1, h2, h3, h4⟩
    · refine ⟨maps[0], by rw [h2]; exact List.getElem?_eq_getElem hlen, ?_, fun _ => h2⟩
      rintro ⟨v, hv, hp⟩
      exact absurd hp (not_lt.mpr (h1 v hv))
    · rw [Nat.zero_add] at h2
      rw [h2]
      refine ⟨u, h1, fun _ => ⟨h3, h4⟩, ?_⟩
      intro hall
      exact absurd h3 (not_lt.mpr (hall u (List.mem_of_getElem? h1)))
  · rw [if_neg h]
    have h1 : maps.length = 1 := by omega
    obtain ⟨u, rfl⟩ := List.length_eq_one_iff.mp h1
    refine ⟨u, rfl, ?_, fun _ => rfl⟩
    rintro ⟨v, hv, hp⟩
    rw [List.mem_singleton.mp hv] at hp
    refine ⟨hp, ?_⟩
    intro j x hx
    cases j with
    | zero => simp at hx; rw [hx]; exact ⟨le_refl _, fun q => absurd q (by omega)⟩
    | succ j => simp at hx

/-- **C95 (partial: one light).** If all views are made from one point, in directions of length one, and the point is in front of
some view, then no view has the point nearer to its axis than the view chosen. Missing: views from different points, see
`C95_periphery_violated`. -/
theorem C95_axis_partial (maps : List View) (P L : V3) (hL : ∀ v ∈ maps, v.lightPos = L) (hd : ∀ v ∈ maps, Math.Matrix4.dot v.viewDirec v.viewDirec = 1)
    (hf : ∃ v ∈ maps, 0 < v.weight P) :
    ∃ u, maps[choose maps P]? = some u ∧ ∀ v ∈ maps, cosine v.viewDirec v.lightPos P ≤ cosine u.viewDirec u.lightPos P := by
  have hm : maps ≠ [] := by
    rintro rfl
    obtain ⟨v, hv, _⟩ := hf
    simp at hv
  obtain ⟨u, e, h1, _⟩ := C95_choice maps hm P
  obtain ⟨_, h3⟩ := h1 hf
  refine ⟨u, e, ?_⟩
  intro v hv
  obtain ⟨j, hj⟩ := List.mem_iff_getElem?.mp hv
  have hle := (h3 j v hj).1
  have hu := List.mem_of_getElem? e
  unfold cosine
  rw [hL v hv, hL u hu, hd v hv, hd u hu]
  unfold View.weight at hle
  rw [hL v hv, hL u hu] at hle
  exact div_le_div_of_nonneg_right hle (mul_nonneg (Real.sqrt_nonneg _) (Real.sqrt_nonneg _))

/-- **C95 is violated**: the comment says that a view is the less likely to be chosen the more the point is in its periphery. Of two
views made from different points, the one is chosen that sees the point at an angle of more than 60 degrees although the other one has
it on its axis: the weight grows with the distance. -/
theorem C95_periphery_violated : ∃ (v0 v1 : View) (P : V3), Math.Matrix4.dot v0.viewDirec v0.viewDirec = 1 ∧ Math.Matrix4.dot v1.viewDirec v1.viewDirec = 1 ∧
    cosine v0.viewDirec v0.lightPos P = 1 ∧ cosine v1.viewDirec v1.lightPos P < 1 / 2 ∧ choose [v0, v1] P = 1 := by
  refine ⟨⟨![0, 0, 1], ![0, 0, 0]⟩, ⟨![0, 0, 1], ![-10, 0, -1]⟩, ![0, 0, 1], by simp [Math.Matrix4.dot], by simp [Math.Matrix4.dot], ?_, ?_, ?_⟩
  · unfold cosine
    simp [Math.Matrix4.dot]
  · unfold cosine
    have h : Real.sqrt (104 : ℝ) > 10 := by
      rw [gt_iff_lt, Real.lt_sqrt (by norm_num)]
      norm_num
    have e1 : Math.Matrix4.dot (![0, 0, 1] : V3) ![0, 0, 1] = 1 := by simp [Math.Matrix4.dot]
    have e2 : Math.Matrix4.dot (![0, 0, 1] : V3) (fun j => (![0, 0, 1] : V3) j - (![-10, 0, -1] : V3) j) = 2 := by simp [Math.Matrix4.dot]; norm_num
    have e3 : Math.Matrix4.dot (fun j => (![0, 0, 1] : V3) j - (![-10, 0, -1] : V3) j) (fun j => (![0, 0, 1] : V3) j - (![-10, 0, -1] : V3) j) = 104 := by
      simp [Math.Matrix4.dot]; norm_num
    simp only
    rw [e1, e2, e3, Real.sqrt_one, one_mul, div_lt_div_iff₀ (by linarith) (by norm_num)]
    linarith
  · have w0 : View.weight ⟨![0, 0, 1], ![0, 0, 0]⟩ ![0, 0, 1] = 1 := by simp [View.weight, Math.Matrix4.dot]
    have w1 : View.weight ⟨![0, 0, 1], ![-10, 0, -1]⟩ ![0, 0, 1] = 2 := by simp [View.weight, Math.Matrix4.dot]; norm_num
    unfold choose
    rw [if_pos (by simp)]
    rw [best, w0, if_pos (by norm_num), best, w1, if_pos (by norm_num), best]

/-- **C95.** The coordinates of the texture: the screen's square from -1 to 1 becomes the square from 0 to 1, with the second axis
turned round. -/
theorem C95_raster (w c : Mat ℝ) (hw : Sound w) (hc : Sound c) (P s : V3) (h : apply3 (mul w c) P = some s) :
    apply3 (currToRaster w c) P = some ![(s 0 + 1) / 2, (1 - s 1) / 2, s 2] := by
  have hs : Sound (mul w c) := (C60_product w c hw hc).2.1
  have hpre : ∀ (a b : Mat ℝ) (p q : V3), Sound a → Sound b → apply3 a p = some q → apply3 (preMul a b) p = apply3 b q := by
    intro a b p q sa sb e
    have e1 := (C60_product a b sa sb)
    have e2 := (C60_product b a sb sa)
    rw [← (C60_points b a sb sa p).2.2 q e, apply3_spec _ e1.2.2.2.1, apply3_spec _ e2.2.1, e1.2.2.1, e2.1]
  have t1 := C60_translate_scale ![1, -1, 0] s (1 / 2 : ℝ) (-1 / 2) 1
  have t2 := C60_translate_scale ![1, -1, 0] (fun j => s j + ![1, -1, 0] j) (1 / 2 : ℝ) (-1 / 2) 1
  unfold currToRaster
  have sp : Sound (preMul (mul w c) (translateMat ![1, -1, 0])) := (C60_product _ _ hs t1.2.1).2.2.2.1
  have e1 : apply3 (preMul (mul w c) (translateMat ![1, -1, 0])) P = some (fun j => s j + ![1, -1, 0] j) := by
    rw [hpre _ _ P s hs t1.2.1 h]
    exact t1.1
  rw [hpre _ _ P _ sp t1.2.2.2 e1, t2.2.2.1]
  congr 1
  funext j
  fin_cases j
  · simp; ring
  · simp; ring
  · simp

-- Not vacuous: the upper right corner.
example : apply3 (mul (identity : Mat ℝ) identity) ![1, 1, 5] = some ![1, 1, 5] := by
  unfold apply3 mul identity
  simp

/-- **C95 (partial: filters of width one).** If the depths of the four corners lie on a plane over the texture then the linear
approximation gives the depth of this plane at the centre of each pixel. Missing: other widths, see `C95_depth_violated`. -/
theorem C95_depth_partial (a b : Mat ℝ) (w h : ℝ) (q light raster : Quad3) (hl : q.transform a = some light)
    (hr : q.transform b = some raster) (ho : Open raster) (α β γ : ℝ) (hp : OnPlane α β γ light raster) (hw : w ≠ 0) (hh : h ≠ 0)
    (x y : ℝ) :
    depthAt false a b 1 1 w h q x y = some (plane α β γ ((x + 1 / 2) / w) ((y + 1 / 2) / h)) := by
  rw [depth_widths a b 1 1 w h q light raster hl hr ho α β γ hp hw hh one_ne_zero one_ne_zero x y]
  congr 2 <;> ring

example : Open slope ∧ OnPlane 0 1 0 slope slope := by
  constructor
  · unfold Open slope; norm_num
  · unfold OnPlane slope plane; simp

/-- **C95 is violated** for a filter of width two: the region is widened, the depths at its corners are not, and the surface seems less
steep than it is. The plane `z = s` gets the depth 3/4 at `s = 1`. -/
theorem C95_depth_violated : ∃ (a b : Mat ℝ) (sw tw w h : ℝ) (q light raster : Quad3) (α β γ : ℝ), q.transform a = some light ∧
    q.transform b = some raster ∧ Open raster ∧ OnPlane α β γ light raster ∧ 0 < sw ∧ 0 < tw ∧ 0 < w ∧ 0 < h ∧
    ∃ x y, depthAt false a b sw tw w h q x y ≠ some (plane α β γ ((x + 1 / 2) / w) ((y + 1 / 2) / h)) := by
  have ho : Open slope := by unfold Open slope; norm_num
  have hp : OnPlane 0 1 0 slope slope := by unfold OnPlane slope plane; simp
  refine ⟨identity, identity, 2, 2, 1, 1, slope, slope, slope, 0, 1, 0, slope_transform, slope_transform, ho, hp, by norm_num,
    by norm_num, by norm_num, by norm_num, 1 / 2, 1 / 2, ?_⟩
  rw [depth_widths identity identity 2 2 1 1 slope slope slope slope_transform slope_transform ho 0 1 0 hp one_ne_zero one_ne_zero
    two_ne_zero two_ne_zero]
  intro e
  have e := Option.some.inj e
  unfold plane Quad3.center slope at e
  simp at e
  norm_num at e

/-- **C95.** The constant approximation is the mean of the depths of the corners at each pixel. -/
theorem C95_constant (a b : Mat ℝ) (sw tw w h : ℝ) (q light raster : Quad3) (hl : q.transform a = some light)
    (hr : q.transform b = some raster) (x y : ℝ) :
    depthAt true a b sw tw w h q x y = some ((light.v1 2 + light.v2 2 + light.v3 2 + light.v4 2) / 4) := by
  unfold depthAt
  rw [hl, hr]
  simp only [if_true, Quad3.center]
  congr 1
  ring

/-- **C95.** A region that is seen edge on, or has only a point in the texture, gets the mean of the depths too. -/
theorem C95_degenerate (a b : Mat ℝ) (w h : ℝ) (q light raster : Quad3) (hl : q.transform a = some light)
    (hr : q.transform b = some raster) (ho : ¬ Open raster) (x y : ℝ) :
    depthAt false a b 1 1 w h q x y = some ((light.v1 2 + light.v2 2 + light.v3 2 + light.v4 2) / 4) := by
  unfold Open at ho
  push Not at ho
  unfold depthAt
  rw [hl, hr]
  simp only [Bool.false_eq_true, if_false]
  congr 1
  have hs : raster.flat.scaleWidth 1 1 = raster.flat := by
    unfold Quad.scaleWidth
    simp
  rw [hs]
  have hn2 : cross (fun j => (light.copy2DCoords raster.flat).v4 j - (light.copy2DCoords raster.flat).v1 j)
      (fun j => (light.copy2DCoords raster.flat).v3 j - (light.copy2DCoords raster.flat).v2 j) 2 = 0 := by
    rw [← ho]
    unfold cross Quad3.copy2DCoords Quad3.flat
    simp
  unfold approx Approx.at'
  simp only [hn2]
  rw [if_neg (by simp)]
  unfold Quad3.center Quad3.copy2DCoords
  simp
  ring

example : ¬ Open ⟨![0, 0, 1], ![0, 0, 2], ![0, 0, 3], ![0, 0, 4]⟩ := by
  unfold Open
  simp

end Verif.Tex.Shadow
