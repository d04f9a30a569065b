import Verif.Tex.Shadow
import Verif.Tex.EnvProps
import Verif.Math.MatrixProps

/-!
Lemmas about views of shadow maps
-/

namespace Verif.Tex.Shadow

open Verif.Math.Matrix4 Verif.Tex.Ewa Verif.Tex.Env

namespace Spec

/-- The cosine of the angle between the axis of a light and the way to a point. -/
noncomputable def cosine (axis light P : V3) : ℝ :=
  Math.Matrix4.dot axis (fun j => P j - light j) / (Real.sqrt (Math.Matrix4.dot axis axis) * Real.sqrt (Math.Matrix4.dot (fun j => P j - light j) (fun j => P j - light j)))

/-- Depth as a function of the two coordinates of textures. -/
def plane (α β γ s t : ℝ) : ℝ := α + β * s + γ * t

/-- The corners of a quadrilateral have these depths. -/
def OnPlane (α β γ : ℝ) (light raster : Quad3) : Prop :=
  light.v1 2 = plane α β γ (raster.v1 0) (raster.v1 1) ∧ light.v2 2 = plane α β γ (raster.v2 0) (raster.v2 1) ∧
  light.v3 2 = plane α β γ (raster.v3 0) (raster.v3 1) ∧ light.v4 2 = plane α β γ (raster.v4 0) (raster.v4 1)

/-- The diagonals are not parallel in the texture. -/
def Open (q : Quad3) : Prop :=
  (q.v4 0 - q.v1 0) * (q.v3 1 - q.v2 1) - (q.v4 1 - q.v1 1) * (q.v3 0 - q.v2 0) ≠ 0

end Spec

open Spec

theorem unit_mul (d : V3) (j : Fin 3) : unit d j * Real.sqrt (Math.Matrix4.dot d d) = d j := by
  unfold unit
  by_cases h : Real.sqrt (Math.Matrix4.dot d d) ≠ 0
  · rw [if_pos h]
    field_simp
  · rw [if_neg h]
    push Not at h
    rw [h, mul_zero]
    have hs : 0 ≤ Math.Matrix4.dot d d := by unfold Math.Matrix4.dot; nlinarith [mul_self_nonneg (d 0), mul_self_nonneg (d 1), mul_self_nonneg (d 2)]
    have hz := (Real.sqrt_eq_zero hs).mp h
    unfold Math.Matrix4.dot at hz
    have z : ∀ a b c : ℝ, a * a + b * b + c * c = 0 → a = 0 ∧ b = 0 ∧ c = 0 := by
      intro a b c e
      refine ⟨?_, ?_, ?_⟩ <;> nlinarith [mul_self_nonneg a, mul_self_nonneg b, mul_self_nonneg c]
    obtain ⟨z0, z1, z2⟩ := z _ _ _ hz
    fin_cases j
    · exact z0.symm
    · exact z1.symm
    · exact z2.symm

theorem direction (a : Mat ℝ) (ha : Sound a) (h : Affine a) :
    apply3 (transpose (withoutTranslation a)) ![0, 0, 1] = some fun j => a.m j.castSucc 2 := by
  have hw : Sound (withoutTranslation a) := by
    intro hi
    have e := ha hi
    ext i j
    show (if i = 3 ∧ (j = 0 ∨ j = 1 ∨ j = 2) then 0 else a.m i j) = _
    rw [e, Matrix.one_apply]
    fin_cases i <;> fin_cases j <;> simp
  have ht := C60_product (withoutTranslation a) (withoutTranslation a) hw hw
  have hm : ∀ i j, (transpose (withoutTranslation a)).m i j = if j = 3 ∧ (i = 0 ∨ i = 1 ∨ i = 2) then 0 else a.m j i := by
    intro i j
    rw [ht.2.2.2.2.1]
    rfl
  rw [apply3_lin _ ht.2.2.2.2.2.1 (by
    unfold Affine
    simp only [hm]
    simp [h.2.2.2])]
  congr 1
  funext j
  unfold lin
  simp only [hm]
  fin_cases j <;> simp [h.1, h.2.1, h.2.2.1]

theorem position (a inv : Mat ℝ) (ha : Sound a) (h : Affine a) (hi : inverse a = some inv) :
    ∃ p, apply3 inv ![0, 0, 0] = some p ∧ ∀ j, lin a.m p j + a.m 3 j.castSucc = 0 := by
  obtain ⟨hs, h1, h2⟩ := (C60_inverse a ha).2 inv hi
  obtain ⟨q0, q1, _⟩ := C60_points inv a hs ha ![0, 0, 0]
  have hne : apply3 inv ![0, 0, 0] ≠ none := by
    rw [Ne, q0]
    intro hz
    -- the fourth column of the inverse is that of the identity
    have hcol : ∀ i, (inv.m * a.m) i 3 = inv.m i 3 := by
      intro i
      rw [Matrix.mul_apply, Fin.sum_univ_four, h.1, h.2.1, h.2.2.1, h.2.2.2]
      ring
    have h33 : inv.m 3 3 = 1 := by rw [← hcol, h1]; simp
    have : Matrix.vecMul (hom ![0, 0, 0]) inv.m 3 = inv.m 3 3 := by
      simp only [Matrix.vecMul, dotProduct, Fin.sum_univ_four, hom]
      simp
    rw [this, h33] at hz
    exact one_ne_zero hz
  obtain ⟨p, hp⟩ := Option.ne_none_iff_exists'.mp hne
  refine ⟨p, hp, ?_⟩
  obtain ⟨k, hk, e⟩ := q1 p hp
  have e2 : hom ![0, 0, 0] = k • Matrix.vecMul (hom p) a.m := by
    rw [← Matrix.smul_vecMul, ← e, Matrix.vecMul_vecMul, h1, Matrix.vecMul_one]
  have ej : ∀ j : Fin 4, Matrix.vecMul (hom p) a.m j = p 0 * a.m 0 j + p 1 * a.m 1 j + p 2 * a.m 2 j + a.m 3 j := by
    intro j
    simp only [Matrix.vecMul, dotProduct, Fin.sum_univ_four, hom]
    simp
  have e3 : ∀ i, hom (![0, 0, 0] : V3) i = k * Matrix.vecMul (hom p) a.m i := by
    intro i
    rw [e2]
    rfl
  intro j
  have hj := e3 j.castSucc
  have hz : hom (![0, 0, 0] : V3) j.castSucc = 0 := by fin_cases j <;> rfl
  rw [hz, ej] at hj
  rcases mul_eq_zero.mp hj.symm with c | c
  · exact absurd c hk
  · exact c

theorem best_spec (P : V3) : ∀ (vs : List View) (k sel : Nat) (m : ℝ),
    ((∀ v ∈ vs, v.weight P ≤ m) ∧ best P vs k sel m = sel) ∨
    (∃ i u, vs[i]? = some u ∧ best P vs k sel m = k + i ∧ m < u.weight P ∧ ∀ j v, vs[j]? = some v →
      v.weight P ≤ u.weight P ∧ (j < i → v.weight P < u.weight P)) := by
  intro vs
  induction vs with
  | nil =>
    intro k sel m
    exact Or.inl ⟨by simp, rfl⟩
  | cons v vs ih =>
    intro k sel m
    by_cases h : v.weight P > m
    · have e : best P (v :: vs) k sel m = best P vs (k + 1) k (v.weight P) := by rw [best, if_pos h]
      rw [e]
      rcases ih (k + 1) k (v.weight P) with ⟨h1, h2⟩ | ⟨i, u, h1, h2, h3, h4⟩
      · refine Or.inr ⟨0, v, rfl, by rw [h2, Nat.add_zero], h, ?_⟩
        intro j x hx
        refine ⟨?_, fun q => absurd q (by omega)⟩
        cases j with
        | zero => simp at hx; rw [hx]
        | succ j => exact h1 x (List.mem_of_getElem? (by simpa using hx))
      · refine Or.inr ⟨i + 1, u, by simpa using h1, by rw [h2]; omega, lt_trans h h3, ?_⟩
        intro j x hx
        cases j with
        | zero =>
          simp at hx
          rw [← hx]
          exact ⟨h3.le, fun _ => h3⟩
        | succ j =>
          obtain ⟨q1, q2⟩ := h4 j x (by simpa using hx)
          exact ⟨q1, fun q => q2 (by omega)⟩
    · have e : best P (v :: vs) k sel m = best P vs (k + 1) sel m := by rw [best, if_neg h]
      rw [e]
      push Not at h
      rcases ih (k + 1) sel m with ⟨h1, h2⟩ | ⟨i, u, h1, h2, h3, h4⟩
      · refine Or.inl ⟨?_, h2⟩
        intro x hx
        rcases List.mem_cons.mp hx with rfl | hx
        · exact h
        · exact h1 x hx
      · refine Or.inr ⟨i + 1, u, by simpa using h1, by rw [h2]; omega, h3, ?_⟩
        intro j x hx
        cases j with
        | zero =>
          simp at hx
          rw [← hx]
          exact ⟨(lt_of_le_of_lt h h3).le, fun _ => lt_of_le_of_lt h h3⟩
        | succ j =>
          obtain ⟨q1, q2⟩ := h4 j x (by simpa using hx)
          exact ⟨q1, fun q => q2 (by omega)⟩

theorem approx_at (q : Quad3) (w h α β γ : ℝ) (hw : w ≠ 0) (hh : h ≠ 0) (ho : Open q)
    (h1 : q.v1 2 = plane α β γ (q.v1 0) (q.v1 1)) (h2 : q.v2 2 = plane α β γ (q.v2 0) (q.v2 1))
    (h3 : q.v3 2 = plane α β γ (q.v3 0) (q.v3 1)) (h4 : q.v4 2 = plane α β γ (q.v4 0) (q.v4 1)) (x y : ℝ) :
    (approx q w h).at' x y = plane α β γ ((x + 1 / 2) / w) ((y + 1 / 2) / h) := by
  unfold plane at *
  have hn2 : cross (fun j => q.v4 j - q.v1 j) (fun j => q.v3 j - q.v2 j) 2 =
      (q.v4 0 - q.v1 0) * (q.v3 1 - q.v2 1) - (q.v4 1 - q.v1 1) * (q.v3 0 - q.v2 0) := by
    unfold cross
    simp
  have hn0 : cross (fun j => q.v4 j - q.v1 j) (fun j => q.v3 j - q.v2 j) 0 =
      -β * ((q.v4 0 - q.v1 0) * (q.v3 1 - q.v2 1) - (q.v4 1 - q.v1 1) * (q.v3 0 - q.v2 0)) := by
    unfold cross
    simp [h1, h2, h3, h4]
    ring
  have hn1 : cross (fun j => q.v4 j - q.v1 j) (fun j => q.v3 j - q.v2 j) 1 =
      -γ * ((q.v4 0 - q.v1 0) * (q.v3 1 - q.v2 1) - (q.v4 1 - q.v1 1) * (q.v3 0 - q.v2 0)) := by
    unfold cross
    simp [h1, h2, h3, h4]
    ring
  unfold Open at ho
  unfold approx Approx.at'
  simp only [Math.Matrix4.dot, hn0, hn1, hn2]
  generalize (q.v4 0 - q.v1 0) * (q.v3 1 - q.v2 1) - (q.v4 1 - q.v1 1) * (q.v3 0 - q.v2 0) = n at *
  rw [if_pos ho]
  unfold Quad3.center
  simp [h1, h2, h3, h4]
  field_simp
  ring

/-- What the linear approximation gives with any widths. -/
theorem depth_widths (a b : Mat ℝ) (sw tw w h : ℝ) (q light raster : Quad3) (hl : q.transform a = some light)
    (hr : q.transform b = some raster) (ho : Open raster) (α β γ : ℝ) (hp : OnPlane α β γ light raster) (hw : w ≠ 0) (hh : h ≠ 0)
    (hs : sw ≠ 0) (ht : tw ≠ 0) (x y : ℝ) :
    depthAt false a b sw tw w h q x y = some (plane α β γ
      (raster.center 0 + ((x + 1 / 2) / w - raster.center 0) / sw) (raster.center 1 + ((y + 1 / 2) / h - raster.center 1) / tw)) := by
  unfold depthAt
  rw [hl, hr]
  simp only [Bool.false_eq_true, if_false]
  congr 1
  obtain ⟨p1, p2, p3, p4⟩ := hp
  have hc : raster.flat.center = ⟨raster.center 0, raster.center 1⟩ := by
    unfold Quad3.flat Quad.center Quad3.center mul2 add2
    rfl
  obtain ⟨_, _, hv⟩ := C87_quad_width raster.flat sw tw
  have s1 := hv Quad.v1 (by simp)
  have s2 := hv Quad.v2 (by simp)
  have s3 := hv Quad.v3 (by simp)
  have s4 := hv Quad.v4 (by simp)
  rw [hc] at s1 s2 s3 s4
  simp only [Quad3.flat] at s1 s2 s3 s4
  have hflat : raster.flat = ⟨⟨raster.v1 0, raster.v1 1⟩, ⟨raster.v2 0, raster.v2 1⟩, ⟨raster.v3 0, raster.v3 1⟩,
    ⟨raster.v4 0, raster.v4 1⟩⟩ := rfl
  rw [← hflat] at s1 s2 s3 s4
  generalize raster.flat.scaleWidth sw tw = t at *
  generalize raster.center 0 = cx at *
  generalize raster.center 1 = cy at *
  have key : ∀ (V : V2) (r0 r1 : ℝ), V.x - cx = sw * (r0 - cx) → V.y - cy = tw * (r1 - cy) → plane α β γ r0 r1 =
      plane (α + β * (cx - cx / sw) + γ * (cy - cy / tw)) (β / sw) (γ / tw) V.x V.y := by
    intro V r0 r1 e0 e1
    have f0 : V.x = cx + sw * (r0 - cx) := by linarith
    have f1 : V.y = cy + tw * (r1 - cy) := by linarith
    unfold plane
    rw [f0, f1]
    field_simp
    ring
  rw [approx_at (light.copy2DCoords t) w h (α + β * (cx - cx / sw) + γ * (cy - cy / tw)) (β / sw) (γ / tw) hw hh ?_ ?_ ?_ ?_ ?_]
  · unfold plane
    field_simp
    ring
  · unfold Open at ho ⊢
    unfold Quad3.copy2DCoords
    have e : (t.v4.x - t.v1.x) * (t.v3.y - t.v2.y) - (t.v4.y - t.v1.y) * (t.v3.x - t.v2.x) = sw * tw *
        ((raster.v4 0 - raster.v1 0) * (raster.v3 1 - raster.v2 1) - (raster.v4 1 - raster.v1 1) * (raster.v3 0 - raster.v2 0)) := by
      have a1 : t.v4.x - t.v1.x = sw * (raster.v4 0 - raster.v1 0) := by linarith [s1.1, s4.1]
      have a2 : t.v3.y - t.v2.y = tw * (raster.v3 1 - raster.v2 1) := by linarith [s2.2, s3.2]
      have a3 : t.v4.y - t.v1.y = tw * (raster.v4 1 - raster.v1 1) := by linarith [s1.2, s4.2]
      have a4 : t.v3.x - t.v2.x = sw * (raster.v3 0 - raster.v2 0) := by linarith [s2.1, s3.1]
      rw [a1, a2, a3, a4]
      ring
    show (t.v4.x - t.v1.x) * (t.v3.y - t.v2.y) - (t.v4.y - t.v1.y) * (t.v3.x - t.v2.x) ≠ 0
    rw [e]
    exact mul_ne_zero (mul_ne_zero hs ht) ho
  · show light.v1 2 = plane _ _ _ t.v1.x t.v1.y
    rw [p1]
    exact key _ _ _ s1.1 s1.2
  · show light.v2 2 = plane _ _ _ t.v2.x t.v2.y
    rw [p2]
    exact key _ _ _ s2.1 s2.2
  · show light.v3 2 = plane _ _ _ t.v3.x t.v3.y
    rw [p3]
    exact key _ _ _ s3.1 s3.2
  · show light.v4 2 = plane _ _ _ t.v4.x t.v4.y
    rw [p4]
    exact key _ _ _ s4.1 s4.2

/-- The quadrilateral of the examples: the whole texture, as deep as the first coordinate. -/
def slope : Quad3 := ⟨![0, 1, 0], ![1, 1, 1], ![0, 0, 0], ![1, 0, 1]⟩

theorem slope_transform : slope.transform identity = some slope := by
  unfold Quad3.transform apply3 identity
  rfl

end Verif.Tex.Shadow
