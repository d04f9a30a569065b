import Verif.Geom.QuadricSpec
import Mathlib.Tactic.FieldSimp
import Mathlib.Tactic.LinearCombination
import Mathlib.Tactic.Linarith

/-! Lemmas on quadrics. -/

set_option linter.unusedSectionVars false

noncomputable section

namespace Verif.Geom.Quadric

open Real

/-! ## Tables of sines -/

theorem sinCos_eq (t0 dt : ℝ) : ∀ i : Nat, sinCos t0 dt i = (cos (t0 + i * dt), sin (t0 + i * dt))
  | 0 => by simp [sinCos]
  | i + 1 => by
    have h : t0 + ((i + 1 : ℕ) : ℝ) * dt = (t0 + i * dt) + dt := by push_cast; ring
    rw [sinCos, sinCos_eq t0 dt i, h, cos_add (t0 + i * dt) dt, sin_add (t0 + i * dt) dt]
    refine Prod.ext ?_ ?_ <;> simp only <;> ring

theorem grid_eq (t0 t1 : ℝ) (n i : Nat) :
    grid t0 t1 n i = (cos (mix t0 t1 (i / n)), sin (mix t0 t1 (i / n))) := by
  have h : t0 + i * ((t1 - t0) / n) = mix t0 t1 (i / n) := by unfold mix; ring
  rw [grid, sinCos_eq, h]

theorem mix_rad (a b t : ℝ) : mix (degToRad a) (degToRad b) t = mix a b t * π / 180 := by
  unfold mix degToRad; ring

/-! ## Vectors -/

theorem dot_add_l (a b c : V) : dot (add a b) c = dot a c + dot b c := by simp only [dot, add]; ring
theorem dot_add_r (a b c : V) : dot c (add a b) = dot c a + dot c b := by simp only [dot, add]; ring
theorem dot_sub_l (a b c : V) : dot (sub a b) c = dot a c - dot b c := by simp only [dot, sub]; ring
theorem dot_sub_r (a b c : V) : dot c (sub a b) = dot c a - dot c b := by simp only [dot, sub]; ring
theorem dot_smul_l (k : ℝ) (a c : V) : dot (smul k a) c = k * dot a c := by simp only [dot, smul]; ring
theorem dot_smul_r (k : ℝ) (a c : V) : dot c (smul k a) = k * dot c a := by simp only [dot, smul]; ring
theorem dot_comm (a b : V) : dot a b = dot b a := by simp only [dot]; ring

theorem cross_cross (t w : V) : cross (cross t w) t = sub (smul (dot t t) w) (smul (dot t w) t) := by
  simp only [cross, sub, smul, dot]
  ext <;> simp only <;> ring

/-- Orthonormal. -/
def On (X Y : V) : Prop := dot X X = 1 ∧ dot Y Y = 1 ∧ dot X Y = 0

/-- A point of a circle. -/
def pt (C X Y : V) (r a : ℝ) : V := add (add C (smul (r * cos a) X)) (smul (r * sin a) Y)
/-- Outwards. -/
def out (X Y : V) (a : ℝ) : V := add (smul (cos a) X) (smul (sin a) Y)
/-- Along. -/
def tang (X Y : V) (a : ℝ) : V := add (smul (-sin a) X) (smul (cos a) Y)

theorem on_frame {X Y : V} (h : On X Y) (a : ℝ) : On (out X Y a) (tang X Y a) := by
  obtain ⟨h1, h2, h3⟩ := h
  have h4 : dot Y X = 0 := by rw [dot_comm]; exact h3
  have := cos_sq_add_sin_sq a
  refine ⟨?_, ?_, ?_⟩ <;>
    simp only [out, tang, dot_add_l, dot_add_r, dot_smul_l, dot_smul_r, h1, h2, h3, h4] <;> nlinarith

theorem pt_add (C X Y : V) (r a d : ℝ) :
    pt C X Y r (a + d) = add (add C (smul (r * cos d) (out X Y a))) (smul (r * sin d) (tang X Y a)) := by
  simp only [pt, out, tang, add, smul, cos_add, sin_add]
  ext <;> simp only <;> ring

theorem pt_self (C X Y : V) (r a : ℝ) : pt C X Y r a = add C (smul r (out X Y a)) := by
  simp only [pt, out, add, smul]
  ext <;> simp only <;> ring

theorem tang_add (X Y : V) (a d : ℝ) :
    tang X Y (a + d) = add (smul (-sin d) (out X Y a)) (smul (cos d) (tang X Y a)) := by
  simp only [out, tang, add, smul, cos_add, sin_add]
  ext <;> simp only <;> ring

/-- What decides whether the tangents intersect. -/
def gap (C X Y : V) (r a d : ℝ) : ℝ := (dot C (out X Y a) + r + sin d) * sin d

theorem intersect_eq {C X Y : V} (r a d : ℝ) (old : V) (h : On X Y) :
    intersect (pt C X Y r a) (tang X Y a) (pt C X Y r (a + d)) (tang X Y (a + d)) old =
      if gap C X Y r a d ^ 2 < 1e-7 then old
      else add (pt C X Y r a) (smul (r * ((1 - cos d) / sin d)) (tang X Y a)) := by
  have hf := on_frame h a
  obtain ⟨h1, h2, h3⟩ := hf
  rw [pt_add, pt_self, tang_add]
  unfold gap
  generalize out X Y a = e1 at h1 h2 h3 ⊢
  generalize tang X Y a = e2 at h1 h2 h3 ⊢
  have h4 : dot e2 e1 = 0 := by rw [dot_comm]; exact h3
  unfold intersect
  simp only [cross_cross]
  have hv : ∀ w : V, dot (sub (smul (dot e2 e2) w) (smul (dot e2 w) e2)) e1 = dot w e1 := by
    intro w; simp only [dot_sub_l, dot_smul_l, h2, h4]; ring
  have hvw : dot (sub (smul (dot e2 e2) (sub (add C (smul r e1)) (add (smul (-sin d) e1) (smul (cos d) e2))))
      (smul (dot e2 (sub (add C (smul r e1)) (add (smul (-sin d) e1) (smul (cos d) e2)))) e2))
      (add (smul (-sin d) e1) (smul (cos d) e2)) = -((dot C e1 + r + sin d) * sin d) := by
    have h5 : dot C e2 = dot e2 C := dot_comm _ _
    simp only [dot_sub_l, dot_sub_r, dot_add_l, dot_add_r, dot_smul_l, dot_smul_r, h1, h2, h3, h4, h5]
    ring
  have hpv : dot (sub (add C (smul r e1)) (add (add C (smul (r * cos d) e1)) (smul (r * sin d) e2)))
      (sub (smul (dot e2 e2) (sub (add C (smul r e1)) (add (smul (-sin d) e1) (smul (cos d) e2))))
      (smul (dot e2 (sub (add C (smul r e1)) (add (smul (-sin d) e1) (smul (cos d) e2)))) e2)) =
      r * (1 - cos d) * (dot C e1 + r + sin d) := by
    have h5 : dot C e2 = dot e2 C := dot_comm _ _
    have h6 : dot e1 C = dot C e1 := dot_comm _ _
    simp only [dot_sub_l, dot_sub_r, dot_add_l, dot_add_r, dot_smul_l, dot_smul_r, h1, h2, h3, h4, h5, h6]
    ring
  rw [hvw, hpv]
  have hsq : -((dot C e1 + r + sin d) * sin d) * -((dot C e1 + r + sin d) * sin d) =
      ((dot C e1 + r + sin d) * sin d) ^ 2 := by ring
  rw [hsq]
  by_cases hc : ((dot C e1 + r + sin d) * sin d) ^ 2 < 1e-7
  · rw [if_pos hc, if_pos hc]
  · rw [if_neg hc, if_neg hc]
    have hne : (dot C e1 + r + sin d) * sin d ≠ 0 := by
      intro h0; rw [h0] at hc; norm_num at hc
    have hg := left_ne_zero_of_mul hne
    have hs := right_ne_zero_of_mul hne
    have hk : r * (1 - cos d) * (dot C e1 + r + sin d) / -((dot C e1 + r + sin d) * sin d) =
        -(r * ((1 - cos d) / sin d)) := by field_simp
    rw [hk]
    have hcs : cos d ^ 2 = 1 - sin d ^ 2 := by rw [← cos_sq_add_sin_sq d]; ring
    simp only [add, smul]
    ext <;> simp only <;> field_simp <;> ring_nf <;> rw [hcs] <;> ring

/-! ## Arcs and their control points -/

theorem arc_weights {d τ : ℝ} (hd : 0 < d) (hp : d < π) (h0 : 0 ≤ τ) (h1 : τ ≤ d) :
    ∃ α β γ : ℝ, 0 ≤ α ∧ 0 ≤ β ∧ 0 ≤ γ ∧ α + β + γ = 1 ∧
      cos τ = α + β + γ * cos d ∧ sin τ = β * ((1 - cos d) / sin d) + γ * sin d := by
  obtain ⟨h, rfl⟩ : ∃ h, d = 2 * h := ⟨d / 2, by ring⟩
  obtain ⟨k, rfl⟩ : ∃ k, τ = 2 * k := ⟨τ / 2, by ring⟩
  have hs : 0 < sin h := sin_pos_of_pos_of_lt_pi (by linarith) (by linarith)
  have hc : 0 < cos h := cos_pos_of_mem_Ioo ⟨by linarith, by linarith⟩
  have hk : 0 ≤ sin k := sin_nonneg_of_nonneg_of_le_pi (by linarith) (by linarith)
  have hm : 0 ≤ sin (h - k) := sin_nonneg_of_nonneg_of_le_pi (by linarith) (by linarith)
  have e1 := cos_sq_add_sin_sq h
  have e2 := cos_sq_add_sin_sq k
  refine ⟨sin (h - k) ^ 2 / sin h ^ 2, 2 * cos h * sin (h - k) * sin k / sin h ^ 2, sin k ^ 2 / sin h ^ 2,
    by positivity, by positivity, by positivity, ?_, ?_, ?_⟩
  · rw [sin_sub]; field_simp
    linear_combination (-sin k ^ 2) * e1 + (sin h ^ 2) * e2
  · rw [sin_sub, cos_two_mul, cos_two_mul]; field_simp
    have e3 : cos h ^ 2 = 1 - sin h ^ 2 := by linarith
    have e4 : cos k ^ 2 = 1 - sin k ^ 2 := by linarith
    ring_nf
    simp only [e3, e4]
    ring
  · rw [sin_sub, cos_two_mul, sin_two_mul, sin_two_mul]
    have e3 : 1 - (2 * cos h ^ 2 - 1) = 2 * sin h ^ 2 := by linarith
    rw [e3]; field_simp
    ring

/-- The hull of three points, up to a small part of the plane of the circle. -/
def Hull (e : ℝ) (E F p0 p1 p2 p : V) : Prop :=
  ∃ α β γ u w : ℝ, 0 ≤ α ∧ 0 ≤ β ∧ 0 ≤ γ ∧ α + β + γ = 1 ∧ |u| + |w| ≤ e ∧
    p = add (add (add (smul α p0) (smul β p1)) (smul γ p2)) (add (smul u E) (smul w F))

theorem arc_exact {C X Y : V} {r a d τ e : ℝ} (old : V) (h : On X Y) (he : 0 ≤ e) (hd : 0 < d) (hp : d < π)
    (h0 : 0 ≤ τ) (h1 : τ ≤ d) (hg : 1e-7 ≤ gap C X Y r a d ^ 2) :
    Hull e (out X Y a) (tang X Y a) (pt C X Y r a)
      (intersect (pt C X Y r a) (tang X Y a) (pt C X Y r (a + d)) (tang X Y (a + d)) old)
      (pt C X Y r (a + d)) (pt C X Y r (a + τ)) := by
  obtain ⟨α, β, γ, ha, hb, hc, hs, hcos, hsin⟩ := arc_weights hd hp h0 h1
  refine ⟨α, β, γ, 0, 0, ha, hb, hc, hs, by simpa using he, ?_⟩
  rw [intersect_eq r a d old h, if_neg (not_lt.mpr hg), pt_add, pt_add, pt_self, hcos, hsin]
  simp only [add, smul]
  have hs' : α = 1 - β - γ := by linarith
  subst hs'
  ext <;> simp only <;> ring

theorem small_sin {r d : ℝ} (hr : 0 ≤ r) (hs : 0 ≤ sin d) (hg : ((r + sin d) * sin d) ^ 2 < 1e-7) :
    r * sin d ≤ 32e-5 ∧ sin d ≤ 18e-3 := by
  have h1 : (r + sin d) * sin d < 32e-5 := by
    by_contra hc
    push Not at hc
    have : (32e-5 : ℝ) ^ 2 ≤ ((r + sin d) * sin d) ^ 2 := pow_le_pow_left₀ (by norm_num) hc 2
    norm_num at this hg
    linarith
  have h2 : 0 ≤ r * sin d := mul_nonneg hr hs
  refine ⟨by nlinarith, ?_⟩
  by_contra hc
  push Not at hc
  nlinarith

theorem arc_small {C X Y : V} {r a d τ : ℝ} (p1 : V) (hr : 0 ≤ r) (hd : 0 ≤ d) (hp : d ≤ π / 2)
    (h0 : 0 ≤ τ) (h1 : τ ≤ d) (hC : dot C (out X Y a) = 0) (hg : gap C X Y r a d ^ 2 < 1e-7) :
    Hull 3e-6 (out X Y a) (tang X Y a) (pt C X Y r a) p1 (pt C X Y r (a + d)) (pt C X Y r (a + τ)) := by
  rcases hd.eq_or_lt with hd | hd
  · have hτ : τ = 0 := by linarith
    subst hτ
    refine ⟨1, 0, 0, 0, 0, by norm_num, le_refl _, le_refl _, by norm_num, by norm_num, ?_⟩
    rw [add_zero]
    simp only [add, smul]
    ext <;> simp only <;> ring
  have hpi := pi_pos
  obtain ⟨α, β, γ, ha, hb, hc, hs, hcos, hsin⟩ := arc_weights hd (by linarith) h0 h1
  have hsp : 0 < sin d := sin_pos_of_pos_of_lt_pi hd (by linarith)
  have hcp : 0 ≤ cos d := cos_nonneg_of_mem_Icc ⟨by linarith, by linarith⟩
  have hc1 : cos d ≤ 1 := cos_le_one d
  unfold gap at hg
  rw [hC, zero_add] at hg
  obtain ⟨hrs, hs18⟩ := small_sin hr hsp.le hg
  have hsq := cos_sq_add_sin_sq d
  have h1c : 1 - cos d ≤ sin d ^ 2 := by nlinarith
  have hb1 : β ≤ 1 := by linarith
  refine ⟨α + β / 2, 0, γ + β / 2, r * β * ((1 - cos d) / 2), r * β * ((1 - cos d) / sin d * (1 - cos d) / 2),
    by positivity, le_refl _, by positivity, by linarith, ?_, ?_⟩
  · have hk : (1 - cos d) / sin d ≤ sin d := by rw [div_le_iff₀ hsp]; nlinarith
    have hk0 : 0 ≤ (1 - cos d) / sin d := div_nonneg (by linarith) hsp.le
    have h2 : 0 ≤ 1 - cos d := by linarith
    have hrb : 0 ≤ r * β := mul_nonneg hr hb
    rw [abs_of_nonneg (mul_nonneg hrb (by linarith)),
      abs_of_nonneg (mul_nonneg hrb (div_nonneg (mul_nonneg hk0 h2) (by norm_num)))]
    have h3 : r * β ≤ r := by nlinarith
    have h4 : r * (1 - cos d) ≤ 32e-5 * 18e-3 := by
      have : r * (1 - cos d) ≤ (r * sin d) * sin d := by nlinarith
      have : (r * sin d) * sin d ≤ 32e-5 * 18e-3 :=
        mul_le_mul hrs hs18 hsp.le (by norm_num)
      linarith
    have h5 : (r * β) * (1 - cos d) ≤ 32e-5 * 18e-3 := by nlinarith
    have h6 : (1 - cos d) / sin d ≤ 18e-3 := by linarith
    have h7 : (r * β) * (1 - cos d) * ((1 - cos d) / sin d) ≤ (32e-5 * 18e-3) * 18e-3 :=
      mul_le_mul h5 h6 hk0 (by norm_num)
    norm_num at h5 h7 ⊢
    nlinarith
  · rw [pt_add, pt_add, pt_self, hcos, hsin]
    have hs' : α = 1 - β - γ := by linarith
    subst hs'
    have hcs : cos d ^ 2 = 1 - sin d ^ 2 := by rw [← hsq]; ring
    simp only [add, smul]
    ext <;> simp only <;> field_simp <;> ring_nf <;> (try simp only [hcs]) <;> ring

theorem arc_hull {C X Y : V} {r a d τ : ℝ} (old : V) (h : On X Y) (hr : 0 ≤ r) (hd : 0 ≤ d) (hp : d ≤ π / 2)
    (h0 : 0 ≤ τ) (h1 : τ ≤ d) (hC : dot C (out X Y a) = 0) :
    Hull 3e-6 (out X Y a) (tang X Y a) (pt C X Y r a)
      (intersect (pt C X Y r a) (tang X Y a) (pt C X Y r (a + d)) (tang X Y (a + d)) old)
      (pt C X Y r (a + d)) (pt C X Y r (a + τ)) := by
  by_cases hg : gap C X Y r a d ^ 2 < 1e-7
  · exact arc_small _ hr hd hp h0 h1 hC hg
  · have hne : d ≠ 0 := by
      rintro rfl
      simp [gap] at hg
      norm_num at hg
    have hpi := pi_pos
    exact arc_exact old h (by norm_num) (lt_of_le_of_ne hd (Ne.symm hne)) (by linarith) h0 h1 (not_lt.mp hg)

end Verif.Geom.Quadric
