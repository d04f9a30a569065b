import Verif.Shader.OpticsLemmas

/-!
C102: reflection, refraction and Fresnel's factors
-/

namespace Verif.Shader.Optics

open Verif.Shader.Arith (dot unit)

open Spec

/-- **C102.** A reflected vector has the same length, the same part along the surface and the opposite part across; reflecting again
gives the first vector. -/
theorem C102_reflect (i n : Vec) (hn : Unit1 n) :
    dot (reflect i n) (reflect i n) = dot i i ∧ dot (reflect i n) n = -dot i n ∧ along (reflect i n) n = along i n ∧
    reflect (reflect i n) n = i := by
  unfold Unit1 at hn
  have h2 : dot (reflect i n) n = -dot i n := by
    unfold reflect dot at *
    simp only []
    linear_combination (-2 * (i 0 * n 0 + i 1 * n 1 + i 2 * n 2)) * hn
  refine ⟨?_, h2, ?_, ?_⟩
  · unfold reflect dot at *
    simp only []
    linear_combination (4 * (i 0 * n 0 + i 1 * n 1 + i 2 * n 2) ^ 2) * hn
  · unfold along
    rw [h2]
    funext k
    unfold reflect
    ring
  · have e : reflect (reflect i n) n = fun k => reflect i n k - 2 * dot (reflect i n) n * n k := rfl
    rw [e, h2]
    funext k
    unfold reflect
    ring

example : reflect ![1, 0, -1] ![0, 0, 1] = ![1, 0, 1] := by
  funext k; unfold reflect dot; fin_cases k <;> (simp; try norm_num)

/-- **C102.** A refracted vector is zero just where all is reflected. Elsewhere it has length one, it is on the other side of the
surface, its part along the surface is `eta` times that of the vector (Snell's law), and refracting it with the inverse of `eta`
gives the vector again, if that came from the side of the normal. -/
theorem C102_refract (i n : Vec) (eta : ℝ) (hi : Unit1 i) (hn : Unit1 n) :
    (refract i n eta = 0 ↔ 1 < eta ^ 2 * dot (along i n) (along i n)) ∧
    (eta ^ 2 * dot (along i n) (along i n) ≤ 1 → Unit1 (refract i n eta) ∧ dot (refract i n eta) n ≤ 0 ∧
      along (refract i n eta) n = (fun k => eta * along i n k) ∧
      (0 < eta → dot i n ≤ 0 → refract (refract i n eta) n (1 / eta) = i)) := by
  have ha := along_sq i n hi hn
  refine ⟨refract_zero i n eta hi hn, fun h => ?_⟩
  · rw [ha] at h
    obtain ⟨m1, m2⟩ := refract_main i n eta hi hn h
    have hk : 0 ≤ 1 - eta * eta * (1 - dot i n * dot i n) := by nlinarith
    refine ⟨m1, ?_, ?_, fun he hd => ?_⟩
    · rw [m2]; exact neg_nonpos.mpr (Real.sqrt_nonneg _)
    · unfold along
      rw [m2, refract_pos i n eta hk]
      funext k
      simp only []
      ring
    · have hs := Real.mul_self_sqrt hk
      have hk' : 1 - 1 / eta * (1 / eta) * (1 - dot (refract i n eta) n * dot (refract i n eta) n) = dot i n * dot i n := by
        rw [m2, neg_mul_neg, hs]
        field_simp
        ring
      rw [refract_pos (refract i n eta) n (1 / eta) (by rw [hk']; exact mul_self_nonneg _), hk']
      have : Real.sqrt (dot i n * dot i n) = -dot i n := by rw [Real.sqrt_mul_self_eq_abs, abs_of_nonpos hd]
      rw [this, m2, refract_pos i n eta hk]
      funext k
      simp only []
      field_simp
      ring

example : ∃ i n : Vec, Unit1 i ∧ Unit1 n ∧ (2 : ℝ) ^ 2 * dot (along i n) (along i n) ≤ 1 ∧ dot i n ≤ 0 :=
  ⟨![0, 0, -1], ![0, 0, 1], by simp [Unit1, dot], by simp [Unit1, dot], by simp [along, dot], by simp [dot]⟩

/-- **C102.** For unit vectors of which one comes against the other, the factors of `fresnel` are those of the books: all is
reflected where nothing is refracted, and elsewhere the factors are those of the cosines of both rays. They are between zero and
one and together they are one. -/
theorem C102_fresnel (i n : Vec) (eta : ℝ) (hi : Unit1 i) (hn : Unit1 n) (he : 0 < eta) (hc : dot i n < 0) :
    ∃ kr kt, fresnel i n eta = some (kr, kt) ∧ 0 ≤ kr ∧ kr ≤ 1 ∧ kr + kt = 1 ∧
      (refract i n eta = 0 → kr = 1) ∧
      (refract i n eta ≠ 0 → kr = fresnelBook (-dot i n) (-dot (refract i n eta) n) eta) ∧
      fresnelRT i n eta = some ((kr, kt), reflect i n, refract i n eta) := by
  have ek : 1 - eta ^ 2 * (1 - dot i n * dot i n) = eta ^ 2 * (1 / eta * (1 / eta) - (1 - dot i n * dot i n)) := by field_simp
  have ha := along_sq i n hi hn
  have hz : refract i n eta = 0 ↔ 1 / eta * (1 / eta) - (1 - dot i n * dot i n) < 0 := by
    rw [refract_zero i n eta hi hn, ha]
    have e2 : 0 < eta ^ 2 := by positivity
    constructor
    · intro h
      by_contra hg
      have := mul_nonneg e2.le (not_lt.mp hg)
      rw [← ek] at this; linarith
    · intro h
      have := mul_neg_of_pos_of_neg e2 h
      rw [← ek] at this; linarith
  by_cases h : 1 / eta * (1 / eta) - (1 - dot i n * dot i n) < 0
  · have f := fresnel_total i n eta he (by linarith) h
    exact ⟨1, 0, f, by norm_num, by norm_num, by norm_num, fun _ => rfl, fun g => absurd (hz.mpr h) g, by unfold fresnelRT; rw [f]; rfl⟩
  · have f := fresnel_book i n eta he (by linarith) (not_lt.mp h)
    have hs : -dot (refract i n eta) n = Real.sqrt (1 - eta ^ 2 * (1 - dot i n * dot i n)) := by
      rw [refract_pos i n eta (by rw [← pow_two, ek]; exact mul_nonneg (by positivity) (not_lt.mp h)), dot_lin, hn, ← pow_two]; ring
    have hs0 := Real.sqrt_nonneg (1 - eta ^ 2 * (1 - dot i n * dot i n))
    simp only [] at f
    rw [← hs] at f hs0
    refine ⟨_, _, f, ?_, ?_, by ring, fun g => absurd (hz.mp g) h, fun _ => rfl, by unfold fresnelRT; rw [f]; rfl⟩
    · unfold fresnelBook; positivity
    · unfold fresnelBook
      have c0 : 0 ≤ -dot i n := by linarith
      have := sq_le_one (eta * -dot i n) (-dot (refract i n eta) n) (mul_nonneg he.le c0) hs0
      have := sq_le_one (-dot i n) (eta * -dot (refract i n eta) n) c0 (mul_nonneg he.le hs0)
      linarith

/-- **C102.** Straight onto the surface the factor is that of the indices, and between equal media nothing is reflected. -/
theorem C102_fresnel_straight (i n : Vec) (eta : ℝ) (he : 0 < eta) :
    (dot i n = -1 → ∃ kt, fresnel i n eta = some (((1 - eta) / (1 + eta)) ^ 2, kt)) ∧
    (dot i n < 0 → fresnel i n 1 = some (0, 1) ∧ refract i n 1 = i) := by
  constructor
  · intro h
    have f := fresnel_book i n eta he (by rw [h]; norm_num) (by rw [h]; have : 0 < 1 / eta * (1 / eta) := by positivity
                                                                linarith)
    simp only [] at f
    have e : 1 - eta ^ 2 * (1 - dot i n * dot i n) = 1 := by rw [h]; ring
    rw [e, Real.sqrt_one, h] at f
    have g : fresnelBook (- -1) 1 eta = ((1 - eta) / (1 + eta)) ^ 2 := by
      unfold fresnelBook
      have : ((eta * - -1 - 1) / (eta * - -1 + 1)) ^ 2 = ((1 - eta) / (1 + eta)) ^ 2 := by
        rw [div_pow, div_pow]; congr 1 <;> ring
      rw [this]; ring
    rw [g] at f
    exact ⟨_, f⟩
  · intro h
    have f := fresnel_book i n 1 one_pos (by linarith) (by nlinarith)
    simp only [] at f
    have e : 1 - (1 : ℝ) ^ 2 * (1 - dot i n * dot i n) = dot i n * dot i n := by ring
    have hs : Real.sqrt (dot i n * dot i n) = -dot i n := by rw [Real.sqrt_mul_self_eq_abs, abs_of_neg h]
    rw [e, hs] at f
    have z : fresnelBook (-dot i n) (-dot i n) 1 = 0 := by unfold fresnelBook; simp
    rw [z, sub_zero] at f
    refine ⟨f, ?_⟩
    have e' : 1 - (1 : ℝ) * 1 * (1 - dot i n * dot i n) = dot i n * dot i n := by ring
    rw [refract_pos i n 1 (by rw [e']; exact mul_self_nonneg _), e', hs]
    funext k; ring

/-- **C102 is violated**: "the factors are between zero and one for every pair of unit vectors". If the normal points away from the
eye the factor is above one, and if the vector lies in the surface between equal media it is a division of zero by zero. -/
theorem C102_fresnel_violated :
    (∃ i n : Vec, Unit1 i ∧ Unit1 n ∧ ∃ kr kt, fresnel i n (1 / 2) = some (kr, kt) ∧ 1 < kr) ∧
    (∃ i n : Vec, Unit1 i ∧ Unit1 n ∧ fresnel i n 1 = none) := by
  constructor
  · refine ⟨![0, 0, 1], ![0, 0, 1], by simp [Unit1, dot], by simp [Unit1, dot], 9, -8, ?_, by norm_num⟩
    have hd : dot (fun k => -(![0, 0, 1] : Vec) k) ![0, 0, 1] = -1 := by simp [dot]
    unfold fresnel
    rw [hd]
    have s4 : Real.sqrt 4 = 2 := by rw [show (4 : ℝ) = 2 * 2 by norm_num, Real.sqrt_mul_self (by norm_num)]
    norm_num [s4]
  · refine ⟨![1, 0, 0], ![0, 0, 1], by simp [Unit1, dot], by simp [Unit1, dot], ?_⟩
    have hd : dot (fun k => -(![1, 0, 0] : Vec) k) ![0, 0, 1] = 0 := by simp [dot]
    unfold fresnel
    rw [hd]
    norm_num

/-- **C102.** `depth` is zero at the near and one at the far plane, and grows with the distance between. -/
theorem C102_depth (near far : ℝ) (h : near < far) (p q : Vec) :
    ∃ d e, depth near far p = some d ∧ depth near far q = some e ∧ (p 2 = near → d = 0) ∧ (p 2 = far → d = 1) ∧
      (p 2 < q 2 → d < e) ∧ p 2 = near + d * (far - near) := by
  have hd : far - near ≠ 0 := by linarith
  have hp : 0 < far - near := by linarith
  refine ⟨(p 2 - near) / (far - near), (q 2 - near) / (far - near), by unfold depth; rw [if_neg hd], by unfold depth; rw [if_neg hd],
    fun g => by rw [g, sub_self, zero_div], fun g => by rw [g, div_self hd], fun g => ?_, ?_⟩
  · rw [div_lt_div_iff_of_pos_right hp]; linarith
  · field_simp; ring

/-- **C102.** A highlight is never more than the light, for a unit normal and a positive roughness. It is all of the light where the
normal is half way between the light and the eye, none where the eye or the light is behind, and it does not matter which of the
unit vectors is the light and which the eye. -/
theorem C102_highlight (l n v : Vec) (rough : ℝ) (hl : Unit1 l) (hn : Unit1 n) (hr : 0 < rough) :
    ∃ f, specularbrdf l n v rough = some f ∧ 0 ≤ f ∧ f ≤ 1 ∧
      (∀ c, 0 < c → (fun k => l k + v k) = (fun k => c * n k) → f = 1) ∧
      (dot n (fun k => l k + v k) ≤ 0 → f = 0) ∧
      (Unit1 v → specularbrdf v n l rough = some f) := by
  have ul : ∀ w : Vec, Unit1 w → unit w = w := by
    intro w hw
    unfold unit
    have : dot w w = 1 := hw
    simp only [this, Real.sqrt_one]
    funext k; simp
  have hx : 0 < 1 / (rough / 8) := by positivity
  refine ⟨_, by unfold specularbrdf; simp only []; rw [if_neg hr.ne'], ?_, ?_, ?_, ?_, ?_⟩
  · exact Real.rpow_nonneg (le_max_left _ _) _
  · apply Real.rpow_le_one (le_max_left _ _) _ hx.le
    apply max_le zero_le_one
    by_cases hz : (fun k => unit l k + v k) = (0 : Vec)
    · rw [hz]
      unfold unit dot; simp
    · have hu := (Verif.Shader.Arith.unit_sq _ hz).1
      have := cauchy n (unit fun k => unit l k + v k)
      rw [hu, hn] at this
      nlinarith
  · intro c hc h
    rw [ul l hl, h]
    have : unit (fun k => c * n k) = n := by
      have e : dot (fun k => c * n k) (fun k => c * n k) = c ^ 2 := by
        have : dot (fun k => c * n k) (fun k => c * n k) = c ^ 2 * dot n n := by unfold dot; ring
        rw [this, hn, mul_one]
      unfold unit
      simp only [e, Real.sqrt_sq hc.le]
      rw [if_pos hc.ne']
      funext k; field_simp
    rw [this, hn, max_eq_right zero_le_one, Real.one_rpow]
  · intro h
    rw [ul l hl]
    have : dot n (unit fun k => l k + v k) ≤ 0 := by
      unfold unit
      simp only []
      split_ifs with g
      · have e : ∀ (w : Vec) (s : ℝ), dot n (fun k => w k / s) = dot n w / s := fun w s => by unfold dot; ring
        rw [e (fun k => l k + v k)]
        exact div_nonpos_of_nonpos_of_nonneg h (Real.sqrt_nonneg _)
      · exact h
    rw [max_eq_left this, Real.zero_rpow hx.ne']
  · intro hv
    unfold specularbrdf
    simp only []
    rw [if_neg hr.ne', ul v hv, ul l hl]
    have : (fun k => v k + l k) = fun k => l k + v k := by funext k; ring
    rw [this]

example : ∃ l n : Vec, Unit1 l ∧ Unit1 n ∧ (fun k => l k + l k) = fun k => 2 * n k :=
  ⟨![0, 0, 1], ![0, 0, 1], by simp [Unit1, dot], by simp [Unit1, dot], by funext k; ring⟩

end Verif.Shader.Optics
