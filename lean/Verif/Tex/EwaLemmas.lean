import Verif.Tex.EwaSpec

namespace Verif.Tex.Ewa
open Real Spec

theorem psd2 (p q r x y : ℝ) (hp : 0 ≤ p) (hr : 0 ≤ r) (h : q ^ 2 ≤ p * r) :
    0 ≤ p * x ^ 2 + 2 * q * (x * y) + r * y ^ 2 := by
  rcases hp.eq_or_lt with h0 | h0
  · subst h0
    have hq : q = 0 := by
      have : q ^ 2 ≤ 0 := by simpa using h
      nlinarith [sq_nonneg q]
    subst hq
    nlinarith [mul_nonneg hr (sq_nonneg y)]
  · have h1 : p * (p * x ^ 2 + 2 * q * (x * y) + r * y ^ 2) =
        (p * x + q * y) ^ 2 + (p * r - q ^ 2) * y ^ 2 := by ring
    have h2 : 0 ≤ p * (p * x ^ 2 + 2 * q * (x * y) + r * y ^ 2) := by
      rw [h1]
      have := mul_nonneg (sub_nonneg.mpr h) (sq_nonneg y)
      positivity
    exact nonneg_of_mul_nonneg_right h2 h0

/-- The two eigenvalues. -/
theorem eig (m : M2) (hs : m.b = m.c) :
    m.eigenvalues.2 ≤ m.eigenvalues.1 ∧ m.eigenvalues.1 + m.eigenvalues.2 = m.a + m.d ∧
    (m.eigenvalues.1 - m.a) * (m.eigenvalues.1 - m.d) = m.b ^ 2 ∧
    m.a ≤ m.eigenvalues.1 ∧ m.d ≤ m.eigenvalues.1 := by
  have hnn : 0 ≤ (m.a - m.d) * (m.a - m.d) + 4 * m.c * m.b := by
    rw [hs]
    nlinarith [mul_self_nonneg (m.a - m.d), mul_self_nonneg m.c]
  unfold M2.eigenvalues
  simp only [if_neg (not_lt.mpr hnn)]
  set r := √((m.a - m.d) * (m.a - m.d) + 4 * m.c * m.b) with hr
  have hr0 : 0 ≤ r := Real.sqrt_nonneg _
  have hr2 : r * r = (m.a - m.d) * (m.a - m.d) + 4 * m.c * m.b := Real.mul_self_sqrt hnn
  have habs : |m.a - m.d| ≤ r := by
    rw [hr]
    apply Real.abs_le_sqrt
    rw [hs]
    nlinarith [mul_self_nonneg m.c]
  obtain ⟨h1, h2⟩ := abs_le.mp habs
  refine ⟨by linarith, by ring, ?_, by linarith, by linarith⟩
  have : ((m.a + m.d) * 0.5 + r * 0.5 - m.a) * ((m.a + m.d) * 0.5 + r * 0.5 - m.d) =
      (r * r - (m.a - m.d) * (m.a - m.d)) / 4 := by ring
  rw [this, hr2, hs]
  ring

/-- The eigenvectors. -/
theorem diagonal (m : M2) (hs : m.b = m.c) :
    ∃ u : V2, dot u u = 1 ∧
      m.orthogDiagonalize m.eigenvalues.1 m.eigenvalues.2 = ⟨u.x, -u.y, u.y, u.x⟩ ∧
      m.a = m.eigenvalues.2 + (m.eigenvalues.1 - m.eigenvalues.2) * u.x ^ 2 ∧
      m.b = (m.eigenvalues.1 - m.eigenvalues.2) * (u.x * u.y) ∧
      m.d = m.eigenvalues.2 + (m.eigenvalues.1 - m.eigenvalues.2) * u.y ^ 2 := by
  obtain ⟨h1, h2, h3, h4, h5⟩ := eig m hs
  generalize m.eigenvalues.1 = l1 at *
  generalize m.eigenvalues.2 = l2 at *
  unfold M2.orthogDiagonalize
  by_cases he : l1 = l2
  · rw [if_pos he]
    subst he
    have ha : m.a = l1 := by linarith
    have hd : m.d = l1 := by linarith
    have hb : m.b = 0 := by
      rw [ha, hd] at h3
      have : m.b ^ 2 = 0 := by rw [← h3]; ring
      exact pow_eq_zero_iff (two_ne_zero) |>.mp this
    refine ⟨⟨1, 0⟩, by simp [dot], by simp, by simp [ha], by simp [hb], by simp [hd]⟩
  · rw [if_neg he]
    have hlt : l2 < l1 := lt_of_le_of_ne h1 (Ne.symm he)
    have key : ∀ p q k : ℝ, 0 < k → p ^ 2 + q ^ 2 = k * (l1 - l2) → p ^ 2 = k * (m.a - l2) →
        p * q = k * m.b → q ^ 2 = k * (m.d - l2) →
        ∃ u : V2, dot u u = 1 ∧
          (⟨p * (1 / √(p * p + q * q)), -(q * (1 / √(p * p + q * q))), q * (1 / √(p * p + q * q)),
            p * (1 / √(p * p + q * q))⟩ : M2) = ⟨u.x, -u.y, u.y, u.x⟩ ∧
          m.a = l2 + (l1 - l2) * u.x ^ 2 ∧ m.b = (l1 - l2) * (u.x * u.y) ∧
          m.d = l2 + (l1 - l2) * u.y ^ 2 := by
      intro p q k hk e1 e2 e3 e4
      have hd : 0 < l1 - l2 := sub_pos.mpr hlt
      have hpos : 0 < p * p + q * q := by
        have : p * p + q * q = k * (l1 - l2) := by rw [← e1]; ring
        rw [this]; positivity
      have hs2 : √(p * p + q * q) ^ 2 = p * p + q * q := Real.sq_sqrt hpos.le
      have hs0 : 0 < √(p * p + q * q) := Real.sqrt_pos.mpr hpos
      set s := √(p * p + q * q)
      have hs3 : s ^ 2 = k * (l1 - l2) := by rw [hs2, ← e1]; ring
      refine ⟨⟨p * (1 / s), q * (1 / s)⟩, ?_, rfl, ?_, ?_, ?_⟩
      · simp only [dot]
        field_simp
        rw [hs2]
        ring
      · simp only
        have : (l1 - l2) * (p * (1 / s)) ^ 2 = (l1 - l2) * p ^ 2 / s ^ 2 := by field_simp
        rw [this, hs3, e2]
        field_simp
        ring
      · simp only
        have : (l1 - l2) * (p * (1 / s) * (q * (1 / s))) = (l1 - l2) * (p * q) / s ^ 2 := by field_simp
        rw [this, hs3, e3]
        field_simp
      · simp only
        have : (l1 - l2) * (q * (1 / s)) ^ 2 = (l1 - l2) * q ^ 2 / s ^ 2 := by field_simp
        rw [this, hs3, e4]
        field_simp
        ring
    simp only
    by_cases hv : (l1 - m.d) * (l1 - m.d) + m.c * m.c > m.b * m.b + (l1 - m.a) * (l1 - m.a)
    · simp only [if_pos hv]
      have hk : 0 < l1 - m.d := by
        rcases (sub_nonneg.mpr h5).eq_or_lt with h | h
        · exfalso
          rw [← h] at hv
          rw [hs] at hv
          nlinarith [mul_self_nonneg (l1 - m.a)]
        · exact h
      apply key (l1 - m.d) m.c (l1 - m.d) hk
      · rw [← hs]
        have : l2 = m.a + m.d - l1 := by linarith
        rw [this, ← h3]; ring
      · have : l2 = m.a + m.d - l1 := by linarith
        rw [this]; ring
      · rw [hs]
      · rw [← hs, ← h3]
        have : l2 = m.a + m.d - l1 := by linarith
        rw [this]; ring
    · simp only [if_neg hv]
      have hk : 0 < l1 - m.a := by
        rcases (sub_nonneg.mpr h4).eq_or_lt with h | h
        · exfalso
          apply hv
          rw [← h] at h3
          have hb : m.b = 0 := by
            have : m.b ^ 2 = 0 := by rw [← h3]; ring
            exact pow_eq_zero_iff (two_ne_zero) |>.mp this
          rw [← h, ← hs, hb]
          have : 0 < l1 - m.d := by linarith
          nlinarith
        · exact h
      apply key m.b (l1 - m.a) (l1 - m.a) hk
      · have : l2 = m.a + m.d - l1 := by linarith
        rw [this, ← h3]; ring
      · have : l2 = m.a + m.d - l1 := by linarith
        rw [this, ← h3]; ring
      · ring
      · have : l2 = m.a + m.d - l1 := by linarith
        rw [this]; ring

/-- A symmetric matrix with the eigenvalue `e1` along `u` and `e2` across. -/
def along (u : V2) (e1 e2 : ℝ) : M2 :=
  ⟨e2 + (e1 - e2) * u.x ^ 2, (e1 - e2) * (u.x * u.y), (e1 - e2) * (u.x * u.y),
    e2 + (e1 - e2) * u.y ^ 2⟩

theorem val_along (u : V2) (e1 e2 : ℝ) (w : V2) :
    val (along u e1 e2) w = e2 * dot w w + (e1 - e2) * dot u w ^ 2 := by
  simp only [val, along, dot]
  ring

theorem det_along (u : V2) (hu : dot u u = 1) (e1 e2 : ℝ) : (along u e1 e2).det = e1 * e2 := by
  simp only [dot] at hu
  have hy : u.y ^ 2 = 1 - u.x ^ 2 := by linarith [hu, sq u.x, sq u.y]
  simp only [along, M2.det]
  have : (e2 + (e1 - e2) * u.x ^ 2) * (e2 + (e1 - e2) * u.y ^ 2) -
      (e1 - e2) * (u.x * u.y) * ((e1 - e2) * (u.x * u.y)) =
      e2 * e2 + e2 * (e1 - e2) * (u.x ^ 2 + u.y ^ 2) := by ring
  rw [this, hy]
  ring

theorem cauchy (u w : V2) (hu : dot u u = 1) : dot u w ^ 2 ≤ dot w w := by
  have h : dot u u * dot w w - dot u w ^ 2 = (u.x * w.y - u.y * w.x) ^ 2 := by
    simp only [dot]; ring
  rw [hu] at h
  nlinarith [sq_nonneg (u.x * w.y - u.y * w.x)]

/-- What the limit on the aspect does. -/
theorem clamp_shape (m : M2) (hs : m.b = m.c) (k E : ℝ) (hk : 1 ≤ k)
    (hpos : ∀ w, dot w w = 1 → 0 < val m w) :
    ∃ (u : V2) (e1 l2 e2 : ℝ), dot u u = 1 ∧ 0 < l2 ∧ l2 ≤ e2 ∧ e2 ≤ e1 ∧
      m = along u e1 l2 ∧ clampEccentricity m k E = (along u e1 e2, √(8 * e2 * E)) ∧
      e1 ≤ k ^ 2 * e2 ∧ (e1 ≤ k ^ 2 * l2 → e2 = l2) := by
  obtain ⟨u, hu, hR, ha, hb, hd⟩ := diagonal m hs
  obtain ⟨h1, _⟩ := eig m hs
  unfold clampEccentricity
  simp only
  generalize m.eigenvalues.1 = l1 at *
  generalize m.eigenvalues.2 = l2 at *
  have hm : m = along u l1 l2 := by
    ext
    · exact ha
    · exact hb
    · rw [← hs]; exact hb
    · exact hd
  have hl2 : 0 < l2 := by
    have hw : dot (⟨-u.y, u.x⟩ : V2) ⟨-u.y, u.x⟩ = 1 := by
      rw [← hu]; simp only [dot]; ring
    have := hpos ⟨-u.y, u.x⟩ hw
    rw [hm, val_along, hw] at this
    have h0 : dot u (⟨-u.y, u.x⟩ : V2) = 0 := by simp only [dot]; ring
    rw [h0] at this
    linarith
  have hk2 : (1 : ℝ) ≤ k * k := by nlinarith
  have hkp : (0 : ℝ) < k * k := by linarith
  by_cases hc : k * k * l2 < l1
  · refine ⟨u, l1, l2, l1 / (k * k), hu, hl2, ?_, ?_, hm, ?_, ?_, ?_⟩
    · rw [le_div_iff₀ hkp]; nlinarith
    · rw [div_le_iff₀ hkp]; nlinarith
    · simp only [if_pos hc, hR]
      refine Prod.ext ?_ rfl
      simp only [dot] at hu
      have hx : u.x * u.x = 1 - u.y * u.y := by linarith
      have hy : u.y * u.y = 1 - u.x * u.x := by linarith
      generalize l1 / (k * k) = e2
      ext <;> simp only [M2.mul, M2.diag, M2.tr, along]
      · have : u.y ^ 2 = 1 - u.x ^ 2 := by nlinarith
        linear_combination e2 * this
      · ring
      · ring
      · have : u.x ^ 2 = 1 - u.y ^ 2 := by nlinarith
        linear_combination e2 * this
    · rw [sq]
      field_simp
      exact le_rfl
    · intro h
      rw [sq] at h
      linarith
  · refine ⟨u, l1, l2, l2, hu, hl2, le_rfl, h1, hm, ?_, ?_, fun _ => rfl⟩
    · simp only [if_neg hc, ← hm]
    · rw [sq]; exact not_lt.mp hc

/-- The inverse of such a matrix. -/
theorem inv_along (u : V2) (hu : dot u u = 1) (e1 e2 : ℝ) (h1 : 0 < e1) (h2 : 0 < e2) :
    (along u e1 e2).inv = along u (1 / e1) (1 / e2) := by
  have hdet := det_along u hu e1 e2
  have hne : (along u e1 e2).det ≠ 0 := by rw [hdet]; positivity
  unfold M2.inv
  rw [if_pos hne, hdet]
  simp only [dot] at hu
  have hy : u.y ^ 2 = 1 - u.x ^ 2 := by nlinarith
  ext <;> simp only [along]
  · rw [hy]; field_simp; ring
  · field_simp; ring
  · field_simp; ring
  · rw [hy]; field_simp; ring

end Verif.Tex.Ewa
