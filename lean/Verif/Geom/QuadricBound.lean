import Verif.Geom.QuadricLemmas

/-! Lemmas on the bounds of quadrics. -/

noncomputable section

namespace Verif.Geom.Quadric

open Real

theorem within_le {e e' : ℝ} {b : Box} {p : V} (h : Within e b p) (he : e ≤ e') : Within e' b p := by
  obtain ⟨⟨h1, h2⟩, ⟨h3, h4⟩, h5, h6⟩ := h
  exact ⟨⟨by linarith, by linarith⟩, ⟨by linarith, by linarith⟩, by linarith, by linarith⟩

theorem within_encaps {e : ℝ} {b : Box} {p : V} (q : V) (h : Within e b p) : Within e (encaps b q) p := by
  obtain ⟨⟨h1, h2⟩, ⟨h3, h4⟩, h5, h6⟩ := h
  have a1 := min_le_left b.lo.x q.x
  have a2 := min_le_left b.lo.y q.y
  have a3 := min_le_left b.lo.z q.z
  have a4 := le_max_left b.hi.x q.x
  have a5 := le_max_left b.hi.y q.y
  have a6 := le_max_left b.hi.z q.z
  refine ⟨⟨?_, ?_⟩, ⟨?_, ?_⟩, ?_, ?_⟩ <;> simp only [encaps] <;> linarith

theorem within_self (b : Box) (p : V) : Within 0 (encaps b p) p := by
  have a1 := min_le_right b.lo.x p.x
  have a2 := min_le_right b.lo.y p.y
  have a3 := min_le_right b.lo.z p.z
  have a4 := le_max_right b.hi.x p.x
  have a5 := le_max_right b.hi.y p.y
  have a6 := le_max_right b.hi.z p.z
  refine ⟨⟨?_, ?_⟩, ⟨?_, ?_⟩, ?_, ?_⟩ <;> simp only [encaps] <;> linarith

theorem comb_mem {α β γ lo hi e x y z : ℝ} (ha : 0 ≤ α) (hb : 0 ≤ β) (hc : 0 ≤ γ) (hs : α + β + γ = 1)
    (hx : lo - e ≤ x ∧ x ≤ hi + e) (hy : lo - e ≤ y ∧ y ≤ hi + e) (hz : lo - e ≤ z ∧ z ≤ hi + e) :
    lo - e ≤ α * x + β * y + γ * z ∧ α * x + β * y + γ * z ≤ hi + e := by
  have hs' : α = 1 - β - γ := by linarith
  have a1 := mul_le_mul_of_nonneg_left hx.1 ha
  have a2 := mul_le_mul_of_nonneg_left hy.1 hb
  have a3 := mul_le_mul_of_nonneg_left hz.1 hc
  have b1 := mul_le_mul_of_nonneg_left hx.2 ha
  have b2 := mul_le_mul_of_nonneg_left hy.2 hb
  have b3 := mul_le_mul_of_nonneg_left hz.2 hc
  have t1 : α * (lo - e) + β * (lo - e) + γ * (lo - e) = lo - e := by rw [hs']; ring
  have t2 : α * (hi + e) + β * (hi + e) + γ * (hi + e) = hi + e := by rw [hs']; ring
  constructor <;> linarith

theorem on_abs {X Y : V} (h : On X Y) :
    (|X.x| ≤ 1 ∧ |X.y| ≤ 1 ∧ |X.z| ≤ 1) ∧ (|Y.x| ≤ 1 ∧ |Y.y| ≤ 1 ∧ |Y.z| ≤ 1) := by
  obtain ⟨h1, h2, -⟩ := h
  unfold dot at h1 h2
  refine ⟨⟨?_, ?_, ?_⟩, ?_, ?_, ?_⟩ <;> apply abs_le_one_iff_mul_self_le_one.mpr <;> nlinarith

theorem err_le {u w E F e : ℝ} (h : |u| + |w| ≤ e) (hE : |E| ≤ 1) (hF : |F| ≤ 1) : |u * E + w * F| ≤ e := by
  have h1 : |u * E| ≤ |u| := by rw [abs_mul]; exact mul_le_of_le_one_right (abs_nonneg _) hE
  have h2 : |w * F| ≤ |w| := by rw [abs_mul]; exact mul_le_of_le_one_right (abs_nonneg _) hF
  exact (abs_add_le _ _).trans (by linarith)

theorem within_hull {e e' : ℝ} {b : Box} {E F p0 p1 p2 p : V} (h : Hull e' E F p0 p1 p2 p) (hE : On E F)
    (h0 : Within e b p0) (h1 : Within e b p1) (h2 : Within e b p2) : Within (e + e') b p := by
  obtain ⟨α, β, γ, u, w, ha, hb, hc, hs, he, rfl⟩ := h
  obtain ⟨⟨x1, x2, x3⟩, y1, y2, y3⟩ := on_abs hE
  obtain ⟨c1, c2⟩ := comb_mem ha hb hc hs h0.1 h1.1 h2.1
  obtain ⟨c3, c4⟩ := comb_mem ha hb hc hs h0.2.1 h1.2.1 h2.2.1
  obtain ⟨c5, c6⟩ := comb_mem ha hb hc hs h0.2.2 h1.2.2 h2.2.2
  have e1 := abs_le.mp (err_le he x1 y1)
  have e2 := abs_le.mp (err_le he x2 y2)
  have e3 := abs_le.mp (err_le he x3 y3)
  refine ⟨⟨?_, ?_⟩, ⟨?_, ?_⟩, ?_, ?_⟩ <;> simp only [add, smul] <;> linarith [e1.1, e1.2, e2.1, e2.2, e3.1, e3.2]

/-! ## Turning a point -/

theorem revolveLoop_mono (O X Y : V) (r d e : ℝ) (p : V) :
    ∀ (n i : Nat) (p0 t0 p1 : V) (b : Box), Within e b p → Within e (revolveLoop O X Y r d n i p0 t0 p1 b).1 p
  | 0, _, _, _, _, _, h => h
  | n + 1, i, _, _, _, _, h => by
    rw [revolveLoop]
    exact revolveLoop_mono O X Y r d e p n (i + 1) _ _ _ _ (within_encaps _ (within_encaps _ h))

theorem revolveLoop_mem {C X Y : V} {r d : ℝ} (h : On X Y) (hr : 0 ≤ r) (hd : 0 ≤ d) (hp : d ≤ π / 2)
    (hC : ∀ a, dot C (out X Y a) = 0) :
    ∀ (n i : Nat) (p1 : V) (b : Box), Within 0 b (pt C X Y r (d * i)) → ∀ τ, d * i ≤ τ → τ ≤ d * (i + n) →
      Within 3e-6 (revolveLoop C X Y r d n (i + 1) (pt C X Y r (d * i)) (tang X Y (d * i)) p1 b).1 (pt C X Y r τ)
  | 0, i, p1, b, h0, τ, h1, h2 => by
    have : τ = d * i := by simp at h2; linarith
    rw [this, revolveLoop]
    exact within_le h0 (by norm_num)
  | n + 1, i, p1, b, h0, τ, h1, h2 => by
    have hi : d * ((i + 1 : ℕ) : ℝ) = d * i + d := by push_cast; ring
    have hP : add (add C (smul (r * cos (d * ((i + 1 : ℕ) : ℝ))) X)) (smul (r * sin (d * ((i + 1 : ℕ) : ℝ))) Y) =
        pt C X Y r (d * ((i + 1 : ℕ) : ℝ)) := rfl
    have hT : add (smul (-sin (d * ((i + 1 : ℕ) : ℝ))) X) (smul (cos (d * ((i + 1 : ℕ) : ℝ))) Y) =
        tang X Y (d * ((i + 1 : ℕ) : ℝ)) := rfl
    rw [revolveLoop]
    simp only [hP, hT]
    generalize hq : intersect (pt C X Y r (d * i)) (tang X Y (d * i)) (pt C X Y r (d * ((i + 1 : ℕ) : ℝ)))
      (tang X Y (d * ((i + 1 : ℕ) : ℝ))) p1 = q
    by_cases hτ : τ ≤ d * i + d
    · apply revolveLoop_mono
      have hh := arc_hull (C := C) (X := X) (Y := Y) (r := r) (a := d * i) (d := d) (τ := τ - d * i) p1 h hr hd hp
        (by linarith) (by linarith) (hC _)
      rw [← hi, hq, show d * (i : ℝ) + (τ - d * i) = τ by ring] at hh
      have := within_hull hh (on_frame h _) (within_encaps q (within_encaps _ h0)) (within_self _ q)
        (within_encaps q (within_self b (pt C X Y r (d * ((i + 1 : ℕ) : ℝ)))))
      rwa [zero_add] at this
    · refine revolveLoop_mem h hr hd hp hC n (i + 1) q _ (within_encaps q (within_self b _)) τ ?_ ?_
      · rw [hi]; linarith
      · refine h2.trans (le_of_eq ?_); push_cast; ring

/-- The axis. -/
def ez : V := ⟨0, 0, 1⟩

theorem project_axis (p : V) : project zero ez p = ⟨0, 0, p.z⟩ := by
  simp [project, zero, ez, add, sub, smul, dot]

theorem revolveAll_mono (s t : V) (d e : ℝ) (p : V) :
    ∀ (ps : List V) (p1 : V) (b : Box), Within e b p → Within e (revolveAll s t d ps p1 b) p
  | [], _, _, h => h
  | q :: ps, p1, b, h => by
    rw [revolveAll]
    simp only
    split
    · exact revolveAll_mono s t d e p ps _ _ (within_encaps _ h)
    · exact revolveAll_mono s t d e p ps _ _ (revolveLoop_mono _ _ _ _ _ _ _ _ _ _ _ _ _ (within_encaps _ h))

theorem frame {p : V} {r : ℝ} (hr : 0 < r) (h : r = mag (sub p ⟨0, 0, p.z⟩)) :
    ∃ X Y : V, unit (sub p ⟨0, 0, p.z⟩) = X ∧ unit (cross ez X) = Y ∧ On X Y ∧ Y = tang X Y 0 ∧
      (∀ a, dot ⟨0, 0, p.z⟩ (out X Y a) = 0) ∧ ∀ a, rotZ a p = pt ⟨0, 0, p.z⟩ X Y r a := by
  have hq : r * r = p.x * p.x + p.y * p.y := by
    rw [h]; unfold mag
    rw [mul_self_sqrt]
    · simp only [dot, sub]; ring
    · simp only [dot, sub]; nlinarith [mul_self_nonneg p.x, mul_self_nonneg p.y]
  have hX : unit (sub p ⟨0, 0, p.z⟩) = ⟨p.x / r, p.y / r, 0⟩ := by
    unfold unit; rw [← h]
    simp only [smul, sub]
    ext <;> simp only <;> ring
  have hm : mag (cross ez ⟨p.x / r, p.y / r, 0⟩) = 1 := by
    unfold mag
    rw [sqrt_eq_one]
    simp only [dot, cross, ez]
    field_simp
    nlinarith
  have hY : unit (cross ez ⟨p.x / r, p.y / r, 0⟩) = ⟨-(p.y / r), p.x / r, 0⟩ := by
    unfold unit; rw [hm]
    simp only [smul, cross, ez]
    ext <;> simp only <;> ring
  refine ⟨⟨p.x / r, p.y / r, 0⟩, ⟨-(p.y / r), p.x / r, 0⟩, hX, hY, ⟨?_, ?_, ?_⟩, ?_, ?_, ?_⟩
  · simp only [dot]; field_simp; nlinarith
  · simp only [dot]; field_simp; nlinarith
  · simp only [dot]; ring
  · simp [tang, add, smul]
  · intro a; simp [dot, out, add, smul]
  · intro a
    simp only [rotZ, pt, add, smul]
    ext <;> simp only <;> field_simp <;> ring

theorem revolveAll_mem {d : ℝ} (hd : 0 ≤ d) (hp : d ≤ π / 2) :
    ∀ (ps : List V) (p1 : V) (b : Box) (p : V), p ∈ ps → ∀ τ, 0 ≤ τ → τ ≤ d * 4 →
      Within 3e-6 (revolveAll zero ez d ps p1 b) (rotZ τ p)
  | q :: ps, p1, b, p, hm, τ, h0, h1 => by
    rcases List.mem_cons.mp hm with rfl | hm
    · rw [revolveAll, project_axis]
      simp only
      split
      · rename_i hr
        apply revolveAll_mono
        have hw := within_self b ⟨0, 0, p.z⟩
        obtain ⟨⟨w1, w2⟩, ⟨w3, w4⟩, w5, w6⟩ := hw
        have hq : mag (sub p ⟨0, 0, p.z⟩) ^ 2 = p.x ^ 2 + p.y ^ 2 := by
          unfold mag
          rw [sq_sqrt]
          · simp only [dot, sub]; ring
          · simp only [dot, sub]; nlinarith [mul_self_nonneg p.x, mul_self_nonneg p.y]
        have hm0 : 0 ≤ mag (sub p ⟨0, 0, p.z⟩) := sqrt_nonneg _
        generalize mag (sub p ⟨0, 0, p.z⟩) = r at hr hq hm0
        have hcs := cos_sq_add_sin_sq τ
        have hx : |p.x * cos τ - p.y * sin τ| ≤ r := by
          apply abs_le_of_sq_le_sq _ hm0
          rw [hq]
          nlinarith [sq_nonneg (p.x * sin τ + p.y * cos τ)]
        have hy : |p.x * sin τ + p.y * cos τ| ≤ r := by
          apply abs_le_of_sq_le_sq _ hm0
          rw [hq]
          nlinarith [sq_nonneg (p.x * cos τ - p.y * sin τ)]
        have hx' := abs_le.mp hx
        have hy' := abs_le.mp hy
        norm_num at hr
        simp only [sub_zero, add_zero] at w1 w2 w3 w4 w5 w6
        refine ⟨⟨?_, ?_⟩, ⟨?_, ?_⟩, ?_, ?_⟩ <;> simp only [rotZ] <;> norm_num <;>
          linarith [hx'.1, hx'.2, hy'.1, hy'.2]
      · rename_i hr
        apply revolveAll_mono
        obtain ⟨X, Y, hX, hY, hon, ht, hC, hrot⟩ := frame (p := p) (r := mag (sub p ⟨0, 0, p.z⟩))
          (lt_of_lt_of_le (by norm_num) (not_lt.mp hr)) rfl
        have hm0 : 0 ≤ mag (sub p ⟨0, 0, p.z⟩) := sqrt_nonneg _
        have hp0 : p = pt ⟨0, 0, p.z⟩ X Y (mag (sub p ⟨0, 0, p.z⟩)) 0 := by
          rw [← hrot 0]; simp [rotZ]
        rw [hX, hY, hrot τ]
        have hl := revolveLoop_mem hon hm0 hd hp hC 4 0 p1 (encaps b p)
          (by simp only [Nat.cast_zero, mul_zero]; rw [← hp0]; exact within_self b p) τ (by simpa using h0)
          (by push_cast; linarith)
        simp only [Nat.cast_zero, mul_zero] at hl
        rw [← hp0, ← ht] at hl
        exact hl
    · rw [revolveAll]
      simp only
      split
      · exact revolveAll_mem hd hp ps _ _ p hm τ h0 h1
      · exact revolveAll_mem hd hp ps _ _ p hm τ h0 h1

/-! ## Turning a curve -/

theorem rotZ_add (a b : ℝ) (p : V) : rotZ a (rotZ b p) = rotZ (b + a) p := by
  simp only [rotZ, cos_add, sin_add]
  ext <;> simp only <;> ring

theorem rotZ_on {E F : V} (h : On E F) (a : ℝ) : On (rotZ a E) (rotZ a F) := by
  have hd : ∀ p q : V, dot (rotZ a p) (rotZ a q) = dot p q := by
    intro p q
    have := cos_sq_add_sin_sq a
    simp only [dot, rotZ]
    linear_combination (p.x * q.x + p.y * q.y) * this
  exact ⟨by rw [hd, h.1], by rw [hd, h.2.1], by rw [hd, h.2.2]⟩

theorem hull_rotZ {e : ℝ} {E F p0 p1 p2 p : V} (h : Hull e E F p0 p1 p2 p) (a : ℝ) :
    Hull e (rotZ a E) (rotZ a F) (rotZ a p0) (rotZ a p1) (rotZ a p2) (rotZ a p) := by
  obtain ⟨α, β, γ, u, w, ha, hb, hc, hs, he, rfl⟩ := h
  refine ⟨α, β, γ, u, w, ha, hb, hc, hs, he, ?_⟩
  simp only [rotZ, add, smul]
  ext <;> simp only <;> ring

theorem rotZ_wrap (a : ℝ) (p : V) : ∃ b, 0 ≤ b ∧ b ≤ 2 * π ∧ rotZ b p = rotZ a p := by
  have hpi : 0 < 2 * π := by linarith [pi_pos]
  refine ⟨a - ⌊a / (2 * π)⌋ * (2 * π), ?_, ?_, ?_⟩
  · have := (le_div_iff₀ hpi).mp (Int.floor_le (a / (2 * π)))
    linarith
  · have := (div_lt_iff₀ hpi).mp (Int.lt_floor_add_one (a / (2 * π)))
    nlinarith
  · simp only [rotZ, cos_sub_int_mul_two_pi, sin_sub_int_mul_two_pi]

theorem revolve_mem (big : ℝ) (ps : List V) {t0 theta : ℝ} (h : 0 ≤ theta) {p : V} (hp : p ∈ ps) {s : ℝ}
    (h0 : 0 ≤ s) (h1 : s ≤ 1) :
    Within 3e-6 (revolve big (ps.map (rotZ t0)) zero ez theta) (rotZ (t0 + s * theta) p) := by
  have hpi := pi_pos
  have hm : rotZ t0 p ∈ ps.map (rotZ t0) := List.mem_map_of_mem hp
  have hs : 0 ≤ s * theta := mul_nonneg h0 h
  have hs' : s * theta ≤ theta := by nlinarith
  rw [← rotZ_add, revolve, abs_of_nonneg h, if_neg (not_lt.mpr h)]
  by_cases hc : theta > 2 * π
  · simp only [if_pos hc]
    obtain ⟨b, hb0, hb1, hb⟩ := rotZ_wrap (s * theta) (rotZ t0 p)
    rw [← hb]
    exact revolveAll_mem (by linarith) (by linarith) _ _ _ _ hm b hb0 (by linarith)
  · simp only [if_neg hc]
    exact revolveAll_mem (by linarith) (by linarith) _ _ _ _ hm _ hs (by linarith)

/-! ## Control points of a circle -/

theorem circleLoop_mem {C X Y : V} {r d e : ℝ} :
    ∀ (n : Nat) (a : ℝ) (p1 : V), (∀ i : Nat, i < n → ∀ (old : V) (τ : ℝ), 0 ≤ τ → τ ≤ d →
        Hull e (out X Y (a + i * d)) (tang X Y (a + i * d)) (pt C X Y r (a + i * d))
          (intersect (pt C X Y r (a + i * d)) (tang X Y (a + i * d)) (pt C X Y r (a + i * d + d))
            (tang X Y (a + i * d + d)) old)
          (pt C X Y r (a + i * d + d)) (pt C X Y r (a + i * d + τ))) →
      0 < n → ∀ τ, a ≤ τ → τ ≤ a + n * d → ∃ (a' : ℝ) (q0 q1 q2 : V),
        q0 ∈ pt C X Y r a :: circleLoop C X Y r d n a (pt C X Y r a) (tang X Y a) p1 ∧
        q1 ∈ pt C X Y r a :: circleLoop C X Y r d n a (pt C X Y r a) (tang X Y a) p1 ∧
        q2 ∈ pt C X Y r a :: circleLoop C X Y r d n a (pt C X Y r a) (tang X Y a) p1 ∧
        Hull e (out X Y a') (tang X Y a') q0 q1 q2 (pt C X Y r τ)
  | 0, _, _, _, h, _, _, _ => absurd h (lt_irrefl _)
  | n + 1, a, p1, H, _, τ, h1, h2 => by
    have hP : add (add C (smul (r * cos (a + d)) X)) (smul (r * sin (a + d)) Y) = pt C X Y r (a + d) := rfl
    have hT : add (smul (-sin (a + d)) X) (smul (cos (a + d)) Y) = tang X Y (a + d) := rfl
    rw [circleLoop]
    simp only [hP, hT]
    by_cases hτ : τ ≤ a + d
    · have hh := H 0 (Nat.succ_pos n) p1 (τ - a) (by linarith) (by linarith)
      simp only [Nat.cast_zero, zero_mul, add_zero] at hh
      rw [show a + (τ - a) = τ by ring] at hh
      exact ⟨a, _, _, _, by simp, by simp, by simp, hh⟩
    · have hn : 0 < n := by
        rcases Nat.eq_zero_or_pos n with rfl | hn
        · push_cast at h2; exact absurd (by linarith) hτ
        · exact hn
      generalize intersect (pt C X Y r a) (tang X Y a) (pt C X Y r (a + d)) (tang X Y (a + d)) p1 = q
      obtain ⟨a', q0, q1, q2, m0, m1, m2, hh⟩ := circleLoop_mem n (a + d) q (fun i hi old τ' h3 h4 => by
        have := H (i + 1) (Nat.succ_lt_succ hi) old τ' h3 h4
        rw [show a + ((i + 1 : ℕ) : ℝ) * d = a + d + i * d by push_cast; ring] at this
        exact this) hn τ (by linarith) (by refine h2.trans (le_of_eq ?_); push_cast; ring)
      have up : ∀ x : V, x ∈ pt C X Y r (a + d) :: circleLoop C X Y r d n (a + d) (pt C X Y r (a + d))
          (tang X Y (a + d)) q → x ∈ pt C X Y r a :: q :: pt C X Y r (a + d) ::
            circleLoop C X Y r d n (a + d) (pt C X Y r (a + d)) (tang X Y (a + d)) q := by
        intro x hx
        exact List.mem_cons_of_mem _ (List.mem_cons_of_mem _ hx)
      exact ⟨a', q0, q1, q2, up _ m0, up _ m1, up _ m2, hh⟩

theorem circle_mem {C X Y : V} {r as ae e : ℝ}
    (H : ∀ i : Nat, i < 4 → ∀ (old : V) (τ : ℝ), 0 ≤ τ → τ ≤ (ae - as) / 4 →
      Hull e (out X Y (as + i * ((ae - as) / 4))) (tang X Y (as + i * ((ae - as) / 4)))
        (pt C X Y r (as + i * ((ae - as) / 4)))
        (intersect (pt C X Y r (as + i * ((ae - as) / 4))) (tang X Y (as + i * ((ae - as) / 4)))
          (pt C X Y r (as + i * ((ae - as) / 4) + (ae - as) / 4))
          (tang X Y (as + i * ((ae - as) / 4) + (ae - as) / 4)) old)
        (pt C X Y r (as + i * ((ae - as) / 4) + (ae - as) / 4)) (pt C X Y r (as + i * ((ae - as) / 4) + τ)))
    {τ : ℝ} (h1 : as ≤ τ) (h2 : τ ≤ ae) : ∃ (a' : ℝ) (q0 q1 q2 : V),
      q0 ∈ circle C X Y r as ae ∧ q1 ∈ circle C X Y r as ae ∧ q2 ∈ circle C X Y r as ae ∧
        Hull e (out X Y a') (tang X Y a') q0 q1 q2 (pt C X Y r τ) :=
  circleLoop_mem (d := (ae - as) / 4) 4 as zero H (by norm_num) τ h1 (by push_cast; linarith)

theorem mix_between {a b t : ℝ} (h0 : 0 ≤ t) (h1 : t ≤ 1) : min a b ≤ mix a b t ∧ mix a b t ≤ max a b := by
  unfold mix
  rcases le_total a b with h | h
  · rw [min_eq_left h, max_eq_right h]; constructor <;> nlinarith
  · rw [min_eq_right h, max_eq_left h]; constructor <;> nlinarith

theorem max_sub_min (a b : ℝ) : max a b - min a b = |b - a| := by
  rcases le_total a b with h | h
  · rw [min_eq_left h, max_eq_right h, abs_of_nonneg (by linarith)]
  · rw [min_eq_right h, max_eq_left h, abs_of_nonpos (by linarith)]; ring

end Verif.Geom.Quadric
