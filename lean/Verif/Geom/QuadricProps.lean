import Verif.Geom.QuadricBound
import Mathlib.Tactic.IntervalCases

/-!
# C80: quadrics are diced on their surface, split into halves of it, and bounded by boxes which contain it
-/

noncomputable section

namespace Verif.Geom.Quadric

open Real

/-- Each point of each grid is the point of the surface at its parameters. -/
theorem C80_dice (q : Quad) (n m u v : Nat) :
    (dicePoint q n m u v).1 = surf q ((u : ℝ) / n) ((v : ℝ) / m) := by
  obtain ⟨sh, tmin, tmax⟩ := q
  unfold dicePoint
  simp only [grid_eq, mix_rad]
  cases sh <;> simp only [dice, surf, curve, grid_eq, mix_rad, smul, add] <;> ext <;> simp only [mix] <;> ring_nf

example : (dicePoint ⟨.cylinder 2 0 3, 0, 360⟩ 4 2 0 1).1 = ⟨2, 0, 3 / 2⟩ := by
  rw [C80_dice]
  norm_num [surf, curve, mix]

/-- The halves in the direction of the angle are the two halves of the surface. -/
theorem C80_split_u (q : Quad) (s t : ℝ) :
    surf (split q true).1 s t = surf q (s / 2) t ∧ surf (split q true).2 s t = surf q ((1 + s) / 2) t := by
  have h1 : mix q.tmin ((q.tmin + q.tmax) * 0.5) s = mix q.tmin q.tmax (s / 2) := by unfold mix; ring
  have h2 : mix ((q.tmin + q.tmax) * 0.5) q.tmax s = mix q.tmin q.tmax ((1 + s) / 2) := by unfold mix; ring
  simp only [split, if_true, surf, h1, h2, and_self]

theorem mix_half1 (a b t : ℝ) : mix a ((a + b) * 0.5) t = mix a b (t / 2) := by unfold mix; ring
theorem mix_half2 (a b t : ℝ) : mix ((a + b) * 0.5) b t = mix a b ((1 + t) / 2) := by unfold mix; ring

theorem curve_split (s : Shape) (h : Upward s) (t : ℝ) :
    curve (splitShape s).1 t = curve s (t / 2) ∧ curve (splitShape s).2 t = curve s ((1 + t) / 2) := by
  cases s with
  | paraboloid r zmin zmax =>
    obtain ⟨h1, h2, h3⟩ := h
    have hc : 0 < (zmin + zmax) * 0.5 := by norm_num; linarith
    simp only [splitShape, curve, mix_half1, mix_half2, and_true]
    ext <;> simp only
    rw [mul_assoc, ← sqrt_mul (div_nonneg hc.le h3.le)]
    congr 2
    field_simp
  | torus major minor pmin pmax =>
    simp only [splitShape, curve, add_comm pmax pmin, mix_half1, mix_half2, and_self]
  | hyperboloid p1 p2 =>
    simp only [splitShape, curve, smul, add]
    constructor <;> ext <;> simp only [mix] <;> ring
  | _ => simp only [splitShape, curve, mix_half1, mix_half2, and_self]

/-- The halves in the other direction are the two halves of the surface. -/
theorem C80_split_v (q : Quad) (h : Upward q.shape) (s t : ℝ) :
    surf (split q false).1 s t = surf q s (t / 2) ∧ surf (split q false).2 s t = surf q s ((1 + t) / 2) := by
  obtain ⟨h1, h2⟩ := curve_split q.shape h t
  simp only [split, Bool.false_eq_true, if_false, surf, h1, h2, and_self]

example : Upward (.paraboloid 1 0 2) := ⟨le_refl _, by norm_num, by norm_num⟩

/-- A sphere whose limits are on it starts and ends at the heights asked for. -/
theorem C80_sphere_partial (r zmin zmax tmin tmax : ℝ) (hr : 0 < r) (h1 : |zmin| ≤ r) (h2 : |zmax| ≤ r) :
    ∃ q, newSphere r zmin zmax tmin tmax = some q ∧ Fit q.shape ∧ q.tmin = tmin ∧ q.tmax = tmax ∧
      ∀ s, (surf q s 0).z = zmin ∧ (surf q s 1).z = zmax := by
  have hs : sane |r| zmin = zmin := by
    unfold sane; rw [abs_of_pos hr, if_neg (not_lt.mpr h1)]
  have ha : ∀ z : ℝ, |z| ≤ r → asin (z / r) = some (arcsin (z / r)) := by
    intro z hz
    unfold asin
    rw [if_pos]
    rw [abs_div, abs_of_pos hr, div_le_one hr]; exact hz
  have hb : ∀ z : ℝ, |z| ≤ r → r * sin (arcsin (z / r)) = z := by
    intro z hz
    have := abs_le.mp hz
    rw [sin_arcsin]
    · field_simp
    · rw [le_div_iff₀ hr]; linarith [this.1]
    · rw [div_le_one hr]; exact this.2
  refine ⟨⟨.sphere r (arcsin (zmin / r)) (arcsin (zmax / r)), tmin, tmax⟩, ?_, ⟨hr, ?_⟩, rfl, rfl, ?_⟩
  · unfold newSphere
    rw [hs, hs, ha zmin h1, ha zmax h2]
  · have a1 := neg_pi_div_two_le_arcsin (zmin / r)
    have a2 := arcsin_le_pi_div_two (zmin / r)
    have a3 := neg_pi_div_two_le_arcsin (zmax / r)
    have a4 := arcsin_le_pi_div_two (zmax / r)
    rw [abs_le]; constructor <;> linarith
  · intro s
    simp only [surf, curve, mix, zero_mul, add_zero, one_mul, add_sub_cancel]
    exact ⟨hb zmin h1, hb zmax h2⟩

/-- A sphere of radius 2 whose lower limit is below it loses its lower part; an upper limit above the sphere gives no number. -/
theorem C80_sphere_violated :
    (∃ q, newSphere 2 (-3) 2 0 360 = some q ∧ ∀ s t, 0 ≤ t → t ≤ 1 → -1 ≤ (surf q s t).z) ∧
      newSphere 1 (-1) 2 0 360 = none := by
  have hs : sane 2 (-3) = -1 := by norm_num [sane]
  have hs' : sane 2 (-1) = -1 := by norm_num [sane]
  have h1 : asin (-1 / 2) = some (arcsin (-1 / 2)) := by unfold asin; rw [if_pos]; norm_num [abs_div]
  have h2 : asin (2 / 2) = some (π / 2) := by
    unfold asin; rw [if_pos (by norm_num)]; norm_num
  constructor
  · refine ⟨⟨.sphere 2 (arcsin (-1 / 2)) (π / 2), 0, 360⟩, ?_, ?_⟩
    · unfold newSphere
      rw [abs_of_pos (by norm_num : (0 : ℝ) < 2), hs, hs', h1, h2]
    · intro s t h0 ht
      simp only [surf, curve]
      have hb := neg_pi_div_two_le_arcsin (-1 / 2)
      have hc := arcsin_le_pi_div_two (-1 / 2)
      have hm : arcsin (-1 / 2) ≤ mix (arcsin (-1 / 2)) (π / 2) t := by unfold mix; nlinarith
      have hm' : mix (arcsin (-1 / 2)) (π / 2) t ≤ π / 2 := by unfold mix; nlinarith
      have := sin_le_sin_of_le_of_le_pi_div_two hb hm' hm
      rw [sin_arcsin (by norm_num) (by norm_num)] at this
      linarith
  · have h3 : asin (2 / 1) = none := by unfold asin; rw [if_neg]; norm_num
    unfold newSphere
    rw [h3]
    split
    · rename_i h; simp at h
    · rfl

/-! ## Bounds -/

theorem surf_rot (q : Quad) (s t : ℝ) :
    surf q s t = rotZ (degToRad q.tmin + s * degToRad (q.tmax - q.tmin)) (curve q.shape t) := by
  have h : mix q.tmin q.tmax s * π / 180 = degToRad q.tmin + s * degToRad (q.tmax - q.tmin) := by
    unfold mix degToRad; ring
  unfold surf rotZ
  rw [h]

theorem within_two {big e t0 theta s t : ℝ} {p1 p2 : V} (h : 0 ≤ theta) (h0 : 0 ≤ s) (h1 : s ≤ 1) (ht0 : 0 ≤ t)
    (ht1 : t ≤ 1) (he : 3e-6 ≤ e) :
    Within e (revolve big ([p1, p2].map (rotZ t0)) zero ez theta)
      (rotZ (t0 + s * theta) ⟨mix p1.x p2.x t, mix p1.y p2.y t, mix p1.z p2.z t⟩) := by
  have m1 := revolve_mem big [p1, p2] (t0 := t0) h (List.mem_cons_self) h0 h1
  have m2 := revolve_mem big [p1, p2] (t0 := t0) (p := p2) h (by simp) h0 h1
  have hon : On ⟨1, 0, 0⟩ ⟨0, 1, 0⟩ := by simp [On, dot]
  have hh : Hull 0 ⟨1, 0, 0⟩ ⟨0, 1, 0⟩ p1 p2 p2 ⟨mix p1.x p2.x t, mix p1.y p2.y t, mix p1.z p2.z t⟩ := by
    refine ⟨1 - t, t, 0, 0, 0, by linarith, ht0, le_refl _, by ring, by simp, ?_⟩
    simp only [add, smul]
    ext <;> simp only [mix] <;> ring
  have := within_hull (hull_rotZ hh (t0 + s * theta)) (rotZ_on hon _) m1 m2 m2
  exact within_le this (by linarith)

theorem on_xz : On ⟨1, 0, 0⟩ ⟨0, 0, 1⟩ := by simp [On, dot]

theorem within_circle {big t0 theta s r as ae τ : ℝ} {C : V} (h : 0 ≤ theta) (h0 : 0 ≤ s) (h1 : s ≤ 1)
    (hc : ∃ (a' : ℝ) (q0 q1 q2 : V), q0 ∈ circle C ⟨1, 0, 0⟩ ⟨0, 0, 1⟩ r as ae ∧
      q1 ∈ circle C ⟨1, 0, 0⟩ ⟨0, 0, 1⟩ r as ae ∧ q2 ∈ circle C ⟨1, 0, 0⟩ ⟨0, 0, 1⟩ r as ae ∧
      Hull 3e-6 (out ⟨1, 0, 0⟩ ⟨0, 0, 1⟩ a') (tang ⟨1, 0, 0⟩ ⟨0, 0, 1⟩ a') q0 q1 q2
        (pt C ⟨1, 0, 0⟩ ⟨0, 0, 1⟩ r τ)) :
    Within 6e-6 (revolve big ((circle C ⟨1, 0, 0⟩ ⟨0, 0, 1⟩ r as ae).map (rotZ t0)) zero ez theta)
      (rotZ (t0 + s * theta) (pt C ⟨1, 0, 0⟩ ⟨0, 0, 1⟩ r τ)) := by
  obtain ⟨a', q0, q1, q2, m0, m1, m2, hh⟩ := hc
  have := within_hull (hull_rotZ hh (t0 + s * theta)) (rotZ_on (on_frame on_xz a') _)
    (revolve_mem big _ (t0 := t0) h m0 h0 h1) (revolve_mem big _ (t0 := t0) h m1 h0 h1)
    (revolve_mem big _ (t0 := t0) h m2 h0 h1)
  exact within_le this (by norm_num)

/-- The bound contains the surface, up to six millionths, for angles which go up and shapes which fit. -/
theorem C80_bound_partial (big : ℝ) (q : Quad) (hf : Fit q.shape) (ht : q.tmin ≤ q.tmax) (s t : ℝ) (h0 : 0 ≤ s)
    (h1 : s ≤ 1) (ht0 : 0 ≤ t) (ht1 : t ≤ 1) : Within 6e-6 (bound big q) (surf q s t) := by
  have hpi := pi_pos
  have hth : 0 ≤ degToRad (q.tmax - q.tmin) := by
    unfold degToRad
    have : 0 ≤ q.tmax - q.tmin := by linarith
    positivity
  rw [surf_rot]
  obtain ⟨sh, tmin, tmax⟩ := q
  simp only at hf ht hth ⊢
  cases sh with
  | sphere r pmin pmax =>
    obtain ⟨hr, hp⟩ := hf
    have hc : curve (.sphere r pmin pmax) t = pt zero ⟨1, 0, 0⟩ ⟨0, 0, 1⟩ r (mix pmin pmax t) := by
      simp [curve, pt, zero, add, smul]
    rw [hc]
    obtain ⟨b1, b2⟩ := mix_between (a := pmin) (b := pmax) ht0 ht1
    refine within_circle hth h0 h1 (circle_mem (fun i _ old τ' h3 h4 => ?_) b1 b2)
    have hd := max_sub_min pmin pmax
    exact arc_hull old on_xz hr.le (by rw [hd]; positivity) (by rw [hd]; linarith) h3 h4 (by simp [zero, dot])
  | torus major minor pmin pmax =>
    obtain ⟨hp, hg⟩ := hf
    have hc : curve (.torus major minor pmin pmax) t =
        pt ⟨major, 0, 0⟩ ⟨1, 0, 0⟩ ⟨0, 0, 1⟩ minor (degToRad (mix pmin pmax t)) := by
      simp [curve, pt, add, smul, degToRad, div_mul_eq_mul_div]
    rw [hc]
    obtain ⟨b1, b2⟩ := mix_between (a := pmin) (b := pmax) ht0 ht1
    have hmono : ∀ a b : ℝ, a ≤ b → degToRad a ≤ degToRad b := by
      intro a b hab; unfold degToRad
      exact mul_le_mul_of_nonneg_right (by linarith) hpi.le
    refine within_circle hth h0 h1 (circle_mem (fun i hi old τ' h3 h4 => ?_) (hmono _ _ b1) (hmono _ _ b2))
    have hd : (degToRad (max pmin pmax) - degToRad (min pmin pmax)) / 4 = |pmax - pmin| / 4 * π / 180 := by
      rw [← max_sub_min]; unfold degToRad; ring
    have hgi := hg i hi
    have hne : |pmax - pmin| ≠ 0 := by
      intro hz; rw [hz] at hgi; norm_num at hgi
    have hpos : 0 < |pmax - pmin| := lt_of_le_of_ne (abs_nonneg _) (Ne.symm hne)
    rw [hd] at h4 ⊢
    refine arc_exact old on_xz (by norm_num) (by positivity) (by nlinarith) h3 h4 ?_
    have ha : degToRad (min pmin pmax) + i * (|pmax - pmin| / 4 * π / 180) =
        (min pmin pmax + i * (|pmax - pmin| / 4)) * π / 180 := by unfold degToRad; ring
    rw [ha]
    simpa [gap, dot, out, add, smul] using hgi
  | cone h r vmin vmax =>
    obtain ⟨⟨v1, v2⟩, ⟨v3, v4⟩, v5⟩ := hf
    have m1 := revolve_mem big (profile (.cone h r vmin vmax)) (t0 := degToRad tmin) (p := ⟨r, 0, vmin * h⟩) hth
      (by simp [profile]) h0 h1
    have m2 := revolve_mem big (profile (.cone h r vmin vmax)) (t0 := degToRad tmin) (p := ⟨0, 0, vmax * h⟩) hth
      (by simp [profile]) h0 h1
    change Within _ (revolve big ((profile (.cone h r vmin vmax)).map (rotZ (degToRad tmin))) zero ez _) _
    generalize revolve big ((profile (.cone h r vmin vmax)).map (rotZ (degToRad tmin))) zero ez _ = B at m1 m2 ⊢
    generalize degToRad tmin + s * degToRad (tmax - tmin) = a at m1 m2 ⊢
    have k0 : 0 ≤ 1 - mix vmin vmax t := by unfold mix; nlinarith
    have k1 : 0 ≤ mix vmin vmax t := by unfold mix; nlinarith
    have cx := comb_mem k0 k1 (le_refl 0) (by ring) m1.1 m2.1 m2.1
    have cy := comb_mem k0 k1 (le_refl 0) (by ring) m1.2.1 m2.2.1 m2.2.1
    have cz := comb_mem (by linarith : 0 ≤ 1 - t) ht0 (le_refl 0) (by ring) m1.2.2 m2.2.2 m2.2.2
    refine within_le (e := 3e-6) ?_ (by norm_num)
    simp only [rotZ] at cx cy cz
    refine ⟨?_, ?_, ?_⟩
    · convert cx using 2 <;> simp only [rotZ, curve] <;> ring
    · convert cy using 2 <;> simp only [rotZ, curve] <;> ring
    · convert cz using 2 <;> simp only [rotZ, curve, mix] <;> ring
  | cylinder r zmin zmax =>
    have := within_two (big := big) (t0 := degToRad tmin) (p1 := ⟨r, 0, zmin⟩) (p2 := ⟨r, 0, zmax⟩) hth h0 h1 ht0 ht1
      (by norm_num : (3e-6 : ℝ) ≤ 6e-6)
    simpa [mix, curve, bound, profile, ez] using this
  | hyperboloid p1 p2 =>
    exact within_two hth h0 h1 ht0 ht1 (by norm_num)
  | disk h major minor =>
    have := within_two (big := big) (t0 := degToRad tmin) (p1 := ⟨major, 0, h⟩) (p2 := ⟨minor, 0, h⟩) hth h0 h1 ht0 ht1
      (by norm_num : (3e-6 : ℝ) ≤ 6e-6)
    simpa [mix, curve, bound, profile, ez] using this
  | paraboloid r zmin zmax =>
    obtain ⟨hr, z0, z1, z2⟩ := hf
    refine within_le (e := 0) ?_ (by norm_num)
    have c0 : cos (degToRad 0) = 1 := by simp [degToRad]
    have c1 : cos (degToRad 180) = -1 := by simp [degToRad]
    have s0 : sin (degToRad 90) = 1 := by
      rw [show degToRad 90 = π / 2 by unfold degToRad; ring]; exact sin_pi_div_two
    have s1 : sin (degToRad 270) = -1 := by
      rw [show degToRad 270 = π / 2 + π by unfold degToRad; ring, sin_add_pi, sin_pi_div_two]
    generalize degToRad tmin + s * degToRad (tmax - tmin) = a
    have hq : √(mix zmin zmax t / zmax) ≤ 1 := by
      refine (sqrt_le_sqrt ?_).trans_eq sqrt_one
      rw [div_le_one z2]; unfold mix; nlinarith
    have hq0 := sqrt_nonneg (mix zmin zmax t / zmax)
    have hk0 : 0 ≤ r * √(mix zmin zmax t / zmax) := mul_nonneg hr hq0
    have hk1 : r * √(mix zmin zmax t / zmax) ≤ r := by nlinarith
    obtain ⟨b1, b2⟩ := mix_between (a := zmin) (b := zmax) ht0 ht1
    have e1 := neg_one_le_cos a
    have e2 := cos_le_one a
    have e3 := neg_one_le_sin a
    have e4 := sin_le_one a
    simp only [bound, c0, c1, s0, s1, rotZ, curve, Within]
    generalize r * √(mix zmin zmax t / zmax) = k at hk0 hk1 ⊢
    rw [min_eq_right (by linarith), max_eq_left (by linarith)]
    refine ⟨⟨?_, ?_⟩, ⟨?_, ?_⟩, ?_, ?_⟩ <;> nlinarith

/-- So are all points into which it is diced. -/
theorem C80_grid_in_bound_partial (big : ℝ) (q : Quad) (hf : Fit q.shape) (ht : q.tmin ≤ q.tmax) (n m u v : Nat)
    (hn : 0 < n) (hm : 0 < m) (hu : u ≤ n) (hv : v ≤ m) : Within 6e-6 (bound big q) (dicePoint q n m u v).1 := by
  rw [C80_dice]
  have hn' : (0 : ℝ) < n := by exact_mod_cast hn
  have hm' : (0 : ℝ) < m := by exact_mod_cast hm
  exact C80_bound_partial big q hf ht _ _ (by positivity) ((div_le_one hn').mpr (by exact_mod_cast hu)) (by positivity)
    ((div_le_one hm').mpr (by exact_mod_cast hv))

example : Fit (.sphere 1 (-(π / 2)) (π / 2)) ∧ Fit (.cone 1 1 0 1) ∧ Fit (.paraboloid 1 0 2) := by
  have := pi_pos
  refine ⟨⟨one_pos, ?_⟩, ⟨⟨le_refl _, zero_le_one⟩, ⟨zero_le_one, le_refl _⟩, zero_le_one⟩, ?_⟩
  · rw [abs_of_nonneg] <;> linarith
  · exact ⟨zero_le_one, le_refl _, by norm_num, by norm_num⟩

/-- A paraboloid which goes down is wider than its bound. -/
theorem C80_paraboloid_violated (big : ℝ) :
    (bound big ⟨.paraboloid 1 4 1, 0, 360⟩).hi.x + 1 ≤ (surf ⟨.paraboloid 1 4 1, 0, 360⟩ 0 0).x := by
  have c0 : cos (degToRad 0) = 1 := by simp [degToRad]
  have c1 : cos (degToRad 180) = -1 := by simp [degToRad]
  have h4 : √(4 : ℝ) = 2 := by
    rw [show (4 : ℝ) = 2 ^ 2 by norm_num]; exact sqrt_sq (by norm_num)
  simp only [bound, c0, c1, surf, curve, mix]
  norm_num [h4]

/-! ## Control points which are missing -/

theorem revolveLoop_low {C X Y : V} {r d m : ℝ} (h : On X Y) (hgap : ∀ a, gap C X Y r a d ^ 2 < 1e-7) :
    ∀ (n i : Nat) (p1 : V) (b : Box), m ≤ b.lo.y → m ≤ p1.y →
      (∀ j : Nat, j ≤ i + n → m ≤ (pt C X Y r (d * j)).y) →
      m ≤ (revolveLoop C X Y r d n (i + 1) (pt C X Y r (d * i)) (tang X Y (d * i)) p1 b).1.lo.y ∧
        m ≤ (revolveLoop C X Y r d n (i + 1) (pt C X Y r (d * i)) (tang X Y (d * i)) p1 b).2.y
  | 0, _, _, _, hb, hp, _ => ⟨hb, hp⟩
  | n + 1, i, p1, b, hb, hp, hj => by
    have hi : d * ((i + 1 : ℕ) : ℝ) = d * i + d := by push_cast; ring
    have hP : add (add C (smul (r * cos (d * ((i + 1 : ℕ) : ℝ))) X)) (smul (r * sin (d * ((i + 1 : ℕ) : ℝ))) Y) =
        pt C X Y r (d * ((i + 1 : ℕ) : ℝ)) := rfl
    have hT : add (smul (-sin (d * ((i + 1 : ℕ) : ℝ))) X) (smul (cos (d * ((i + 1 : ℕ) : ℝ))) Y) =
        tang X Y (d * ((i + 1 : ℕ) : ℝ)) := rfl
    have hq : intersect (pt C X Y r (d * i)) (tang X Y (d * i)) (pt C X Y r (d * ((i + 1 : ℕ) : ℝ)))
        (tang X Y (d * ((i + 1 : ℕ) : ℝ))) p1 = p1 := by
      rw [hi, intersect_eq r _ d p1 h, if_pos (hgap _)]
    rw [revolveLoop]
    simp only [hP, hT, hq]
    refine revolveLoop_low h hgap n (i + 1) p1 _ ?_ hp (fun j hj' => hj j (by omega))
    simp only [encaps]
    exact le_min (le_min hb (hj (i + 1) (by omega))) hp

/-- A cylinder which is turned backwards by 240 degrees, of such a radius that no tangents are found to intersect: it is
outside of its bound by more than a tenth of its height. -/
theorem C80_backwards_violated (big : ℝ) (hbig : 1 ≤ big) :
    (surf ⟨.cylinder (√3 / 2) 0 1, 0, -240⟩ (3 / 8) 0).y + 1 / 10 ≤
      (bound big ⟨.cylinder (√3 / 2) 0 1, 0, -240⟩).lo.y := by
  have h3 : √(3 : ℝ) * √3 = 3 := mul_self_sqrt (by norm_num)
  have h3l : 17 / 10 ≤ √(3 : ℝ) := le_sqrt_of_sq_le (by norm_num)
  have hpi := pi_pos
  have hl : (surf ⟨.cylinder (√3 / 2) 0 1, 0, -240⟩ (3 / 8) 0).y = -(√3 / 2) := by
    have ha : mix 0 (-240) (3 / 8) * π / 180 = -(π / 2) := by unfold mix; ring
    simp only [surf, curve, ha, sin_neg, sin_pi_div_two]
    ring
  have hd : degToRad (-240 - 0) / 4 = -(π / 3) := by unfold degToRad; ring
  have hsd : sin (-(π / 3)) = -(√3 / 2) := by rw [sin_neg, sin_pi_div_three]
  have hsin : ∀ j : Nat, j ≤ 4 → -(√3 / 2) ≤ sin (-(π / 3) * j) := by
    intro j hj
    have e2 : sin (-(π / 3) * 2) = -(√3 / 2) := by
      rw [show -(π / 3) * 2 = -(π - π / 3) by ring, sin_neg, sin_pi_sub, sin_pi_div_three]
    have e3 : sin (-(π / 3) * 3) = 0 := by rw [show -(π / 3) * 3 = -π by ring, sin_neg, sin_pi, neg_zero]
    have e4 : sin (-(π / 3) * 4) = √3 / 2 := by
      rw [show -(π / 3) * 4 = -(π / 3 + π) by ring, sin_neg, sin_add_pi, sin_pi_div_three, neg_neg]
    interval_cases j <;> push_cast
    · simp only [mul_zero, sin_zero]; linarith
    · rw [mul_one, hsd]
    · rw [e2]
    · rw [e3]; linarith
    · rw [e4]; linarith
  have hlow : ∀ (ps : List V) (p1 : V) (b : Box), -(3 / 4) ≤ b.lo.y → -(3 / 4) ≤ p1.y →
      (∀ p ∈ ps, p.x = √3 / 2 ∧ p.y = 0) → -(3 / 4) ≤ (revolveAll zero ez (-(π / 3)) ps p1 b).lo.y := by
    intro ps
    induction ps with
    | nil => intro p1 b hb _ _; exact hb
    | cons p ps ih =>
      intro p1 b hb hp1 hps
      obtain ⟨hx, hy⟩ := hps p List.mem_cons_self
      have hr : mag (sub p ⟨0, 0, p.z⟩) = √3 / 2 := by
        unfold mag
        rw [show dot (sub p ⟨0, 0, p.z⟩) (sub p ⟨0, 0, p.z⟩) = (√3 / 2) ^ 2 by simp only [dot, sub, hx, hy]; ring]
        exact sqrt_sq (by linarith)
      obtain ⟨X, Y, hX, hY, hon, htg, hC, hrot⟩ := frame (p := p) (r := √3 / 2) (by linarith) hr.symm
      rw [revolveAll, project_axis]
      simp only
      rw [if_neg (by rw [hr]; norm_num; linarith), hX, hY, hr]
      have hp0 : p = pt ⟨0, 0, p.z⟩ X Y (√3 / 2) 0 := by rw [← hrot 0]; simp [rotZ]
      have hgap : ∀ a, gap ⟨0, 0, p.z⟩ X Y (√3 / 2) a (-(π / 3)) ^ 2 < 1e-7 := by
        intro a
        unfold gap
        rw [hC, hsd]
        norm_num
      have hm := revolveLoop_low (m := -(3 / 4)) hon hgap 4 0 p1 (encaps b p)
        (by simp only [encaps]; exact le_min hb (by rw [hy]; norm_num)) hp1
        (fun j hj => by
          rw [← hrot]
          simp only [rotZ, hx, hy]
          have := hsin j (by simpa using hj)
          nlinarith)
      simp only [Nat.cast_zero, mul_zero] at hm
      rw [← hp0, ← htg] at hm
      exact ih _ _ hm.1 hm.2 (fun p' hp' => hps p' (List.mem_cons_of_mem _ hp'))
  have hb : -(3 / 4) ≤ (bound big ⟨.cylinder (√3 / 2) 0 1, 0, -240⟩).lo.y := by
    simp only [bound, revolve]
    rw [if_neg, hd]
    · refine hlow _ _ _ (by simp only; linarith) (by simp only [zero]; norm_num) ?_
      intro p hp
      simp only [profile, List.map_cons, List.map_nil, List.mem_cons, List.not_mem_nil, or_false] at hp
      rcases hp with rfl | rfl <;> simp [rotZ, degToRad]
    · have : degToRad (-240 - 0) = -(4 * π / 3) := by unfold degToRad; ring
      rw [this, abs_neg, abs_of_pos (by positivity)]
      linarith
  rw [hl]
  linarith

theorem circleLoop_step {C X Y : V} (r d : ℝ) (h : On X Y) (n : Nat) (a : ℝ) (p1 : V) :
    circleLoop C X Y r d (n + 1) a (pt C X Y r a) (tang X Y a) p1 =
      (if gap C X Y r a d ^ 2 < 1e-7 then p1
        else add (pt C X Y r a) (smul (r * ((1 - cos d) / sin d)) (tang X Y a))) ::
      pt C X Y r (a + d) :: circleLoop C X Y r d n (a + d) (pt C X Y r (a + d)) (tang X Y (a + d))
        (if gap C X Y r a d ^ 2 < 1e-7 then p1
          else add (pt C X Y r a) (smul (r * ((1 - cos d) / sin d)) (tang X Y a))) := by
  have hP : add (add C (smul (r * cos (a + d)) X)) (smul (r * sin (a + d)) Y) = pt C X Y r (a + d) := rfl
  have hT : add (smul (-sin (a + d)) X) (smul (cos (a + d)) Y) = tang X Y (a + d) := rfl
  rw [circleLoop]
  simp only [hP, hT]
  rw [intersect_eq r a d p1 h]

theorem intersect_z {p1 t1 p2 t2 old : V} {m : ℝ} (ht : t2.z = 0) (h2 : m ≤ p2.z) (ho : m ≤ old.z) :
    m ≤ (intersect p1 t1 p2 t2 old).z := by
  unfold intersect
  simp only
  split
  · exact ho
  · simp only [add, smul, ht]; linarith

theorem revolveLoop_z {O X Y : V} {r d m : ℝ} (hX : X.z = 0) (hY : Y.z = 0) (hO : m ≤ O.z) :
    ∀ (n i : Nat) (p0 t0 p1 : V) (b : Box), m ≤ b.lo.z → m ≤ p1.z →
      m ≤ (revolveLoop O X Y r d n i p0 t0 p1 b).1.lo.z ∧ m ≤ (revolveLoop O X Y r d n i p0 t0 p1 b).2.z
  | 0, _, _, _, _, _, hb, hp => ⟨hb, hp⟩
  | n + 1, i, p0, t0, p1, b, hb, hp => by
    rw [revolveLoop]
    have h2 : m ≤ (add (add O (smul (r * cos (d * (i : ℝ))) X)) (smul (r * sin (d * (i : ℝ))) Y)).z := by
      simp only [add, smul, hX, hY]; linarith
    have h1 := intersect_z (p1 := p0) (t1 := t0)
      (t2 := add (smul (-sin (d * (i : ℝ))) X) (smul (cos (d * (i : ℝ))) Y)) (old := p1)
      (by simp [add, smul, hX, hY]) h2 hp
    refine revolveLoop_z hX hY hO n (i + 1) _ _ _ _ ?_ h1
    simp only [encaps]
    exact le_min (le_min hb h2) h1

theorem revolveAll_z {d m : ℝ} : ∀ (ps : List V) (p1 : V) (b : Box), m ≤ b.lo.z → m ≤ p1.z → (∀ p ∈ ps, m ≤ p.z) →
    m ≤ (revolveAll zero ez d ps p1 b).lo.z
  | [], _, _, hb, _, _ => hb
  | p :: ps, p1, b, hb, hp1, hps => by
    have hp := hps p List.mem_cons_self
    have hps' : ∀ p' ∈ ps, m ≤ p'.z := fun p' h => hps p' (List.mem_cons_of_mem _ h)
    rw [revolveAll, project_axis]
    simp only
    split
    · exact revolveAll_z ps _ _ (by simp only [encaps]; exact le_min hb hp) hp1 hps'
    · have hX : (unit (sub p ⟨0, 0, p.z⟩)).z = 0 := by simp [unit, sub, smul]
      have hY : (unit (cross ez (unit (sub p ⟨0, 0, p.z⟩)))).z = 0 := by simp [unit, sub, smul, cross, ez]
      have := revolveLoop_z (O := ⟨0, 0, p.z⟩) (r := mag (sub p ⟨0, 0, p.z⟩)) (d := d) hX hY hp 4 1 p
        (unit (cross ez (unit (sub p ⟨0, 0, p.z⟩)))) p1 (encaps b p)
        (by simp only [encaps]; exact le_min hb hp) hp1
      exact revolveAll_z ps _ _ this.1 this.2 hps'

/-- A torus whose profile starts at 45 degrees, with radii for which the tangents at the inner arcs are not found to
intersect: its lowest part is outside of the bound by a quarter of the minor radius. -/
theorem C80_torus_violated (big : ℝ) (hbig : 1 ≤ big) :
    (surf ⟨.torus (2 * √2) 1 45 405, 0, 360⟩ 0 (5 / 8)).z + 1 / 4 ≤
      (bound big ⟨.torus (2 * √2) 1 45 405, 0, 360⟩).lo.z := by
  have h2 : √(2 : ℝ) * √2 = 2 := mul_self_sqrt (by norm_num)
  have h2u : √(2 : ℝ) ≤ 3 / 2 := sqrt_le_iff.mpr ⟨by norm_num, by norm_num⟩
  have h2p : 0 ≤ √(2 : ℝ) := sqrt_nonneg _
  have hl : (surf ⟨.torus (2 * √2) 1 45 405, 0, 360⟩ 0 (5 / 8)).z = -1 := by
    have ha : mix 45 405 (5 / 8) * π / 180 = π / 2 + π := by unfold mix; ring
    simp only [surf, curve, ha, sin_add_pi, sin_pi_div_two]
    ring
  have hc : ∀ p ∈ profile (.torus (2 * √2) 1 45 405), -(3 / 4) ≤ p.z := by
    have m1 : min (45 : ℝ) 405 = 45 := by norm_num
    have m2 : max (45 : ℝ) 405 = 405 := by norm_num
    have a1 : degToRad 45 = π / 4 := by unfold degToRad; ring
    have hd : (degToRad 405 - degToRad 45) / 4 = π / 2 := by unfold degToRad; ring
    have c1 : cos (π / 4) = √2 / 2 := cos_pi_div_four
    have s1 : sin (π / 4) = √2 / 2 := sin_pi_div_four
    have c2 : cos (π / 4 + π / 2) = -(√2 / 2) := by rw [cos_add_pi_div_two, s1]
    have s2 : sin (π / 4 + π / 2) = √2 / 2 := by rw [sin_add_pi_div_two, c1]
    have c3 : cos (π / 4 + π / 2 + π / 2) = -(√2 / 2) := by rw [cos_add_pi_div_two, s2]
    have s3 : sin (π / 4 + π / 2 + π / 2) = -(√2 / 2) := by rw [sin_add_pi_div_two, c2]
    have c4 : cos (π / 4 + π / 2 + π / 2 + π / 2) = √2 / 2 := by rw [cos_add_pi_div_two, s3, neg_neg]
    have s4 : sin (π / 4 + π / 2 + π / 2 + π / 2) = -(√2 / 2) := by rw [sin_add_pi_div_two, c3]
    have s5 : sin (π / 4 + π / 2 + π / 2 + π / 2 + π / 2) = √2 / 2 := by rw [sin_add_pi_div_two, c4]
    have hg : ∀ a : ℝ, gap ⟨2 * √2, 0, 0⟩ ⟨1, 0, 0⟩ ⟨0, 0, 1⟩ 1 a (π / 2) = 2 * √2 * cos a + 1 + 1 := by
      intro a; simp [gap, dot, out, add, smul]
    have g1 : ¬ gap ⟨2 * √2, 0, 0⟩ ⟨1, 0, 0⟩ ⟨0, 0, 1⟩ 1 (π / 4) (π / 2) ^ 2 < 1e-7 := by
      rw [hg, c1, show 2 * √2 * (√2 / 2) + 1 + 1 = (4 : ℝ) by linarith]; norm_num
    have g2 : gap ⟨2 * √2, 0, 0⟩ ⟨1, 0, 0⟩ ⟨0, 0, 1⟩ 1 (π / 4 + π / 2) (π / 2) ^ 2 < 1e-7 := by
      rw [hg, c2, show 2 * √2 * -(√2 / 2) + 1 + 1 = (0 : ℝ) by linarith]; norm_num
    have g3 : gap ⟨2 * √2, 0, 0⟩ ⟨1, 0, 0⟩ ⟨0, 0, 1⟩ 1 (π / 4 + π / 2 + π / 2) (π / 2) ^ 2 < 1e-7 := by
      rw [hg, c3, show 2 * √2 * -(√2 / 2) + 1 + 1 = (0 : ℝ) by linarith]; norm_num
    have g4 : ¬ gap ⟨2 * √2, 0, 0⟩ ⟨1, 0, 0⟩ ⟨0, 0, 1⟩ 1 (π / 4 + π / 2 + π / 2 + π / 2) (π / 2) ^ 2 < 1e-7 := by
      rw [hg, c4, show 2 * √2 * (√2 / 2) + 1 + 1 = (4 : ℝ) by linarith]; norm_num
    have hz : ∀ a : ℝ, (pt ⟨2 * √2, 0, 0⟩ ⟨1, 0, 0⟩ ⟨0, 0, 1⟩ 1 a).z = sin a := by
      intro a; simp [pt, add, smul]
    have hq : ∀ a : ℝ, (add (pt ⟨2 * √2, 0, 0⟩ ⟨1, 0, 0⟩ ⟨0, 0, 1⟩ 1 a)
        (smul (1 * ((1 - cos (π / 2)) / sin (π / 2))) (tang ⟨1, 0, 0⟩ ⟨0, 0, 1⟩ a))).z = sin a + cos a := by
      intro a; simp [pt, tang, add, smul]
    intro p hp
    have he : profile (.torus (2 * √2) 1 45 405) =
        pt ⟨2 * √2, 0, 0⟩ ⟨1, 0, 0⟩ ⟨0, 0, 1⟩ 1 (π / 4) ::
          circleLoop ⟨2 * √2, 0, 0⟩ ⟨1, 0, 0⟩ ⟨0, 0, 1⟩ 1 (π / 2) 4 (π / 4)
            (pt ⟨2 * √2, 0, 0⟩ ⟨1, 0, 0⟩ ⟨0, 0, 1⟩ 1 (π / 4)) (tang ⟨1, 0, 0⟩ ⟨0, 0, 1⟩ (π / 4)) zero := by
      simp only [profile, circle, m1, m2, hd]
      rw [a1]
      rfl
    rw [he, circleLoop_step _ _ on_xz, if_neg g1, circleLoop_step _ _ on_xz, if_pos g2, circleLoop_step _ _ on_xz,
      if_pos g3, circleLoop_step _ _ on_xz, if_neg g4, circleLoop] at hp
    simp only [List.mem_cons, List.not_mem_nil, or_false] at hp
    rcases hp with rfl | rfl | rfl | rfl | rfl | rfl | rfl | rfl | rfl <;>
      first
        | (rw [hz]; first | rw [s1] | rw [s2] | rw [s3] | rw [s4] | rw [s5])
        | (rw [hq]; first | rw [s1, c1] | rw [s4, c4])
    all_goals linarith
  have hb : -(3 / 4) ≤ (bound big ⟨.torus (2 * √2) 1 45 405, 0, 360⟩).lo.z := by
    simp only [bound, revolve]
    refine revolveAll_z _ _ _ (by simp only; linarith) (by simp only [zero]; norm_num) ?_
    intro p hp
    obtain ⟨p', hp', rfl⟩ := List.mem_map.mp hp
    exact hc p' hp'
  rw [hl]
  linarith

/-- C80: the centre of a circle of revolution is the foot of the perpendicular from the point to the axis, for
any axis. -/
theorem C80_project (s t p : V) (ht : t ≠ ⟨0, 0, 0⟩) :
    (p.x - (project s t p).x) * t.x + (p.y - (project s t p).y) * t.y + (p.z - (project s t p).z) * t.z = 0 ∧
    ∃ k : ℝ, project s t p = ⟨s.x + k * t.x, s.y + k * t.y, s.z + k * t.z⟩ := by
  have hd : t.x * t.x + t.y * t.y + t.z * t.z ≠ 0 := by
    intro h
    apply ht
    have hx := mul_self_nonneg t.x
    have hy := mul_self_nonneg t.y
    have hz := mul_self_nonneg t.z
    ext
    · exact mul_self_eq_zero.mp (by linarith)
    · exact mul_self_eq_zero.mp (by linarith)
    · exact mul_self_eq_zero.mp (by linarith)
  constructor
  · have hd' : dot t t ≠ 0 := hd
    have e : project s t p = add (smul (dot t (sub p s) / dot t t) t) s := by
      simp only [project, if_neg hd']
    rw [e]
    have hk : dot t (sub p s) / dot t t * dot t t = dot t (sub p s) := div_mul_cancel₀ _ hd'
    generalize dot t (sub p s) / dot t t = k at hk ⊢
    simp only [add, sub, smul, dot] at hk ⊢
    linarith
  · refine ⟨dot t (sub p s) / dot t t, ?_⟩
    have hd' : dot t t ≠ 0 := hd
    simp only [project, if_neg hd', add, smul, V.mk.injEq]
    exact ⟨by ring, by ring, by ring⟩

example : (project ⟨1, 0, 0⟩ ⟨0, 2, 0⟩ ⟨4, 5, 6⟩) = ⟨1, 5, 0⟩ := by
  simp [project, dot, sub, add, smul]
  norm_num

end Verif.Geom.Quadric
