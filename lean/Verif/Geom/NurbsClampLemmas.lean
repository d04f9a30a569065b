import Verif.Geom.NurbsCutLemmas
/-!
# Lemmas on NURBS: insertion of knots and clamping
-/
namespace Verif.Geom.Nurbs
open Verif.Geom.BSpline Verif.Geom.Trim

set_option linter.unusedSectionVars false

variable {K : Type} [Field K] [LinearOrder K] [IsStrictOrderedRing K] {V : Type} [AddCommGroup V] [Module K V]

theorem countDownTo_spec (T : Nat → K) (p k : Nat) (hp : p ≤ k) : countDownTo T p k ≤ k - p ∧
    (∀ a, k ≤ a + countDownTo T p k → a ≤ k → T k ≤ T a) ∧
    (countDownTo T p k < k - p → T (k - countDownTo T p k - 1) < T (k - countDownTo T p k)) := by
  induction k with
  | zero =>
    refine ⟨by simp [countDownTo], fun a _ h => ?_, fun h => by simp at h⟩
    have : a = 0 := by omega
    rw [this]
  | succ k ih =>
    unfold countDownTo
    by_cases hpk : p < k + 1
    · rw [if_pos hpk]
      obtain ⟨i1, i2, i3⟩ := ih (by omega)
      by_cases h : T (k + 1) ≤ T k
      · rw [if_pos h]
        refine ⟨by omega, fun a h1 h2 => ?_, fun h1 => ?_⟩
        · by_cases ha : a = k + 1
          · rw [ha]
          · exact h.trans (i2 a (by omega) (by omega))
        · have := i3 (by omega)
          have e : k + 1 - (countDownTo T p k + 1) = k - countDownTo T p k := by omega
          rw [e]
          exact this
      · rw [if_neg h]
        refine ⟨by omega, fun a h1 h2 => ?_, fun _ => ?_⟩
        · have : a = k + 1 := by omega
          rw [this]
        · simpa using h
    · rw [if_neg hpk]
      refine ⟨by omega, fun a h1 h2 => ?_, fun _ => by omega⟩
      have : a = k + 1 := by omega
      rw [this]

/-- What `InsertKnot` does. -/
theorem insertKnot_cases (c : Curve K V) (h : Wf c) (x : K) (hx : c.knots c.degree ≤ x) (hx' : x ≤ c.knots c.n) (r : Nat) :
    ∃ k s : Nat, c.degree ≤ k ∧ k ≤ c.n + c.degree ∧ c.knots k ≤ x ∧ (k < c.n + c.degree → x < c.knots (k + 1)) ∧ s ≤ k + 1 ∧
      (∀ a, k < a + s → a ≤ k → c.knots a = x) ∧ (∀ a, c.degree ≤ a → a + s ≤ k → c.knots a < x) ∧
      insertKnot c x r = if min r (c.degree + 1 - s) = 0 then (0, c) else
        (min r (c.degree + 1 - s), ⟨c.order, c.n + min r (c.degree + 1 - s), newKnots c.knots x k (min r (c.degree + 1 - s)),
          newPts c.knots c.pts c.n x k s c.degree (min r (c.degree + 1 - s))⟩) := by
  have ho := h.order
  have hp := h.pts
  have hd : c.order = c.degree + 1 := by unfold Curve.degree; omega
  have hck : c.cKnots = c.n + c.degree + 1 := by unfold Curve.cKnots; omega
  obtain ⟨k, ek, k1, k2, k3⟩ := findK_spec c.knots c.cKnots x (c.cKnots + 1) 0 (by omega) (by omega) (fun a ha => by omega)
    ((h.mono 0 c.degree (by omega) (by omega)).trans hx) (by omega)
  have hkp : c.degree ≤ k := by
    by_contra hc
    push Not at hc
    exact absurd (k3 (by omega)) (not_lt.2 ((h.mono _ _ (by omega) (by omega)).trans hx))
  obtain ⟨c1, c2, c3⟩ := countDownTo_spec c.knots c.degree k hkp
  have hmul : ∃ s, s = multiplicity c.knots c.degree x k := ⟨_, rfl⟩
  obtain ⟨s, es⟩ := hmul
  have hs : s ≤ k + 1 ∧ (∀ a, k < a + s → a ≤ k → c.knots a = x) ∧ (∀ a, c.degree ≤ a → a + s ≤ k → c.knots a < x) := by
    unfold multiplicity at es
    by_cases hu : x ≤ c.knots k
    · rw [if_pos hu] at es
      have hkx : c.knots k = x := le_antisymm (k2 k (le_refl _)) hu
      refine ⟨by omega, fun a h1 h2 => le_antisymm (k2 a h2) (hu.trans (c2 a (by omega) h2)), fun a hpa ha => ?_⟩
      have := c3 (by omega)
      rw [← hkx]
      refine lt_of_le_of_lt (h.mono a (k - countDownTo c.knots c.degree k - 1) (by omega) (by omega)) (lt_of_lt_of_le this ?_)
      exact h.mono _ _ (by omega) (by omega)
    · rw [if_neg hu] at es
      refine ⟨by omega, fun a h1 h2 => by omega, fun a hpa ha => ?_⟩
      exact lt_of_le_of_lt (h.mono a k (by omega) (by omega)) (not_le.1 hu)
  refine ⟨k, s, hkp, by omega, k2 k (le_refl _), fun hk => k3 (by omega), hs.1, hs.2.1, hs.2.2, ?_⟩
  unfold insertKnot
  simp only
  rw [if_neg (by push Not; exact ⟨hx, hx'⟩), ek, ← es]
  have e : (if c.degree + 1 < r + s then c.degree + 1 - s else r) = min r (c.degree + 1 - s) := by
    split_ifs <;> omega
  rw [e]

/-- The new curve of `InsertKnot` once more: it is well formed, it has the same domain, and it is the same curve. -/
theorem insert_spline (c : Curve K V) (h : Wf c) (x : K) (k s r : Nat) (hr : 0 < r) (hrs : r + s ≤ c.degree + 1)
    (hx' : x ≤ c.knots c.n) (hkp : c.degree ≤ k) (hk0 : k ≤ c.n + c.degree) (hk1 : c.knots k ≤ x)
    (hk2 : k < c.n + c.degree → x < c.knots (k + 1)) (hs : ∀ a, k < a + s → a ≤ k → c.knots a = x) (hs' : ∀ a, c.degree ≤ a → a + s ≤ k → c.knots a < x)
    (c' : Curve K V) (hc' : c' = ⟨c.order, c.n + r, newKnots c.knots x k r, newPts c.knots c.pts c.n x k s c.degree r⟩) :
    Wf c' ∧ k < c.n + c.degree ∧ c'.knots c.degree = c.knots c.degree ∧ c'.knots c'.n = c.knots c.n ∧
      ∀ u, c.knots c.degree ≤ u → u < c.knots c.n → c'.spline u = c.spline u := by
  have ho := h.order
  have hp := h.pts
  have hd : c.order = c.degree + 1 := by unfold Curve.degree; omega
  have hkn : k < c.n + s := by
    by_contra hc
    exact absurd (hs' c.n (by omega) (by omega)) (not_lt.2 hx')
  have hkm : k < c.n + c.degree := by omega
  obtain ⟨w, k0, kE, sp⟩ := insert_gen c h x k r hr hx' hkp hkm hk1 (hk2 hkm) c' (by rw [hc']) (by rw [hc']) (fun a _ => by rw [hc'])
    (fun i hi => by
      rw [hc']
      exact newPts_eq c.knots c.pts c.t c.n x k s c.degree r hkp (by omega) hrs hkm (fun a ha => (t_nat c a a rfl ha).symm)
        (fun a h1 h2 => by rw [t_nat c a a.toNat (by omega) (by omega)]; exact hs _ (by omega) (by omega)) hkn i hi)
  exact ⟨w, hkm, k0, kE, sp⟩

/-- `InsertKnot` as a whole. -/
theorem insertKnot_spec (c : Curve K V) (h : Wf c) (x : K) (hx : c.knots c.degree ≤ x) (hx' : x ≤ c.knots c.n) (r : Nat) :
    Wf (insertKnot c x r).2 ∧ (insertKnot c x r).2.order = c.order ∧ (insertKnot c x r).2.n = c.n + (insertKnot c x r).1 ∧
      (insertKnot c x r).2.knots c.degree = c.knots c.degree ∧
      (insertKnot c x r).2.knots (insertKnot c x r).2.n = c.knots c.n ∧
      (∀ u, c.knots c.degree ≤ u → u < c.knots c.n → (insertKnot c x r).2.spline u = c.spline u) ∧
      ∃ k s : Nat, c.degree ≤ k ∧ k ≤ c.n + c.degree ∧ c.knots k ≤ x ∧ (k < c.n + c.degree → x < c.knots (k + 1)) ∧ s ≤ k + 1 ∧
      (∀ a, k < a + s → a ≤ k → c.knots a = x) ∧ (∀ a, c.degree ≤ a → a + s ≤ k → c.knots a < x) ∧ (insertKnot c x r).1 = min r (c.degree + 1 - s) ∧
      ∀ i, (insertKnot c x r).2.knots i = newKnots c.knots x k (min r (c.degree + 1 - s)) i := by
  obtain ⟨k, s, h1, h2, h3, h4, h5, h6, h7, e⟩ := insertKnot_cases c h x hx hx' r
  rw [e]
  by_cases hr : min r (c.degree + 1 - s) = 0
  · rw [if_pos hr]
    refine ⟨h, rfl, rfl, rfl, rfl, fun _ _ _ => rfl, k, s, h1, h2, h3, h4, h5, h6, h7, hr.symm, fun i => ?_⟩
    rw [hr]
    show c.knots i = _
    unfold newKnots
    by_cases hi : i ≤ k
    · rw [if_pos hi]
    · rw [if_neg hi, if_neg (by omega)]
      rfl
  · rw [if_neg hr]
    obtain ⟨w, g, k0, kE, sp⟩ := insert_spline c h x k s (min r (c.degree + 1 - s)) (by omega) (by omega) hx' h1 h2 h3 h4 h6 h7 _ rfl
    exact ⟨w, rfl, rfl, k0, kE, sp, k, s, h1, h2, h3, h4, h5, h6, h7, rfl, fun i => rfl⟩

/-- `Clamp` for simple ends: the knots before and behind the domain are replaced by its ends; the curve is the same. -/
theorem clamp_spec (c : Curve K V) (h : Wf c) (hl : c.knots c.degree < c.knots (c.degree + 1)) (hrr : c.knots (c.n - 1) < c.knots c.n) :
    Wf (clamp c) ∧ (clamp c).order = c.order ∧ (clamp c).n = c.n ∧
      (∀ i, i ≤ c.n + c.degree → (clamp c).knots i = if i ≤ c.degree then c.knots c.degree else if i < c.n then c.knots i else c.knots c.n) ∧
      ∀ u, c.knots c.degree ≤ u → u < c.knots c.n → (clamp c).spline u = c.spline u := by
  have ho := h.order
  have hp := h.pts
  have hd : c.order = c.degree + 1 := by unfold Curve.degree; omega
  -- first insertion
  obtain ⟨w1, o1, n1, a1, b1, s1, k1, m1, g1, g2, g3, g4, g5, g6, g7, r1, q1⟩ := insertKnot_spec c h (c.knots c.degree) (le_refl _)
    (h.mono _ _ (by omega) (by omega)) c.degree
  unfold clamp
  simp only
  generalize insertKnot c (c.knots c.degree) c.degree = X1 at *
  obtain ⟨x1, c1⟩ := X1
  simp only at *
  have hk1 : k1 = c.degree := by
    by_contra hc
    exact absurd (h.mono (c.degree + 1) k1 (by omega) (by omega)) (not_le.2 (lt_of_le_of_lt g3 hl))
  have hm1 : 1 ≤ m1 := by
    by_contra hc
    exact absurd (g7 c.degree (le_refl _) (by omega)) (lt_irrefl _)
  have hr1 : min c.degree (c.degree + 1 - m1) = x1 := r1.symm
  have hx1 : x1 + m1 = c.degree + 1 := by omega
  rw [hr1] at q1
  have hd1 : c1.degree = c.degree := by unfold Curve.degree; rw [o1]
  have q1' : ∀ i, i ≤ c.n + x1 + c.degree → c1.knots i = if i < x1 then c.knots i else if i ≤ c.degree + x1 then c.knots c.degree else c.knots (i - x1) := by
    intro i hi
    rw [q1]
    unfold newKnots
    by_cases h1 : i ≤ k1
    · rw [if_pos h1]
      by_cases h2 : i < x1
      · rw [if_pos h2]
      · rw [if_neg h2, if_pos (by omega)]
        exact g6 i (by omega) (by omega)
    · rw [if_neg h1, if_neg (show ¬ i < x1 by omega), hk1]
  have e1n : c1.knots (c1.n - 1) = c.knots (c.n - 1) := by
    rw [q1' _ (by omega), n1, if_neg (by omega)]
    by_cases hc : c.n + x1 - 1 ≤ c.degree + x1
    · rw [if_pos hc]; congr 1; omega
    · rw [if_neg hc]; congr 1; omega
  -- second insertion
  obtain ⟨w2, o2, n2, a2, b2, s2, k2, m2, f1, f2, f3, f4, f5, f6, f7, r2, q2⟩ := insertKnot_spec c1 w1 (c1.knots c1.n)
    (w1.mono _ _ (by rw [hd1, n1]; omega) (by omega)) (le_refl _) c1.degree
  rw [show insertKnot c1 (c.knots c.n) c1.degree = insertKnot c1 (c1.knots c1.n) c1.degree by rw [b1]]
  generalize insertKnot c1 (c1.knots c1.n) c1.degree = X2 at *
  obtain ⟨x2, c2⟩ := X2
  simp only at *
  have hk2 : c1.n ≤ k2 := by
    by_contra hc
    exact absurd (f4 (by omega)) (not_lt.2 (w1.mono _ _ (by omega) (by omega)))
  have hm2a : k2 < c1.n + m2 := by
    by_contra hc
    exact absurd (f7 c1.n (by omega) (by omega)) (lt_irrefl _)
  have hm2b : c1.n - 1 + m2 ≤ k2 := by
    by_contra hc
    have := f6 (c1.n - 1) (by omega) (by omega)
    rw [e1n, b1] at this
    exact absurd this hrr.ne
  have hr2 : min c1.degree (c1.degree + 1 - m2) = x2 := r2.symm
  have hx2 : x2 + m2 = c.degree + 1 := by omega
  rw [hr2] at q2
  have hd2 : c2.degree = c.degree := by unfold Curve.degree; rw [o2, o1]
  have q2' : ∀ i, i ≤ c.n + c.degree → c2.knots (i + x1) = if i ≤ c.degree then c.knots c.degree else if i < c.n then c.knots i else c.knots c.n := by
    intro i hi
    rw [q2, b1]
    unfold newKnots
    by_cases h1 : i < c.n
    · rw [if_pos (by omega), q1' _ (by omega), if_neg (by omega), if_pos h1]
      by_cases h2 : i ≤ c.degree
      · rw [if_pos (by omega), if_pos h2]
      · rw [if_neg (by omega), if_neg h2, Nat.add_sub_cancel]
    · rw [if_neg (show ¬ i ≤ c.degree by omega), if_neg h1]
      by_cases h2 : i + x1 ≤ k2
      · rw [if_pos h2, f6 _ (by omega) h2, b1]
      · rw [if_neg h2, if_pos (by omega)]
  -- the cut
  have hcut : (if x1 ≠ 0 ∨ x2 ≠ 0 then (⟨c2.order, c2.n - (x1 + x2), fun i => c2.knots (i + x1), fun i => c2.pts (i + x1)⟩ : Curve K V) else c2) =
      ⟨c2.order, c2.n - (x1 + x2), fun i => c2.knots (i + x1), fun i => c2.pts (i + x1)⟩ := by
    by_cases hc : x1 ≠ 0 ∨ x2 ≠ 0
    · rw [if_pos hc]
    · rw [if_neg hc]
      push Not at hc
      rw [hc.1, hc.2]
      rfl
  rw [hcut]
  obtain ⟨c3, hc3⟩ : ∃ c3 : Curve K V, c3 = ⟨c2.order, c2.n - (x1 + x2), fun i => c2.knots (i + x1), fun i => c2.pts (i + x1)⟩ := ⟨_, rfl⟩
  rw [← hc3]
  have hd3 : c3.degree = c.degree := by rw [hc3]; exact hd2
  have o3 : c3.order = c.order := by rw [hc3]; exact o2.trans o1
  have n3 : c3.n = c.n := by rw [hc3]; show c2.n - (x1 + x2) = c.n; omega
  have q3 : ∀ i, i ≤ c.n + c.degree → c3.knots i = if i ≤ c.degree then c.knots c.degree else if i < c.n then c.knots i else c.knots c.n := by
    intro i hi
    rw [hc3]
    exact q2' i hi
  have w3 : Wf c3 := by
    refine ⟨by omega, by omega, fun i j hij hj => ?_⟩
    rw [hc3]
    exact w2.mono _ _ (by omega) (by omega)
  refine ⟨w3, o3, n3, q3, fun u hu hu' => ?_⟩
  obtain ⟨j, j1, j2, j3, j4⟩ := exists_span c3 w3 u (by rw [hd3, q3 _ (by omega), if_pos (le_refl _)]; exact hu)
    (by rw [n3, q3 _ (by omega), if_neg (by omega), if_neg (by omega)]; exact hu')
  rw [spline_deBoor c3 w3 u j j1 j2 j3 j4, ← s1 u hu hu', ← s2 u (by rw [hd1, a1]; exact hu) (by rw [b1]; exact hu')]
  rw [hc3] at j3 j4
  have e4 : j + 1 + x1 = j + x1 + 1 := by omega
  simp only [e4] at j3 j4
  rw [spline_deBoor c2 w2 u (j + x1) (by omega) (by omega) j3 j4, hd3, hd2]
  have := deBoor_shift c2.t x1 j u c.degree c2.p
  have e5 : (j : ℤ) + (x1 : ℤ) = ((j + x1 : ℕ) : ℤ) := by push_cast; rfl
  rw [e5] at this
  rw [← this]
  apply deBoor_congr
  · intro i h1 h2
    rw [t_nat c3 i i.toNat (by omega) (by omega), t_nat c2 (i + x1) (i.toNat + x1) (by omega) (by omega), hc3]
  · intro i h1 h2
    show c3.pts i.toNat = c2.pts (i + x1).toNat
    rw [hc3]
    show c2.pts (i.toNat + x1) = _
    congr 1
    omega

end Verif.Geom.Nurbs
