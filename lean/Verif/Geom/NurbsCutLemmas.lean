import Verif.Geom.NurbsLemmas
/-!
# Lemmas on NURBS: cutting a curve
-/
namespace Verif.Geom.Nurbs
open Verif.Geom.BSpline Verif.Geom.Trim

set_option linter.unusedSectionVars false

variable {K : Type} [Field K] [LinearOrder K] [IsStrictOrderedRing K] {V : Type} [AddCommGroup V] [Module K V]

theorem findSpan_strict (c : Curve K V) (h : Wf c) (u : K) (h1 : c.knots c.degree < u) (h2 : u < c.knots c.n) :
    ∃ j, c.findSpan u = some j ∧ c.degree ≤ j ∧ j < c.n ∧ c.knots j ≤ u ∧ u < c.knots (j + 1) := by
  have ho := h.order
  have hp := h.pts
  have hd : c.degree + 1 = c.order := by unfold Curve.degree; omega
  unfold Curve.findSpan
  rw [if_neg (not_le.2 h2), if_neg (not_le.2 h1)]
  obtain ⟨j, e, a, b, d⟩ := findLoop_spec c.knots c.n c.cKnots u (by unfold Curve.cKnots; omega) h2 (c.n + 2) 0 (c.n + 1) (by omega) (by omega)
    (by omega) ((h.mono 0 c.degree (by omega) (by omega)).trans h1.le) (fun h => by omega) (by omega)
  refine ⟨j, e, ?_, a, b, d⟩
  by_contra hc
  push Not at hc
  exact absurd (h.mono (j + 1) c.degree (by omega) (by omega)) (not_le.2 (h1.trans d))

/-! ## The search for the split point -/

theorem countBwd_spec (T : Nat → K) (x : K) (i middex same : Nat) (hm : i < middex) (h1 : ∃ b, 1 ≤ b ∧ b ≤ i ∧ T b ≠ x) :
    ∃ b, 1 ≤ b ∧ b ≤ i ∧ T b ≠ x ∧ (∀ y, b < y → y ≤ i → T y = x) ∧ countBwd T x i middex same = (b, middex - (i - b), same + (i - b)) := by
  induction i generalizing middex same with
  | zero => obtain ⟨b, _, _, _⟩ := h1; omega
  | succ i ih =>
    unfold countBwd
    by_cases h : T (i + 1) = x
    · rw [if_pos h]
      obtain ⟨b, b1, b2, b3⟩ := h1
      obtain ⟨d, d1, d2, d3, d4, e⟩ := ih (middex - 1) (same + 1) (by omega) ⟨b, b1, by
        by_contra hc
        have : b = i + 1 := by omega
        exact b3 (this ▸ h), b3⟩
      refine ⟨d, d1, by omega, d3, fun y y1 y2 => ?_, ?_⟩
      · by_cases hy : y = i + 1
        · rw [hy]; exact h
        · exact d4 y y1 (by omega)
      · rw [e]
        congr 2 <;> omega
    · rw [if_neg h]
      exact ⟨i + 1, by omega, le_refl _, h, fun y _ _ => by omega, by simp⟩

theorem lastBelow_spec (T : Nat → K) (x : K) (size a : Nat) (ha : a + 1 < size) (h1 : ∀ i, i ≤ a → T i < x) (h2 : ¬ T (a + 1) < x) (f i : Nat)
    (hi : i ≤ a) (hf : a < i + f) : lastBelow T x size f i = some a := by
  induction f generalizing i with
  | zero => omega
  | succ f ih =>
    unfold lastBelow
    rw [if_neg (by omega)]
    by_cases h : i = a
    · subst h
      rw [if_neg h2]
    · rw [if_pos (h1 _ (by omega)), ih (i + 1) (by omega) (by omega)]

/-- No knot occurs more often than the order. -/
def Simple (c : Curve K V) : Prop := ∀ i, i + c.order ≤ c.n + c.degree → c.knots i < c.knots (i + c.order)

/-- The curve `c'` is `c` with `x` as a knot of full multiplicity; `e` is the last point before it. -/
structure CutAt (c c' : Curve K V) (x : K) (e : Nat) : Prop where
  wf : Wf c'
  order : c'.order = c.order
  grow : c.n ≤ c'.n
  left : c.degree ≤ e
  right : e + c.order < c'.n
  lo : ∀ i, i ≤ e → c'.knots i = c.knots i ∧ c.knots i < x
  mid : ∀ i, e < i → i ≤ e + c.order → c'.knots i = x
  hi : ∀ i, e + c.order < i → i ≤ c'.n + c.degree → c'.n - c.n ≤ i ∧ c'.knots i = c.knots (i - (c'.n - c.n)) ∧ x < c'.knots i
  above : ∀ i, e < i → i ≤ c.n + c.degree → x ≤ c.knots i
  start : c'.knots c.degree = c.knots c.degree
  fin : c'.knots c'.n = c.knots c.n
  spline : ∀ u, c.knots c.degree ≤ u → u < c.knots c.n → c'.spline u = c.spline u
  seam : c.n < c'.n → c'.pts e = c'.pts (e + 1)
  simple : Simple c'
  full : c'.n = c.n → ∀ i, e < i → i ≤ e + c.order → c.knots i = x
  firstPts : ∀ i, i + c.degree ≤ e → c'.pts i = c.pts i
  lastPt : c'.pts (c'.n - 1) = c.pts (c.n - 1)

theorem cut_spec (c : Curve K V) (h : Wf c) (hs : Simple c) (hp : 1 ≤ c.degree) (x : K) (hx : c.knots c.degree < x) (hx' : x < c.knots c.n) :
    ∃ e c', cut c x = some (e, c') ∧ CutAt c c' x e := by
  have ho := h.order
  have hpt := h.pts
  have hd : c.order = c.degree + 1 := by unfold Curve.degree; omega
  obtain ⟨a, ea, a1, a2, a3, a4⟩ := findSpan_strict c h x hx hx'
  -- the place
  obtain ⟨e, he⟩ : ∃ e, c.degree ≤ e ∧ e ≤ a ∧ (∀ i, i ≤ e → c.knots i < x) ∧ (∀ i, e < i → i ≤ a → c.knots i = x) ∧ a - e ≤ c.order ∧
      cut c x = (refine c (List.replicate (c.order - (a - e)) x)).map fun c' => (e, c') := by
    unfold cut
    simp only
    rw [ea, Option.bind_some]
    by_cases hk : c.knots a = x
    · have ha0 : a ≠ c.degree := by rintro rfl; exact absurd hk hx.ne
      have hfw : countFwd c.knots x (c.n + c.order - 1) (c.n + c.order - 1 + 1) (a + 1) = 0 := by
        unfold countFwd
        rw [if_neg (fun hh => absurd hh.2 a4.ne')]
      rw [if_pos hk, if_neg (by omega), hfw, Option.bind_some]
      obtain ⟨b, b1, b2, b3, b4, eb⟩ := countBwd_spec c.knots x (a - 1) a (1 + 0) (by omega) ⟨c.degree, hp, by omega, hx.ne⟩
      have hbx : c.knots b < x := lt_of_le_of_ne ((h.mono b a (by omega) (by omega)).trans a3) b3
      have hsame : a - b ≤ c.order := by
        by_contra hc
        have := hs (b + 1) (by omega)
        rw [b4 (b + 1) (by omega) (by omega)] at this
        exact absurd ((h.mono (b + 1 + c.order) a (by omega) (by omega)).trans a3) (not_le.2 this)
      have hle : c.degree ≤ b := by
        by_contra hc
        have := b4 c.degree (by omega) (by omega)
        exact absurd this hx.ne
      rw [eb]
      simp only
      have e1 : a - (a - 1 - b) = b + 1 := by omega
      have e2 : 1 + 0 + (a - 1 - b) = a - b := by omega
      rw [if_neg (by omega), Option.bind_some, e1, e2]
      simp only
      rw [if_neg (by omega), if_pos (by omega), Nat.add_sub_cancel]
      refine ⟨b, hle, by omega, fun i hi => lt_of_le_of_lt (h.mono i b hi (by omega)) hbx, fun i i1 i2 => ?_, hsame, rfl⟩
      by_cases hi : i = a
      · rw [hi]; exact hk
      · exact b4 i i1 (by omega)
    · have hlt : c.knots a < x := lt_of_le_of_ne a3 hk
      have hlo : ∀ i, i ≤ a → c.knots i < x := fun i hi => lt_of_le_of_lt (h.mono i a hi (by omega)) hlt
      rw [if_neg hk, Option.bind_some]
      simp only
      rw [if_pos trivial, lastBelow_spec c.knots x c.cKnots a (by unfold Curve.cKnots; omega) hlo (not_lt.2 a4.le) _ 0 (by omega)
        (by unfold Curve.cKnots; omega), Option.map_some, Option.bind_some]
      simp only
      rw [if_neg (by omega), if_neg (by omega)]
      refine ⟨a, a1, le_refl _, hlo, fun i i1 i2 => by omega, by omega, ?_⟩
      rw [Nat.sub_self]
  obtain ⟨e1, e2, e3, e4, e5, ecut⟩ := he
  obtain ⟨c', er, r1, r2, r3, r4⟩ := refine_eq c h x a (c.order - (a - e)) (by omega) ea a1 a2 a3 a4
  rw [ecut, er, Option.map_some]
  refine ⟨e, c', rfl, ?_⟩
  have hd' : c'.degree = c.degree := by unfold Curve.degree; rw [r1]
  have key : Wf c' ∧ c'.knots c.degree = c.knots c.degree ∧ c'.knots c'.n = c.knots c.n ∧
      ∀ u, c.knots c.degree ≤ u → u < c.knots c.n → c'.spline u = c.spline u := by
    by_cases hJ : 0 < c.order - (a - e)
    · exact insert_gen c h x a (c.order - (a - e)) hJ hx'.le a1 (by omega) a3 a4 c' r1 r2 (fun i _ => r3 i) (fun i _ => r4 i)
    · have hJ0 : c.order - (a - e) = 0 := by omega
      have : c' = c := by
        rw [hJ0] at r2 r3 r4
        obtain ⟨o', n', k', p'⟩ := c'
        obtain ⟨o, n, k, p⟩ := c
        simp only at *
        have ek : k' = k := by
          funext i
          rw [r3]
          unfold newKnots
          by_cases hi : i ≤ a
          · rw [if_pos hi]
          · rw [if_neg hi, if_neg (by omega), Nat.sub_zero]
        have ep : p' = p := by
          funext i
          rw [r4]
          rfl
        rw [r1, r2, ek, ep, Nat.add_zero]
      rw [this]
      exact ⟨h, rfl, rfl, fun _ _ _ => rfl⟩
  obtain ⟨w, k0, kE, sp⟩ := key
  have lo : ∀ i, i ≤ e → c'.knots i = c.knots i ∧ c.knots i < x := by
    intro i hi
    refine ⟨?_, e3 i hi⟩
    rw [r3]
    unfold newKnots
    rw [if_pos (by omega)]
  have mid : ∀ i, e < i → i ≤ e + c.order → c'.knots i = x := by
    intro i i1 i2
    rw [r3]
    unfold newKnots
    by_cases hi : i ≤ a
    · rw [if_pos hi]
      exact e4 i i1 hi
    · rw [if_neg hi, if_pos (by omega)]
  have hi : ∀ i, e + c.order < i → i ≤ c'.n + c.degree → c'.n - c.n ≤ i ∧ c'.knots i = c.knots (i - (c'.n - c.n)) ∧ x < c'.knots i := by
    intro i i1 i2
    have : c'.knots i = c.knots (i - (c.order - (a - e))) := by
      rw [r3]
      unfold newKnots
      rw [if_neg (by omega), if_neg (by omega)]
    have e6 : c'.n - c.n = c.order - (a - e) := by omega
    rw [e6]
    refine ⟨by omega, this, ?_⟩
    rw [this]
    exact lt_of_lt_of_le a4 (h.mono _ _ (by omega) (by omega))
  have above : ∀ i, e < i → i ≤ c.n + c.degree → x ≤ c.knots i := by
    intro i i1 i2
    by_cases hia : i ≤ a
    · rw [e4 i i1 hia]
    · exact a4.le.trans (h.mono _ _ (by omega) i2)
  refine ⟨w, r1, by omega, e1, by omega, lo, mid, hi, above, k0, kE, sp, fun hJ => ?_, ?_, fun hJ i i1 i2 => e4 i i1 (by omega), fun i hi' => ?_, ?_⟩
  · rw [r4, r4]
    obtain ⟨j, hj⟩ : ∃ j, c.order - (a - e) = j + 1 := ⟨c.order - (a - e) - 1, by omega⟩
    rw [hj, itP_lo c.t a x c.degree c.p j e (by omega), itP_hi c.t a x c.degree c.p (a - e) (fun i i1 i2 => by
      rw [t_nat c i i.toNat (by omega) (by omega)]
      exact e4 _ (by omega) (by omega)) j (by omega) _ (by push_cast; omega)]
    congr 1
    push_cast
    ring
  · intro i hi'
    rw [r1, hd'] at *
    by_cases i1 : i ≤ e
    · obtain ⟨l1, l2⟩ := lo i i1
      rw [l1]
      by_cases i2 : i + c.order ≤ e
      · rw [(lo _ i2).1]
        exact hs i (by omega)
      · rw [mid _ (by omega) (by omega)]
        exact l2
    · obtain ⟨g1, g2, g3⟩ := hi (i + c.order) (by omega) hi'
      by_cases i2 : i ≤ e + c.order
      · rw [mid i (by omega) i2]
        exact g3
      · obtain ⟨f1, f2, f3⟩ := hi i (by omega) (by omega)
        rw [g2, f2]
        have : i + c.order - (c'.n - c.n) = i - (c'.n - c.n) + c.order := by omega
        rw [this]
        exact hs _ (by omega)
  · rw [r4, itP_lo' c.t a x c.degree c.p 0 _ (by omega) i (by push_cast; omega)]
    rfl
  · have := itP_hi' c.t a x c.degree c.p (a - e) (fun i i1 i2 => by
      rw [t_nat c i i.toNat (by omega) (by omega)]
      exact e4 _ (by omega) (by omega)) 0 (c.order - (a - e)) (by omega) ((c.n - 1 : ℕ) : ℤ) (by omega)
    rw [Nat.zero_add] at this
    have e7 : ((c.n - 1 : ℕ) : ℤ) + ((c.order - (a - e) : ℕ) : ℤ) = ((c'.n - 1 : ℕ) : ℤ) := by omega
    rw [e7] at this
    rw [r4, this]
    rfl

/-! ## Parts -/

/-- A part is the same curve on its own domain. -/
theorem part_spec (c : Curve K V) (h : Wf c) (off fin : Nat) (h1 : off + c.order ≤ fin + 1) (h2 : fin < c.n) :
    Wf (part c off fin) ∧ ∀ u, c.knots (off + c.degree) ≤ u → u < c.knots (fin + 1) → (part c off fin).spline u = c.spline u := by
  have ho := h.order
  have hd : c.order = c.degree + 1 := by unfold Curve.degree; omega
  obtain ⟨q, hq⟩ : ∃ q, q = part c off fin := ⟨_, rfl⟩
  have qo : q.order = c.order := by rw [hq]; rfl
  have qn : q.n = fin + 1 - off := by rw [hq]; rfl
  have qd : q.degree = c.degree := by unfold Curve.degree; rw [qo]
  have qk : ∀ i, q.knots i = c.knots (off + i) := fun i => by rw [hq]; rfl
  have qp : ∀ i, q.pts i = c.pts (off + i) := fun i => by rw [hq]; rfl
  rw [← hq]
  have w : Wf q := by
    refine ⟨by omega, by omega, fun i j hij hj => ?_⟩
    rw [qk, qk]
    exact h.mono _ _ (by omega) (by omega)
  refine ⟨w, fun u hu hu' => ?_⟩
  have e0 : off + (fin + 1 - off) = fin + 1 := by omega
  obtain ⟨j, j1, j2, j3, j4⟩ := exists_span q w u (by rw [qk, qd]; exact hu) (by rw [qk, qn, e0]; exact hu')
  rw [spline_deBoor q w u j j1 j2 j3 j4]
  rw [qk] at j3 j4
  have e1 : off + (j + 1) = j + off + 1 := by omega
  have e2 : off + j = j + off := by omega
  rw [e1] at j4
  rw [e2] at j3
  rw [spline_deBoor c h u (j + off) (by omega) (by omega) j3 j4, qd]
  have := deBoor_shift c.t off j u c.degree c.p
  have e5 : (j : ℤ) + (off : ℤ) = ((j + off : ℕ) : ℤ) := by push_cast; rfl
  rw [e5] at this
  rw [← this]
  apply deBoor_congr
  · intro i h1 h2
    rw [t_nat q i i.toNat (by omega) (by omega), t_nat c (i + off) (i.toNat + off) (by omega) (by omega), qk]
    congr 1
    omega
  · intro i h1 h2
    show q.pts i.toNat = c.pts (i + off).toNat
    rw [qp]
    congr 1
    omega

/-- The curve on its closed domain: at the end it is the last point. Specification. -/
def value (c : Curve K V) (u : K) : V := if u < c.knots c.n then c.spline u else c.pts (c.n - 1)

/-- The knots of a curve as the code wants them: in order, none more often than the order, the first and the last one as often as the order. -/
structure Legal (c : Curve K V) : Prop where
  wf : Wf c
  simple : Simple c
  first : c.knots 0 = c.knots c.degree
  last : c.knots c.n = c.knots (c.n + c.degree)

theorem Legal.lt (c : Curve K V) (h : Legal c) : c.knots c.degree < c.knots (c.degree + 1) ∧ c.knots (c.n - 1) < c.knots c.n ∧
    c.knots c.degree < c.knots c.n := by
  have ho := h.wf.order
  have hp := h.wf.pts
  have hd : c.order = c.degree + 1 := by unfold Curve.degree; omega
  have l1 : c.knots c.degree < c.knots (c.degree + 1) := by
    rw [← h.first]
    have := h.simple 0 (by omega)
    rw [Nat.zero_add, hd] at this
    exact this
  have l2 : c.knots (c.n - 1) < c.knots c.n := by
    rw [h.last]
    have := h.simple (c.n - 1) (by omega)
    have e : c.n - 1 + c.order = c.n + c.degree := by omega
    rw [e] at this
    exact this
  exact ⟨l1, l2, lt_of_lt_of_le l1 (h.wf.mono _ _ (by omega) (by omega))⟩

/-- A part between two places of full multiplicity is legal. -/
theorem part_legal (c : Curve K V) (h : Wf c) (hs : Simple c) (off fin : Nat) (h1 : off + c.order ≤ fin + 1) (h2 : fin < c.n)
    (e1 : c.knots off = c.knots (off + c.degree)) (e2 : c.knots (fin + 1) = c.knots (fin + 1 + c.degree)) : Legal (part c off fin) := by
  have ho := h.order
  have hd : c.order = c.degree + 1 := by unfold Curve.degree; omega
  have e0 : off + (fin + 1 - off) = fin + 1 := by omega
  refine ⟨(part_spec c h off fin h1 h2).1, fun i hi => ?_, ?_, ?_⟩
  · show c.knots (off + i) < c.knots (off + (i + c.order))
    have hi' : i + c.order ≤ (fin + 1 - off) + c.degree := hi
    rw [← Nat.add_assoc]
    exact hs (off + i) (by omega)
  · exact e1
  · show c.knots (off + (fin + 1 - off)) = c.knots (off + ((fin + 1 - off) + c.degree))
    rw [← Nat.add_assoc, e0]
    exact e2

/-- At the start of its domain the curve is its first point. -/
theorem Legal.spline_start (c : Curve K V) (h : Legal c) : c.spline (c.knots c.degree) = c.pts 0 := by
  have ho := h.wf.order
  have hp := h.wf.pts
  have hd : c.order = c.degree + 1 := by unfold Curve.degree; omega
  obtain ⟨l1, -, -⟩ := h.lt c
  rw [spline_deBoor c h.wf _ c.degree (le_refl _) (by omega) (le_refl _) l1, deBoor_start]
  · show c.pts ((c.degree : ℤ) - (c.degree : ℤ)).toNat = c.pts 0
    rw [sub_self]
    rfl
  · intro i h1 h2
    rw [t_nat c i i.toNat (by omega) (by omega)]
    apply le_antisymm (h.wf.mono _ _ (by omega) (by omega))
    rw [← h.first]
    exact h.wf.mono _ _ (by omega) (by omega)

/-- `SplitNURBS` for one row. -/
theorem split_spec (c : Curve K V) (h : Legal c) (hp : 1 ≤ c.degree) :
    ∃ A B, split c = some (A, B) ∧ Legal A ∧ Legal B ∧ A.order = c.order ∧ B.order = c.order ∧
      A.knots A.degree = c.knots c.degree ∧ A.knots A.n = (c.knots c.degree + c.knots c.n) / 2 ∧
      B.knots B.degree = (c.knots c.degree + c.knots c.n) / 2 ∧ B.knots B.n = c.knots c.n ∧
      (∀ u, c.knots c.degree ≤ u → u < (c.knots c.degree + c.knots c.n) / 2 → value A u = value c u) ∧
      (∀ u, (c.knots c.degree + c.knots c.n) / 2 ≤ u → u ≤ c.knots c.n → value B u = value c u) ∧
      ((∀ i, i + c.degree ≤ c.n + c.degree → ¬ (c.knots i = (c.knots c.degree + c.knots c.n) / 2 ∧
        c.knots (i + c.degree) = (c.knots c.degree + c.knots c.n) / 2)) →
        value A ((c.knots c.degree + c.knots c.n) / 2) = value c ((c.knots c.degree + c.knots c.n) / 2)) := by
  have ho := h.wf.order
  have hpt := h.wf.pts
  have hd : c.order = c.degree + 1 := by unfold Curve.degree; omega
  obtain ⟨-, -, l3⟩ := h.lt c
  have ex : (c.knots 0 + c.knots (c.n + c.order - 1)) / 2 = (c.knots c.degree + c.knots c.n) / 2 := by
    have : c.n + c.order - 1 = c.n + c.degree := by omega
    rw [h.first, h.last, this]
  have x1 : c.knots c.degree < (c.knots c.degree + c.knots c.n) / 2 := by linarith
  have x2 : (c.knots c.degree + c.knots c.n) / 2 < c.knots c.n := by linarith
  obtain ⟨e, c', ec, hc⟩ := cut_spec c h.wf h.simple hp _ x1 x2
  unfold split
  rw [ex, ec, Option.map_some]
  have hd' : c'.degree = c.degree := by unfold Curve.degree; rw [hc.order]
  have hr := hc.right
  have hg := hc.grow
  have hl := hc.left
  generalize (c.knots c.degree + c.knots c.n) / 2 = x at *
  have k1 : c'.knots (e + 1) = x := hc.mid _ (by omega) (by omega)
  have k2 : c'.knots (e + 1 + c'.degree) = x := hc.mid _ (by omega) (by omega)
  have en : c'.n - 1 + 1 = c'.n := by omega
  have k3 : c'.knots 0 = c.knots c.degree := by rw [(hc.lo 0 (by omega)).1, h.first]
  have k4 : c'.knots (c'.n + c'.degree) = c.knots c.n := by
    obtain ⟨-, g, -⟩ := hc.hi (c'.n + c'.degree) (by omega) (by omega)
    rw [g, h.last]
    congr 1
    omega
  obtain ⟨w1, s1⟩ := part_spec c' hc.wf 0 e (by rw [hc.order]; omega) (by omega)
  obtain ⟨w2, s2⟩ := part_spec c' hc.wf (e + 1) (c'.n - 1) (by rw [hc.order]; omega) (by omega)
  rw [Nat.zero_add, k1, hd'] at s1
  rw [k2, en, hc.fin] at s2
  have L1 := part_legal c' hc.wf hc.simple 0 e (by rw [hc.order]; omega) (by omega)
    (by rw [Nat.zero_add, k3, hd', hc.start]) (by rw [k1, k2])
  have L2 := part_legal c' hc.wf hc.simple (e + 1) (c'.n - 1) (by rw [hc.order]; omega) (by omega)
    (by rw [k1, k2]) (by rw [en, k4, hc.fin])
  have kA : (part c' 0 e).knots (part c' 0 e).n = x := by
    show c'.knots (0 + (e + 1 - 0)) = _
    rw [Nat.zero_add, Nat.sub_zero, k1]
  have kB : (part c' (e + 1) (c'.n - 1)).knots (part c' (e + 1) (c'.n - 1)).n = c.knots c.n := by
    show c'.knots (e + 1 + (c'.n - 1 + 1 - (e + 1))) = _
    rw [← hc.fin]
    congr 1
    omega
  have kB0 : (part c' (e + 1) (c'.n - 1)).knots (part c' (e + 1) (c'.n - 1)).degree = x := k2
  refine ⟨_, _, rfl, L1, L2, hc.order, hc.order, ?_, kA, kB0, kB, fun u h1 h2 => ?_, fun u h1 h2 => ?_, fun hm => ?_⟩
  · show c'.knots (0 + c'.degree) = _
    rw [Nat.zero_add, hd', hc.start]
  · unfold value
    rw [if_pos (by rw [kA]; exact h2), if_pos (h2.trans x2), s1 u (by rw [hc.start]; exact h1) h2, hc.spline u h1 (h2.trans x2)]
  · unfold value
    rw [kB]
    by_cases hu : u < c.knots c.n
    · rw [if_pos hu, if_pos hu, s2 u h1 hu, hc.spline u (x1.le.trans h1) hu]
    · rw [if_neg hu, if_neg hu, ← hc.lastPt]
      show c'.pts (e + 1 + (c'.n - 1 + 1 - (e + 1) - 1)) = _
      congr 1
      omega
  · have hlt : c.n < c'.n := by
      by_contra hcn
      have hf := hc.full (by omega)
      exact hm (e + 1) (by omega) ⟨hf _ (by omega) (by omega), hf _ (by omega) (by omega)⟩
    unfold value
    rw [if_neg (by rw [kA]; exact lt_irrefl _), if_pos x2, ← hc.spline x x1.le x2, ← s2 x (le_refl _) x2]
    have := L2.spline_start
    rw [kB0] at this
    rw [this]
    show c'.pts (0 + (e + 1 - 0 - 1)) = c'.pts (e + 1 + 0)
    rw [Nat.add_zero, ← hc.seam hlt]
    congr 1
    omega

end Verif.Geom.Nurbs
