import Verif.Geom.NurbsOpsLemmas
import Mathlib.Tactic.NormNum
/-!
# C72: NURBS surfaces

The specifications are `Curve.spline` (the recursion of Cox and de Boor) and `value` (the same on the closed domain: the last point at the end) for one
row, `Surf.spline` (the tensor product) and `Surf.value` for surfaces. `Legal`: knots in order, the first and the last one as often as the order,
none more often. `Ends`: the ends of the domain are simple towards its inside.
-/
namespace Verif.Geom.Nurbs
open Verif.Geom.BSpline Verif.Geom.Trim

set_option linter.unusedSectionVars false

variable {K : Type} [Field K] [LinearOrder K] [IsStrictOrderedRing K] {V : Type} [AddCommGroup V] [Module K V]

/-- A biquadratic surface for the examples. -/
def exSurf : Surf ℚ ℚ := ⟨3, 3, 4, 3, fun i => [0, 0, 0, 1, 2, 2, 2].getD i 2, fun i => [0, 0, 0, 1, 1, 1].getD i 1, fun i => i * i⟩

/-- The same with knots that are not clamped. -/
def openSurf : Surf ℚ ℚ := ⟨3, 3, 4, 4, fun i => i, fun i => i, fun i => i * i⟩

/-- A curve whose domain begins at a double knot. -/
def dblRow : Curve ℚ ℚ := ⟨3, 4, fun i => [-2, -1, 0, 0, 1, 2, 3].getD i 0, fun i => i⟩

theorem exLegal : exSurf.Legal := by
  have w1 : ∀ j ≤ 6, ∀ i ≤ j, exSurf.uKnots i ≤ exSurf.uKnots j := by decide +kernel
  have w2 : ∀ j ≤ 5, ∀ i ≤ j, exSurf.vKnots i ≤ exSurf.vKnots j := by decide +kernel
  have s1 : ∀ i ≤ 3, exSurf.uKnots i < exSurf.uKnots (i + 3) := by decide +kernel
  have s2 : ∀ i ≤ 2, exSurf.vKnots i < exSurf.vKnots (i + 3) := by decide +kernel
  refine ⟨⟨⟨by decide, by decide, fun i j hij hj => w1 j hj i hij⟩, fun i hi => s1 i ?_, by decide +kernel, by decide +kernel⟩,
    ⟨⟨by decide, by decide, fun i j hij hj => w2 j hj i hij⟩, fun i hi => s2 i ?_, by decide +kernel, by decide +kernel⟩⟩
  · have : i + 3 ≤ 6 := hi
    omega
  · have : i + 3 ≤ 5 := hi
    omega

/-! ## Evaluation -/

/-- The basis functions that the code computes are those of Cox and de Boor; there is no division by zero. -/
theorem C72_basis (c : Curve K K) (h : Legal c) (u : K) (h1 : c.knots c.degree ≤ u) (h2 : u < c.knots c.n) :
    ∃ j N, c.findSpan u = some j ∧ c.degree ≤ j ∧ j < c.n ∧ c.knots j ≤ u ∧ u < c.knots (j + 1) ∧ basis c.knots u j c.degree = some N ∧
      (∀ r, r ≤ c.degree → N r = cox c.t c.degree ((j - c.degree + r : ℕ) : ℤ) u) ∧ ∑ r ∈ Finset.range (c.degree + 1), N r = 1 := by
  have ho := h.wf.order
  have hp := h.wf.pts
  have hd : c.order = c.degree + 1 := by unfold Curve.degree; omega
  obtain ⟨l1, -, -⟩ := h.lt c
  obtain ⟨j, N, e, j1, j2, eb, hN⟩ := span_weights c h u h1 h2.le
  obtain ⟨j', e', -, -, j3, j4⟩ := findSpan_spec c h.wf u h1 h2 l1
  rw [e] at e'
  obtain rfl : j = j' := by simpa using e'
  refine ⟨j, N, e, j1, j2, j3, j4, eb, fun r hr => ?_, ?_⟩
  · have := hN (fun i => if i = j - c.degree + r then 1 else 0)
    rw [Finset.sum_eq_single r] at this
    · rw [if_pos rfl] at this
      simp only [smul_eq_mul, mul_one] at this
      rw [this]
      unfold value
      simp only
      rw [if_pos h2]
      unfold Curve.spline
      simp only
      rw [Finset.sum_eq_single (j - c.degree + r)]
      · rw [if_pos rfl, smul_eq_mul, mul_one]
        rfl
      · intro b _ hb
        rw [if_neg hb, smul_zero]
      · intro hb
        exact absurd (Finset.mem_range.2 (by omega)) hb
    · intro b _ hb
      rw [if_neg (by omega), smul_zero]
    · intro hb
      exact absurd (Finset.mem_range.2 (by omega)) hb
  · have := hN (fun _ => 1)
    simp only [smul_eq_mul, mul_one] at this
    rw [this]
    unfold value
    simp only
    rw [if_pos h2, spline_deBoor ⟨c.order, c.n, c.knots, fun _ => 1⟩ ⟨h.wf.order, h.wf.pts, h.wf.mono⟩ u j j1 j2 j3 j4]
    exact deBoor_const _ _ _ _ _

example : (basis (fun i => [0, 0, 0, 1, 2, 2, 2].getD i (2 : ℚ)) (3 / 2) 3 2).map (fun N => (N 0, N 1, N 2)) = some (1 / 8, 5 / 8, 1 / 4) := by decide +kernel

/-- `Evaluate` gives the tensor product of B-splines on the half open domain. -/
theorem C72_eval (s : Surf K V) (h : s.Legal) (u v : K) (hu : s.uKnots (s.uOrder - 1) ≤ u) (hu' : u < s.uKnots s.nu)
    (hv : s.vKnots (s.vOrder - 1) ≤ v) (hv' : v < s.vKnots s.nv) : s.evaluate u v = some (s.spline u v) := by
  rw [s.evaluate_value h u v hu hu'.le hv hv'.le, s.value_spline u v hu' hv']

/-- On the closed domain it gives the extension by the last row and the last column. -/
theorem C72_eval_closed (s : Surf K V) (h : s.Legal) (u v : K) (hu : s.uKnots (s.uOrder - 1) ≤ u) (hu' : u ≤ s.uKnots s.nu)
    (hv : s.vKnots (s.vOrder - 1) ≤ v) (hv' : v ≤ s.vKnots s.nv) : s.evaluate u v = some (s.value u v) := s.evaluate_value h u v hu hu' hv hv'

example : exSurf.evaluate (3 / 2) (1 / 2) = some (367 / 8) := by decide +kernel

/-- The borders of the surface are the curves of the first and last rows and columns; the corners are the control points at the corners. -/
theorem C72_borders (s : Surf K V) (h : s.Legal) (u v : K) (hu : s.uKnots (s.uOrder - 1) ≤ u) (hu' : u ≤ s.uKnots s.nu)
    (hv : s.vKnots (s.vOrder - 1) ≤ v) (hv' : v ≤ s.vKnots s.nv) :
    s.evaluate u (s.vKnots (s.vOrder - 1)) = some (value (s.row 0) u) ∧ s.evaluate u (s.vKnots s.nv) = some (value (s.row (s.nv - 1)) u) ∧
    s.evaluate (s.uKnots (s.uOrder - 1)) v = some (value (s.col 0) v) ∧ s.evaluate (s.uKnots s.nu) v = some (value (s.col (s.nu - 1)) v) ∧
    s.evaluate (s.uKnots (s.uOrder - 1)) (s.vKnots (s.vOrder - 1)) = some (s.pts 0) ∧ s.evaluate (s.uKnots s.nu) (s.vKnots (s.vOrder - 1)) = some (s.pts (s.nu - 1)) ∧
    s.evaluate (s.uKnots (s.uOrder - 1)) (s.vKnots s.nv) = some (s.pts ((s.nv - 1) * s.nu)) ∧
    s.evaluate (s.uKnots s.nu) (s.vKnots s.nv) = some (s.pts ((s.nv - 1) * s.nu + (s.nu - 1))) := by
  obtain ⟨p1, p2, -, -⟩ := h.pos s
  have cu : s.uKnots (s.uOrder - 1) < s.uKnots s.nu := (h.u.lt).2.2
  have cv : s.vKnots (s.vOrder - 1) < s.vKnots s.nv := (h.v.lt).2.2
  have st : ∀ (o n : Nat) (k : Nat → K) (P Q : Nat → V), Legal ⟨o, n, k, P⟩ → value ⟨o, n, k, Q⟩ (k (o - 1)) = Q 0 := by
    intro o n k P Q hl
    have hq : Legal (⟨o, n, k, Q⟩ : Curve K V) := Legal.of_shape ⟨o, n, k, P⟩ _ rfl hl
    unfold value
    rw [if_pos (show k (o - 1) < k n from (hq.lt).2.2)]
    exact hq.spline_start
  have en : ∀ (o n : Nat) (k : Nat → K) (Q : Nat → V), value ⟨o, n, k, Q⟩ (k n) = Q (n - 1) := by
    intro o n k Q
    unfold value
    rw [if_neg (lt_irrefl _)]
  have r0 : ∀ u, s.value u (s.vKnots (s.vOrder - 1)) = value (s.row 0) u := fun u => st s.vOrder s.nv s.vKnots _ _ h.v
  have rn : ∀ u, s.value u (s.vKnots s.nv) = value (s.row (s.nv - 1)) u := fun u => en s.vOrder s.nv s.vKnots _
  have c0 : ∀ v, s.value (s.uKnots (s.uOrder - 1)) v = value (s.col 0) v := fun v => by
    rw [s.value_cols p1 p2]
    exact st s.uOrder s.nu s.uKnots _ _ h.u
  have cn : ∀ v, s.value (s.uKnots s.nu) v = value (s.col (s.nu - 1)) v := fun v => by
    rw [s.value_cols p1 p2]
    exact en s.uOrder s.nu s.uKnots _
  have ev := fun u v a b c d => s.evaluate_value h u v a b c d
  refine ⟨?_, ?_, ?_, ?_, ?_, ?_, ?_, ?_⟩
  · rw [ev _ _ hu hu' (le_refl _) cv.le, r0]
  · rw [ev _ _ hu hu' cv.le (le_refl _), rn]
  · rw [ev _ _ (le_refl _) cu.le hv hv', c0]
  · rw [ev _ _ cu.le (le_refl _) hv hv', cn]
  · rw [ev _ _ (le_refl _) cu.le (le_refl _) cv.le, r0]
    have := st s.uOrder s.nu s.uKnots _ (fun i => s.pts (0 * s.nu + i)) h.u
    simp only [Nat.zero_mul, Nat.zero_add] at this
    rw [← this]
    unfold Surf.row
    simp only [Nat.zero_mul, Nat.zero_add]
  · rw [ev _ _ cu.le (le_refl _) (le_refl _) cv.le, r0]
    have := en s.uOrder s.nu s.uKnots (fun i => s.pts (0 * s.nu + i))
    simp only [Nat.zero_mul, Nat.zero_add] at this
    rw [← this]
    unfold Surf.row
    simp only [Nat.zero_mul, Nat.zero_add]
  · rw [ev _ _ (le_refl _) cu.le cv.le (le_refl _), rn]
    exact congrArg some (st s.uOrder s.nu s.uKnots _ (fun i => s.pts ((s.nv - 1) * s.nu + i)) h.u)
  · rw [ev _ _ cu.le (le_refl _) cv.le (le_refl _), rn]
    exact congrArg some (en s.uOrder s.nu s.uKnots (fun i => s.pts ((s.nv - 1) * s.nu + i)))

example : exSurf.evaluate 0 0 = some 0 ∧ exSurf.evaluate 2 0 = some 9 ∧ exSurf.evaluate 0 1 = some 64 ∧ exSurf.evaluate 2 1 = some 121 := by decide +kernel

/-! ## Knots -/

/-- `InsertKnotU` and `InsertKnotV` keep the curve and its domain. The number of new knots that is returned is the number of new points, and
the new knots are copies of the given one at its place. -/
theorem C72_insert (c : Curve K V) (h : Wf c) (x : K) (hx : c.knots c.degree ≤ x) (hx' : x ≤ c.knots c.n) (r : Nat) :
    Wf (insertKnot c x r).2 ∧ (insertKnot c x r).2.order = c.order ∧ (insertKnot c x r).2.n = c.n + (insertKnot c x r).1 ∧ (insertKnot c x r).1 ≤ r ∧
      (insertKnot c x r).2.knots c.degree = c.knots c.degree ∧ (insertKnot c x r).2.knots (insertKnot c x r).2.n = c.knots c.n ∧
      (∀ u, c.knots c.degree ≤ u → u < c.knots c.n → (insertKnot c x r).2.spline u = c.spline u) ∧
      ∃ k, c.degree ≤ k ∧ k ≤ c.n + c.degree ∧ c.knots k ≤ x ∧ (k < c.n + c.degree → x < c.knots (k + 1)) ∧
        ∀ i, (insertKnot c x r).2.knots i = if i ≤ k then c.knots i else if i ≤ k + (insertKnot c x r).1 then x else c.knots (i - (insertKnot c x r).1) := by
  obtain ⟨a1, a2, a3, a4, a5, a6, k, s, k1, k2, k3, k4, -, -, -, k5, k6⟩ := insertKnot_spec c h x hx hx' r
  refine ⟨a1, a2, a3, by omega, a4, a5, a6, k, k1, k2, k3, k4, fun i => ?_⟩
  rw [k6, ← k5]
  rfl

/-- Enough knots are inserted: inside the domain as many as asked for, up to the multiplicity `order`. -/
theorem C72_insert_count (c : Curve K V) (h : Wf c) (x : K) (hx : c.knots c.degree < x) (hx' : x ≤ c.knots c.n) (r : Nat) :
    ∃ s, (insertKnot c x r).1 = min r (c.degree + 1 - s) ∧ ∃ k, ∀ i, i ≤ c.n + c.degree → (c.knots i = x ↔ k < i + s ∧ i ≤ k) := by
  have ho := h.order
  have hp := h.pts
  have hd : c.order = c.degree + 1 := by unfold Curve.degree; omega
  obtain ⟨-, -, -, -, -, -, k, s, k1, k2, k3, k4, hs, k5, k6, k7, -⟩ := insertKnot_spec c h x hx.le hx' r
  refine ⟨s, k7, k, fun i hi => ⟨fun e => ⟨?_, ?_⟩, fun e => k5 i e.1 e.2⟩⟩
  · by_contra hc
    by_cases hpi : c.degree ≤ i
    · exact absurd e (k6 i hpi (by omega)).ne
    · exact absurd e (lt_of_le_of_lt (h.mono i c.degree (by omega) (by omega)) hx).ne
  · by_contra hc
    refine absurd e (lt_of_lt_of_le (k4 (by omega)) (h.mono _ _ (by omega) hi)).ne'

example : (insertKnot (openSurf.row 0) 2 2).1 = 2 ∧ (insertKnot (openSurf.row 0) (5 / 2) 5).1 = 3 := by decide +kernel

/-- Clamping gives legal knots and the same surface, if the ends are simple. Missing: domains that begin or end at knots that occur
several times on the inside (see `C72_clamp_violated`). -/
theorem C72_clamp_partial (s : Surf K V) (hu : Ends (s.row 0)) (hv : Ends (s.col 0)) :
    s.clamp.Legal ∧ s.clamp.uOrder = s.uOrder ∧ s.clamp.vOrder = s.vOrder ∧ s.clamp.nu = s.nu ∧ s.clamp.nv = s.nv ∧
      (∀ i, i ≤ s.nu + (s.uOrder - 1) → s.clamp.uKnots i =
        if i ≤ s.uOrder - 1 then s.uKnots (s.uOrder - 1) else if i < s.nu then s.uKnots i else s.uKnots s.nu) ∧
      (∀ i, i ≤ s.nv + (s.vOrder - 1) → s.clamp.vKnots i =
        if i ≤ s.vOrder - 1 then s.vKnots (s.vOrder - 1) else if i < s.nv then s.vKnots i else s.vKnots s.nv) ∧
      ∀ u v, s.uKnots (s.uOrder - 1) ≤ u → u < s.uKnots s.nu → s.vKnots (s.vOrder - 1) ≤ v → v < s.vKnots s.nv →
        s.clamp.evaluate u v = some (s.spline u v) := by
  obtain ⟨l, a1, a2, a3, a4, a5, a6, a7⟩ := s.clamp_spec hu hv
  have w1 : 1 ≤ s.uOrder := hu.wf.order
  have w2 : s.uOrder ≤ s.nu := hu.wf.pts
  have w3 : 1 ≤ s.vOrder := hv.wf.order
  have w4 : s.vOrder ≤ s.nv := hv.wf.pts
  refine ⟨l, a1, a2, a3, a4, a5, a6, fun u v h1 h2 h3 h4 => ?_⟩
  rw [s.clamp.evaluate_value l u v, a7 u v h1 h2 h3 h4, s.value_spline u v h2 h4]
  · rw [a1, a5 _ (by omega), if_pos (le_refl _)]; exact h1
  · rw [a3, a5 _ (by omega), if_neg (by omega), if_neg (lt_irrefl _)]; exact h2.le
  · rw [a2, a6 _ (by omega), if_pos (le_refl _)]; exact h3
  · rw [a4, a6 _ (by omega), if_neg (by omega), if_neg (lt_irrefl _)]; exact h4.le

example : openSurf.clamp.evaluate (5 / 2) (5 / 2) = some (117 / 4) := by decide +kernel

/-- A domain that begins at a double knot is not clamped, although the knots are legal: the first three knots differ. -/
theorem C72_clamp_violated : Wf dblRow ∧ Simple dblRow ∧ (clamp dblRow).knots 0 ≠ (clamp dblRow).knots (clamp dblRow).degree := by
  have w : ∀ j ≤ 6, ∀ i ≤ j, dblRow.knots i ≤ dblRow.knots j := by decide +kernel
  have s : ∀ i ≤ 3, dblRow.knots i < dblRow.knots (i + 3) := by decide +kernel
  refine ⟨⟨by decide, by decide, fun i j hij hj => w j hj i hij⟩, fun i hi => s i ?_, by decide +kernel⟩
  have : i + 3 ≤ 6 := hi
  omega

/-- `RefineKnotU` and `RefineKnotV` with equal knots inside the domain: the same curve with these knots at their place. -/
theorem C72_refine (c : Curve K V) (h : Wf c) (x : K) (hx : c.knots c.degree < x) (hx' : x < c.knots c.n) (J : Nat) (hJ : J ≤ c.order) :
    ∃ a c', c.findSpan x = some a ∧ refine c (List.replicate J x) = some c' ∧ Wf c' ∧ c'.order = c.order ∧ c'.n = c.n + J ∧
      (∀ i, c'.knots i = if i ≤ a then c.knots i else if i ≤ a + J then x else c.knots (i - J)) ∧
      ∀ u, c.knots c.degree ≤ u → u < c.knots c.n → c'.spline u = c.spline u := by
  obtain ⟨a, ea, a1, a2, a3, a4⟩ := findSpan_strict c h x hx hx'
  by_cases hJ0 : J = 0
  · subst hJ0
    refine ⟨a, c, ea, rfl, h, rfl, rfl, fun i => ?_, fun _ _ _ => rfl⟩
    by_cases hi : i ≤ a
    · rw [if_pos hi]
    · rw [if_neg hi, if_neg (by omega)]
      rfl
  · obtain ⟨c', er, r1, r2, r3, r4⟩ := refine_eq c h x a J hJ ea a1 a2 a3 a4
    obtain ⟨w, -, -, sp⟩ := insert_gen c h x a J (by omega) hx'.le a1 (by have := h.order; unfold Curve.degree; omega) a3 a4 c' r1 r2 (fun i _ => r3 i) (fun i _ => r4 i)
    exact ⟨a, c', ea, er, w, r1, r2, r3, sp⟩

example : (refine (openSurf.row 0) [5 / 2, 5 / 2]).map (fun c => (c.n, (List.range 9).map c.knots)) =
    some (6, [0, 1, 2, 5 / 2, 5 / 2, 3, 4, 5, 6]) := by decide +kernel

/-! ## Splitting -/

/-- `SplitNURBS` in the u direction: two legal surfaces that meet in the middle of the domain and together are the given surface. -/
theorem C72_splitU (s : Surf K V) (h : s.Legal) (hp : 2 ≤ s.uOrder) :
    ∃ A B, s.split true = some (A, B) ∧ A.Legal ∧ B.Legal ∧
      (A.uOrder = s.uOrder ∧ A.vOrder = s.vOrder ∧ A.nv = s.nv ∧ A.vKnots = s.vKnots) ∧
      (B.uOrder = s.uOrder ∧ B.vOrder = s.vOrder ∧ B.nv = s.nv ∧ B.vKnots = s.vKnots) ∧
      A.uKnots (A.uOrder - 1) = s.uKnots (s.uOrder - 1) ∧ A.uKnots A.nu = (s.uKnots (s.uOrder - 1) + s.uKnots s.nu) / 2 ∧
      B.uKnots (B.uOrder - 1) = (s.uKnots (s.uOrder - 1) + s.uKnots s.nu) / 2 ∧ B.uKnots B.nu = s.uKnots s.nu ∧
      ∀ v, s.vKnots (s.vOrder - 1) ≤ v → v ≤ s.vKnots s.nv →
        (∀ u, s.uKnots (s.uOrder - 1) ≤ u → u < (s.uKnots (s.uOrder - 1) + s.uKnots s.nu) / 2 → A.evaluate u v = s.evaluate u v) ∧
        (∀ u, (s.uKnots (s.uOrder - 1) + s.uKnots s.nu) / 2 ≤ u → u ≤ s.uKnots s.nu → B.evaluate u v = s.evaluate u v) ∧
        ((∀ i, i ≤ s.nu → ¬ (s.uKnots i = (s.uKnots (s.uOrder - 1) + s.uKnots s.nu) / 2 ∧
            s.uKnots (i + (s.uOrder - 1)) = (s.uKnots (s.uOrder - 1) + s.uKnots s.nu) / 2)) →
          A.evaluate ((s.uKnots (s.uOrder - 1) + s.uKnots s.nu) / 2) v = s.evaluate ((s.uKnots (s.uOrder - 1) + s.uKnots s.nu) / 2) v) := by
  have cu : s.uKnots (s.uOrder - 1) < s.uKnots s.nu := (h.u.lt).2.2
  obtain ⟨A, B, e, lA, lB, ⟨a1, a2, a3, a4⟩, ⟨b1, b2, b3, b4⟩, k1, k2, k3, k4, v1, v2, v3⟩ := s.splitU_spec h hp
  unfold Surf.midU at *
  have x1 : s.uKnots (s.uOrder - 1) < (s.uKnots (s.uOrder - 1) + s.uKnots s.nu) / 2 := by linarith
  have x2 : (s.uKnots (s.uOrder - 1) + s.uKnots s.nu) / 2 < s.uKnots s.nu := by linarith
  generalize (s.uKnots (s.uOrder - 1) + s.uKnots s.nu) / 2 = x at *
  refine ⟨A, B, e, lA, lB, ⟨a1, a2, a3, a4⟩, ⟨b1, b2, b3, b4⟩, by rw [a1, k1], k2, by rw [b1, k3], k4, fun v hv hv' => ⟨fun u hu hu' => ?_, fun u hu hu' => ?_, fun hm => ?_⟩⟩
  · rw [A.evaluate_value lA u v (by rw [a1, k1]; exact hu) (by rw [k2]; exact hu'.le) (by rw [a4, a2]; exact hv) (by rw [a4, a3]; exact hv'),
      s.evaluate_value h u v hu (hu'.le.trans x2.le) hv hv', v1 u v hu hu']
  · rw [B.evaluate_value lB u v (by rw [b1, k3]; exact hu) (by rw [k4]; exact hu') (by rw [b4, b2]; exact hv) (by rw [b4, b3]; exact hv'),
      s.evaluate_value h u v (x1.le.trans hu) hu' hv hv', v2 u v hu hu']
  · rw [A.evaluate_value lA x v (by rw [a1, k1]; exact x1.le) (by rw [k2]) (by rw [a4, a2]; exact hv) (by rw [a4, a3]; exact hv'),
      s.evaluate_value h x v x1.le x2.le hv hv', v3 hm v]

/-- The same in the v direction. -/
theorem C72_splitV (s : Surf K V) (h : s.Legal) (hp : 2 ≤ s.vOrder) :
    ∃ A B, s.split false = some (A, B) ∧ A.Legal ∧ B.Legal ∧
      (A.vOrder = s.vOrder ∧ A.uOrder = s.uOrder ∧ A.nu = s.nu ∧ A.uKnots = s.uKnots) ∧
      (B.vOrder = s.vOrder ∧ B.uOrder = s.uOrder ∧ B.nu = s.nu ∧ B.uKnots = s.uKnots) ∧
      A.vKnots (A.vOrder - 1) = s.vKnots (s.vOrder - 1) ∧ A.vKnots A.nv = (s.vKnots (s.vOrder - 1) + s.vKnots s.nv) / 2 ∧
      B.vKnots (B.vOrder - 1) = (s.vKnots (s.vOrder - 1) + s.vKnots s.nv) / 2 ∧ B.vKnots B.nv = s.vKnots s.nv ∧
      ∀ u, s.uKnots (s.uOrder - 1) ≤ u → u ≤ s.uKnots s.nu →
        (∀ v, s.vKnots (s.vOrder - 1) ≤ v → v < (s.vKnots (s.vOrder - 1) + s.vKnots s.nv) / 2 → A.evaluate u v = s.evaluate u v) ∧
        (∀ v, (s.vKnots (s.vOrder - 1) + s.vKnots s.nv) / 2 ≤ v → v ≤ s.vKnots s.nv → B.evaluate u v = s.evaluate u v) ∧
        ((∀ i, i ≤ s.nv → ¬ (s.vKnots i = (s.vKnots (s.vOrder - 1) + s.vKnots s.nv) / 2 ∧
            s.vKnots (i + (s.vOrder - 1)) = (s.vKnots (s.vOrder - 1) + s.vKnots s.nv) / 2)) →
          A.evaluate u ((s.vKnots (s.vOrder - 1) + s.vKnots s.nv) / 2) = s.evaluate u ((s.vKnots (s.vOrder - 1) + s.vKnots s.nv) / 2)) := by
  have cv : s.vKnots (s.vOrder - 1) < s.vKnots s.nv := (h.v.lt).2.2
  obtain ⟨A, B, e, lA, lB, ⟨a1, a2, a3, a4⟩, ⟨b1, b2, b3, b4⟩, k1, k2, k3, k4, v1, v2, v3⟩ := s.splitV_spec h hp
  unfold Surf.midV at *
  have x1 : s.vKnots (s.vOrder - 1) < (s.vKnots (s.vOrder - 1) + s.vKnots s.nv) / 2 := by linarith
  have x2 : (s.vKnots (s.vOrder - 1) + s.vKnots s.nv) / 2 < s.vKnots s.nv := by linarith
  generalize (s.vKnots (s.vOrder - 1) + s.vKnots s.nv) / 2 = x at *
  refine ⟨A, B, e, lA, lB, ⟨a1, a2, a3, a4⟩, ⟨b1, b2, b3, b4⟩, by rw [a1, k1], k2, by rw [b1, k3], k4, fun u hu hu' => ⟨fun v hv hv' => ?_, fun v hv hv' => ?_, fun hm => ?_⟩⟩
  · rw [A.evaluate_value lA u v (by rw [a4, a2]; exact hu) (by rw [a4, a3]; exact hu') (by rw [a1, k1]; exact hv) (by rw [k2]; exact hv'.le),
      s.evaluate_value h u v hu hu' hv (hv'.le.trans x2.le), v1 u v hv hv']
  · rw [B.evaluate_value lB u v (by rw [b4, b2]; exact hu) (by rw [b4, b3]; exact hu') (by rw [b1, k3]; exact hv) (by rw [k4]; exact hv'),
      s.evaluate_value h u v hu hu' (x1.le.trans hv) hv', v2 u v hv hv']
  · rw [A.evaluate_value lA u x (by rw [a4, a2]; exact hu) (by rw [a4, a3]; exact hu') (by rw [a1, k1]; exact x1.le) (by rw [k2]),
      s.evaluate_value h u x hu hu' x1.le x2.le, v3 hm u]

example : (exSurf.split true).map (fun (A, B) => (A.nu, (List.range 6).map A.uKnots, B.nu, (List.range 6).map B.uKnots)) =
    some (3, [0, 0, 0, 1, 1, 1], 3, [1, 1, 1, 2, 2, 2]) ∧ (exSurf.split false).map (fun (A, B) => (A.nv, B.nv)) = some (3, 3) := by decide +kernel

/-- The pieces that `SubdivideSegments` makes: as many as there are segments, row after row; each of them is the given surface on its part of
the domain, which is divided into equal parts. -/
theorem C72_segments (s : Surf K V) (h : s.Legal) (hp : 2 ≤ s.uOrder) (hq : 2 ≤ s.vOrder) :
    ∃ L, s.segments = some L ∧ L.length = (1 + s.nv - s.vOrder) * (1 + s.nu - s.uOrder) ∧
      ∀ i j, i < 1 + s.nu - s.uOrder → j < 1 + s.nv - s.vOrder → ∃ S, L[j * (1 + s.nu - s.uOrder) + i]? = some S ∧ S.Legal ∧
        S.uOrder = s.uOrder ∧ S.vOrder = s.vOrder ∧
        S.uKnots (s.uOrder - 1) = border (s.row 0) (1 + s.nu - s.uOrder) i ∧ S.uKnots S.nu = border (s.row 0) (1 + s.nu - s.uOrder) (i + 1) ∧
        S.vKnots (s.vOrder - 1) = border (s.col 0) (1 + s.nv - s.vOrder) j ∧ S.vKnots S.nv = border (s.col 0) (1 + s.nv - s.vOrder) (j + 1) ∧
        ∀ u v, inCell (s.row 0) (1 + s.nu - s.uOrder) i u → inCell (s.col 0) (1 + s.nv - s.vOrder) j v → S.value u v = s.value u v :=
  s.segments_spec h hp hq

example : (exSurf.segments).map (fun L => L.map fun S => (S.uKnots 2, S.uKnots S.nu, S.vKnots 2, S.vKnots S.nv, S.evaluate (S.uKnots 2) (S.vKnots 2))) =
    some [(0, 1, 0, 1, some 0), (1, 2, 0, 1, some (5 / 2))] := by decide +kernel

/-! ## Dicing -/

/-- The grid: all its points are there, row after row; they are points of the surface at equal distances of the parameters, and the
borders of the grid are the borders of the surface. -/
theorem C72_dice (s : Surf K V) (h : s.Legal) (du dv : Nat) (hdu : 0 < du) (hdv : 0 < dv) :
    (s.dice du dv).length = (dv + 1) * (du + 1) ∧
      ∀ iu iv, iu ≤ du → iv ≤ dv → (s.dice du dv)[iv * (du + 1) + iu]? =
        some (some (s.value (s.uKnots (s.uOrder - 1) + (iu : K) / (du : K) * (s.uKnots s.nu - s.uKnots (s.uOrder - 1)))
          (s.vKnots (s.vOrder - 1) + (iv : K) / (dv : K) * (s.vKnots s.nv - s.vKnots (s.vOrder - 1))))) := by
  have cu : s.uKnots (s.uOrder - 1) < s.uKnots s.nu := (h.u.lt).2.2
  have cv : s.vKnots (s.vOrder - 1) < s.vKnots s.nv := (h.v.lt).2.2
  have len : ∀ a ∈ List.range (dv + 1), ((List.range (du + 1)).map fun iu =>
      s.evaluate (diceParam s.uKnots s.uOrder s.nu du iu) (diceParam s.vKnots s.vOrder s.nv dv a)).length = du + 1 := fun a _ => by simp
  have par : ∀ (a b : K) (n i : Nat), 0 < n → i ≤ n → a < b → a ≤ (i : K) / (n : K) * (b - a) + a ∧ (i : K) / (n : K) * (b - a) + a ≤ b := by
    intro a b n i hn hi hab
    have hn' : (0 : K) < (n : K) := Nat.cast_pos.2 hn
    have f0 : (0 : K) ≤ (i : K) / (n : K) := div_nonneg (Nat.cast_nonneg _) hn'.le
    have f1 : (i : K) / (n : K) ≤ 1 := (div_le_one hn').2 (Nat.cast_le.2 hi)
    constructor
    · nlinarith
    · nlinarith
  refine ⟨?_, fun iu iv hu hv => ?_⟩
  · unfold Surf.dice
    rw [flatMap_length _ _ (du + 1) len, List.length_range]
  · unfold Surf.dice
    rw [flatMap_get _ _ (du + 1) len iv iu (by omega) iv (by rw [List.getElem?_range (by omega)]), List.getElem?_map, List.getElem?_range (by omega), Option.map_some]
    unfold diceParam
    obtain ⟨a1, a2⟩ := par _ _ du iu hdu hu cu
    obtain ⟨b1, b2⟩ := par _ _ dv iv hdv hv cv
    rw [s.evaluate_value h _ _ a1 a2 b1 b2, add_comm (s.uKnots (s.uOrder - 1)), add_comm (s.vKnots (s.vOrder - 1))]

example : exSurf.dice 1 1 = [some 0, some 9, some 64, some 121] := by decide +kernel

/-! ## Bounds -/

/-- The bound of one coordinate contains the surface, if the weights are positive. `V` is coordinate and weight; the list is that of the projected points.
Missing: weights that are not positive (see `C72_bound_violated`). -/
theorem C72_bound_partial (s : Surf K (K × K)) (h : s.Legal) (hw : ∀ i, i < s.nu * s.nv → 0 < (s.pts i).2) (big : K) (u v : K)
    (hu : s.uKnots (s.uOrder - 1) ≤ u) (hu' : u ≤ s.uKnots s.nu) (hv : s.vKnots (s.vOrder - 1) ≤ v) (hv' : v ≤ s.vKnots s.nv) :
    ∃ x w, s.evaluate u v = some (x, w) ∧ 0 < w ∧
      (boundAxis big ((List.range (s.nu * s.nv)).map fun i => (s.pts i).1 / (s.pts i).2)).1 ≤ x / w ∧
      x / w ≤ (boundAxis big ((List.range (s.nu * s.nv)).map fun i => (s.pts i).1 / (s.pts i).2)).2 := by
  obtain ⟨p1, p2, -, -⟩ := h.pos s
  have key : ∀ (P : List K) (lo hi : K), (P.foldl (fun (b : K × K) x => (if x < b.1 then x else b.1, if b.2 < x then x else b.2)) (lo, hi)).1 ≤ lo ∧
      hi ≤ (P.foldl (fun (b : K × K) x => (if x < b.1 then x else b.1, if b.2 < x then x else b.2)) (lo, hi)).2 ∧
      ∀ x ∈ P, (P.foldl (fun (b : K × K) x => (if x < b.1 then x else b.1, if b.2 < x then x else b.2)) (lo, hi)).1 ≤ x ∧
        x ≤ (P.foldl (fun (b : K × K) x => (if x < b.1 then x else b.1, if b.2 < x then x else b.2)) (lo, hi)).2 := by
    intro P
    induction P with
    | nil => intro lo hi; exact ⟨le_refl _, le_refl _, fun x hx => by simp at hx⟩
    | cons a P ih =>
      intro lo hi
      rw [List.foldl_cons]
      obtain ⟨i1, i2, i3⟩ := ih (if a < lo then a else lo) (if hi < a then a else hi)
      have m1 : (if a < lo then a else lo) ≤ lo ∧ (if a < lo then a else lo) ≤ a := by
        by_cases hh : a < lo
        · rw [if_pos hh]; exact ⟨hh.le, le_refl _⟩
        · rw [if_neg hh]; exact ⟨le_refl _, not_lt.1 hh⟩
      have m2 : hi ≤ (if hi < a then a else hi) ∧ a ≤ (if hi < a then a else hi) := by
        by_cases hh : hi < a
        · rw [if_pos hh]; exact ⟨hh.le, le_refl _⟩
        · rw [if_neg hh]; exact ⟨le_refl _, not_lt.1 hh⟩
      refine ⟨i1.trans m1.1, m2.1.trans i2, fun x hx => ?_⟩
      rcases List.mem_cons.1 hx with rfl | hx
      · exact ⟨i1.trans m1.2, m2.2.trans i2⟩
      · exact i3 x hx
  have hB : ∀ i, i < s.nu * s.nv → (boundAxis big ((List.range (s.nu * s.nv)).map fun i => (s.pts i).1 / (s.pts i).2)).1 ≤ (s.pts i).1 / (s.pts i).2 ∧
      (s.pts i).1 / (s.pts i).2 ≤ (boundAxis big ((List.range (s.nu * s.nv)).map fun i => (s.pts i).1 / (s.pts i).2)).2 := by
    intro i hi
    exact (key _ big (-big)).2.2 _ (List.mem_map.2 ⟨i, List.mem_range.2 hi, rfl⟩)
  generalize (boundAxis big ((List.range (s.nu * s.nv)).map fun i => (s.pts i).1 / (s.pts i).2)).1 = lo at *
  generalize (boundAxis big ((List.range (s.nu * s.nv)).map fun i => (s.pts i).1 / (s.pts i).2)).2 = hi at *
  -- the cone
  have cone : ∀ (x y : K × K) (a : K), (0 < x.2 ∧ lo * x.2 ≤ x.1 ∧ x.1 ≤ hi * x.2) → (0 < y.2 ∧ lo * y.2 ≤ y.1 ∧ y.1 ≤ hi * y.2) → 0 ≤ a → a ≤ 1 →
      (0 < ((1 - a) • x + a • y).2 ∧ lo * ((1 - a) • x + a • y).2 ≤ ((1 - a) • x + a • y).1 ∧ ((1 - a) • x + a • y).1 ≤ hi * ((1 - a) • x + a • y).2) := by
    rintro ⟨x1, x2⟩ ⟨y1, y2⟩ a ⟨hx, hx1, hx2⟩ ⟨hy, hy1, hy2⟩ ha ha'
    simp only [Prod.smul_mk, Prod.mk_add_mk, smul_eq_mul] at *
    have ha1 : 0 ≤ 1 - a := by linarith
    refine ⟨?_, ?_, ?_⟩
    · rcases eq_or_lt_of_le ha with rfl | ha0
      · simpa using hx
      · have := mul_pos ha0 hy
        have := mul_nonneg ha1 hx.le
        linarith
    · have := mul_le_mul_of_nonneg_left hx1 ha1
      have := mul_le_mul_of_nonneg_left hy1 ha
      linarith
    · have := mul_le_mul_of_nonneg_left hx2 ha1
      have := mul_le_mul_of_nonneg_left hy2 ha
      linarith
  have curve : ∀ (c : Curve K (K × K)), Legal c → (∀ i, i < c.n → 0 < (c.pts i).2 ∧ lo * (c.pts i).2 ≤ (c.pts i).1 ∧ (c.pts i).1 ≤ hi * (c.pts i).2) → ∀ t,
      c.knots c.degree ≤ t → t ≤ c.knots c.n → 0 < (value c t).2 ∧ lo * (value c t).2 ≤ (value c t).1 ∧ (value c t).1 ≤ hi * (value c t).2 := by
    intro c hc hP t ht ht'
    have ho := hc.wf.order
    have hpt := hc.wf.pts
    unfold value
    by_cases hlt : t < c.knots c.n
    · rw [if_pos hlt]
      obtain ⟨j, j1, j2, j3, j4⟩ := exists_span c hc.wf t ht hlt
      rw [spline_deBoor c hc.wf t j j1 j2 j3 j4]
      have e1 : c.t ((j : ℤ) + 1) = c.knots (j + 1) := t_nat c _ (j + 1) (by push_cast; rfl) (by omega)
      have e0 : c.t (j : ℤ) = c.knots j := t_nat c _ j rfl (by omega)
      refine deBoor_convex (fun x => 0 < x.2 ∧ lo * x.2 ≤ x.1 ∧ x.1 ≤ hi * x.2) cone c.t (t_mono c hc.wf) j t (by rw [e0]; exact j3) (by rw [e1]; exact j4.le)
        (by rw [e0, e1]; exact lt_of_le_of_lt j3 j4) c.degree c.p (fun i i1 i2 => hP _ (by omega))
    · rw [if_neg hlt]
      exact hP _ (by omega)
  have hin : ∀ i j, i < s.nu → j < s.nv → j * s.nu + i < s.nu * s.nv := by
    intro i j hi hj
    have : (j + 1) * s.nu ≤ s.nv * s.nu := Nat.mul_le_mul_right _ hj
    rw [Nat.succ_mul] at this
    rw [Nat.mul_comm s.nu]
    omega
  have rowv : ∀ j, j < s.nv → 0 < (value (s.row j) u).2 ∧ lo * (value (s.row j) u).2 ≤ (value (s.row j) u).1 ∧ (value (s.row j) u).1 ≤ hi * (value (s.row j) u).2 := by
    intro j hj
    refine curve (s.row j) (s.legalU h j) (fun i hi' => ?_) u hu hu'
    have hij := hin i j hi' hj
    have w0 := hw _ hij
    obtain ⟨b1, b2⟩ := hB _ hij
    exact ⟨w0, (le_div_iff₀ w0).1 b1, (div_le_iff₀ w0).1 b2⟩
  have fin := curve ⟨s.vOrder, s.nv, s.vKnots, fun j => value (s.row j) u⟩ (Legal.of_shape (s.col 0) _ rfl h.v) rowv v hv hv'
  refine ⟨(s.value u v).1, (s.value u v).2, s.evaluate_value h u v hu hu' hv hv', fin.1, (le_div_iff₀ fin.1).2 fin.2.1, (div_le_iff₀ fin.1).2 fin.2.2⟩

/-- A surface with a negative weight for the next theorem: coordinates 0, 0 and 1, weights 1, 1 and -1/2. -/
def negSurf : Surf ℚ (ℚ × ℚ) := ⟨3, 2, 3, 2, fun i => [0, 0, 0, 1, 1, 1].getD i 1, fun i => [0, 0, 1, 1].getD i 1,
  fun i => [(0, 1), (1, -1 / 2), (0, 1)].getD (i % 3) (0, 0)⟩

/-- With a negative weight the surface leaves the bound. -/
theorem C72_bound_violated : negSurf.evaluate (1 / 2) 0 = some (1 / 2, 1 / 4) ∧
    boundAxis 1000 ((List.range 6).map fun i => (negSurf.pts i).1 / (negSurf.pts i).2) = (-2, 0) := by decide +kernel

/-! ## Directions and labels -/

/-- If the surface may be diced, all its variables are split in one direction, and its children in the other one. -/
theorem C72_dirs_partial (dir : Dir) : splitDirs dir true = (dir, dir, if dir = .u then .v else .u) := by cases dir <;> rfl

/-- If it may not, the vertex variables are always split in the u direction, the others not. -/
theorem C72_dirs_violated : splitDirs .v false = (.u, .v, .u) := rfl

/-- The labels `u` agree with the parameters at which the surface is evaluated, if the range that is given is the domain. -/
theorem C72_labels_partial (s : Surf K V) (segs r : Nat) (hr : r ≤ segs) :
    (defaultU (s.uKnots (s.uOrder - 1)) (s.uKnots s.nu) segs)[r]? = some (diceParam s.uKnots s.uOrder s.nu segs r) := by
  unfold defaultU diceParam
  rw [List.getElem?_map, List.getElem?_range (by omega), Option.map_some]
  congr 1
  ring

/-- `umin` and `umax` do not cut anything off the surface: the points are those of the whole domain, only the labels change. -/
theorem C72_labels_violated : (defaultU (0 : ℚ) 1 1)[1]? = some 1 ∧ exSurf.dice 1 1 = [some 0, some 9, some 64, some 121] ∧ exSurf.evaluate 1 0 = some (5 / 2) ∧
    diceParam exSurf.uKnots exSurf.uOrder exSurf.nu 1 1 = 2 := by decide +kernel

end Verif.Geom.Nurbs
