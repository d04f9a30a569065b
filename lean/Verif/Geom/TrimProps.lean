import Verif.Geom.TrimClampLemmas
import Verif.Geom.TrimPointLemmas
import Mathlib.Tactic.NormNum
import Mathlib.Data.List.Perm.Basic
import Mathlib.Order.Interval.Finset.Nat
/-!
# C71: trim curves

The specifications are `Curve.spline` (the recursion of Cox and de Boor), `Touch` (two segments have a common point), `edges` (the edges of a
closed loop), `Inside` (strictly inside a triangle).
-/
namespace Verif.Geom.Trim
open Verif.Geom.BSpline

set_option linter.unusedSectionVars false

variable {K : Type} [Field K] [LinearOrder K] [IsStrictOrderedRing K] {V : Type} [AddCommGroup V] [Module K V]

/-- A quadratic curve with simple knots, for the examples. -/
def exCurve : Curve ℚ (ℚ × ℚ × ℚ) := ⟨3, 4, fun i => i, fun i => (i, i * i, 1)⟩

/-- A legal quadratic curve whose domain begins at a double knot. -/
def dblCurve : Curve ℚ (ℚ × ℚ × ℚ) := ⟨3, 4, fun i => [-2, -1, 0, 0, 1, 2, 3].getD i 0, fun i => (i, i * i, 1)⟩

theorem exWf : Wf exCurve := by
  refine ⟨by decide, by decide, fun i j hij _ => ?_⟩
  show (i : ℚ) ≤ (j : ℚ)
  exact_mod_cast hij

theorem dblWf : Wf dblCurve := by
  refine ⟨by decide, by decide, ?_⟩
  have : ∀ j ≤ 6, ∀ i ≤ j, dblCurve.knots i ≤ dblCurve.knots j := by decide +kernel
  exact fun i j hij hj => this j hj i hij

/-! ## Evaluation -/

/-- The span that is found: it contains the parameter, and the search ends without reading outside the knots. -/
theorem C71_span (c : Curve K V) (h : Wf c) (u : K) (h1 : c.knots c.degree < u) (h2 : u < c.knots c.n) :
    ∃ j, c.findSpan u = some j ∧ c.degree ≤ j ∧ j < c.n ∧ c.knots j ≤ u ∧ u < c.knots (j + 1) := by
  have ho := h.order
  have hp := h.pts
  have hd : c.degree + 1 = c.order := by unfold Curve.degree; omega
  obtain ⟨j, e, a, b, d⟩ := findLoop_spec c.knots c.n c.cKnots u (by unfold Curve.cKnots; omega) h2 (c.n + 2) 0 (c.n + 1) (by omega) (by omega)
    (by omega) ((h.mono 0 c.degree (by omega) (by omega)).trans h1.le) (fun h => by omega) (by omega)
  refine ⟨j, ?_, ?_, a, b, d⟩
  · unfold Curve.findSpan
    rw [if_neg (not_le.2 h2), if_neg (not_le.2 h1), e]
  · by_contra hc
    push Not at hc
    exact absurd (h.mono (j + 1) c.degree (by omega) (by omega)) (not_le.2 (h1.trans d))

example : exCurve.findSpan (5 / 2) = some 2 := by decide +kernel

/-- `Evaluate` gives the rational B-spline curve, divided by the weight. Missing: domains that begin at a knot of multiplicity greater
than one to the right (see `C71_eval_violated`). -/
theorem C71_eval_partial (c : Curve K (K × K × K)) (h : Wf c) (u : K) (h1 : c.knots c.degree ≤ u) (h2 : u < c.knots c.n)
    (h3 : c.knots c.degree < u ∨ c.knots c.degree < c.knots (c.degree + 1)) :
    c.evalH u = some (c.spline u) ∧
      (c.eval u = if (c.spline u).2.2 = 0 then none else some ((c.spline u).1 / (c.spline u).2.2, (c.spline u).2.1 / (c.spline u).2.2)) := by
  have e : c.evalH u = some (c.spline u) := by
    rcases h3 with h3 | h3
    · obtain ⟨j, e, a, b, d, f⟩ := C71_span c h u h3 h2
      rw [evalH_span c h u j e a b (lt_of_le_of_lt d f), spline_deBoor c h u j a b d f]
    · exact evalH_spline c h u h1 h2 h3
  refine ⟨e, ?_⟩
  unfold Curve.eval
  rw [e]
  rfl

example : exCurve.eval (5 / 2) = some (1, 5 / 4) := by decide +kernel

/-- At the end of the domain and after it the last span is taken. A curve whose last knot occurs as often as the order ends at its last point. -/
theorem C71_end (c : Curve K (K × K × K)) (h : Wf c) :
    (∀ u, c.knots c.n ≤ u → c.findSpan u = some (c.n - 1)) ∧
    (c.knots (c.n - 1) < c.knots c.n → (∀ i, c.n ≤ i → i ≤ c.n + c.degree → c.knots i = c.knots c.n) → c.evalH (c.knots c.n) = some (c.pts (c.n - 1))) := by
  have ho := h.order
  have hp := h.pts
  have hd : c.degree + 1 = c.order := by unfold Curve.degree; omega
  have e1 : ∀ u, c.knots c.n ≤ u → c.findSpan u = some (c.n - 1) := fun u hu => by
    unfold Curve.findSpan
    rw [if_pos hu]
  have key : ∀ (t : ℤ → K) (j : ℤ) (u : K) (p : Nat) (P : ℤ → K × K × K), t j < u → (∀ i : ℤ, j < i → i ≤ j + p → t i = u) → deBoor t j u p P = P j := by
    intro t j u p
    induction p with
    | zero => intro P _ _; rfl
    | succ p ih =>
      intro P hj hh
      unfold deBoor
      rw [ih _ hj (fun i h1 h2 => hh i h1 (by push_cast; omega)), step_apply, hh (j + (p + 1 : ℕ)) (by push_cast; omega) (le_refl _),
        div_self (sub_pos.2 hj).ne']
      simp
  refine ⟨e1, fun hl hc => ?_⟩
  rw [evalH_span c h _ (c.n - 1) (e1 _ (le_refl _)) (by omega) (by omega) (by rw [show c.n - 1 + 1 = c.n by omega]; exact hl)]
  refine congrArg some ((key c.t _ _ _ c.p ?_ fun i i1 i2 => ?_).trans ?_)
  · rw [t_nat c _ (c.n - 1) rfl (by omega)]
    exact hl
  · rw [t_nat c i i.toNat (by omega) (by omega)]
    exact hc _ (by omega) (by omega)
  · rfl

example : exCurve.findSpan 5 = some (exCurve.n - 1) := by decide +kernel

/-- The basis functions sum to one: a curve with one control point repeated is that point. -/
theorem C71_unity (c : Curve K V) (h : Wf c) (v : V) (hv : c.pts = fun _ => v) (u : K) (h1 : c.knots c.degree < u) (h2 : u < c.knots c.n) :
    c.evalH u = some v := by
  obtain ⟨j, e, a, b, d, f⟩ := C71_span c h u h1 h2
  rw [evalH_span c h u j e a b (lt_of_le_of_lt d f)]
  have : c.p = fun _ => v := by unfold Curve.p; rw [hv]
  rw [this, deBoor_const]

example : (⟨2, 2, fun i => i, fun _ => (3 : ℚ)⟩ : Curve ℚ ℚ).evalH (3 / 2) = some 3 := by decide +kernel

/-- Where the domain begins at a double knot, `FindSpan` returns an empty span and `BasisFunctions` divides zero by zero, though the knots are
legal and the curve is defined there. -/
theorem C71_eval_violated : Wf dblCurve ∧ dblCurve.knots dblCurve.degree < dblCurve.knots dblCurve.n ∧ dblCurve.evalH (dblCurve.knots dblCurve.degree) = none ∧
    dblCurve.evalH (1 / 2) ≠ none := ⟨dblWf, by decide +kernel, by decide +kernel, by decide +kernel⟩

/-! ## Insertion of knots -/

/-- `InsertKnot` keeps the curve on its domain, its order, and the ends of the domain; the knots stay in order. -/
theorem C71_insert_curve (c : Curve K V) (h : Wf c) (x : K) (hx : c.knots c.degree ≤ x) (hx' : x ≤ c.knots c.n) (r : Nat) :
    Wf (c.insertKnot x r).2 ∧ (c.insertKnot x r).2.order = c.order ∧ (c.insertKnot x r).2.n = c.n + (c.insertKnot x r).1 ∧
      (c.insertKnot x r).2.knots c.degree = c.knots c.degree ∧ (c.insertKnot x r).2.knots (c.insertKnot x r).2.n = c.knots c.n ∧
      ∀ u, c.knots c.degree ≤ u → u < c.knots c.n → (c.insertKnot x r).2.spline u = c.spline u := by
  obtain ⟨a, b, d, e, f, g, -⟩ := insertKnot_spec c h x hx hx' r
  exact ⟨a, b, d, e, f, g⟩

example : (exCurve.insertKnot (5 / 2) 1).1 = 1 ∧ (List.range 5).map (exCurve.insertKnot (5 / 2) 1).2.pts =
    [(0, 0, 1), (3 / 4, 3 / 4, 1), (5 / 4, 7 / 4, 1), (2, 4, 1), (3, 9, 1)] := by decide +kernel

/-- The number of knots inserted: at most as many as asked for, and the multiplicity does not exceed the order. The knots are the old ones and
the new ones. -/
theorem C71_insert_knots (c : Curve K V) (h : Wf c) (x : K) (hx : c.knots c.degree ≤ x) (hx' : x ≤ c.knots c.n) (r : Nat) :
    (c.insertKnot x r).1 = min r (c.order - ((Finset.range c.cKnots).filter fun i => c.knots i = x).card) ∧
      ((List.range (c.insertKnot x r).2.cKnots).map (c.insertKnot x r).2.knots).Perm
        ((List.range c.cKnots).map c.knots ++ List.replicate (c.insertKnot x r).1 x) := by
  have ho := h.order
  have hp := h.pts
  have hd : c.degree + 1 = c.order := by unfold Curve.degree; omega
  have hck : c.cKnots = c.n + c.degree + 1 := by unfold Curve.cKnots; omega
  obtain ⟨-, o1, n1, -, -, -, k, s, g1, g2, g3, g4, g5, g6, g7, e, q⟩ := insertKnot_spec c h x hx hx' r
  have hcard : ((Finset.range c.cKnots).filter fun i => c.knots i = x).card = s := by
    have : ((Finset.range c.cKnots).filter fun i => c.knots i = x) = Finset.Ico (k + 1 - s) (k + 1) := by
      ext a
      rw [Finset.mem_filter, Finset.mem_range, Finset.mem_Ico]
      constructor
      · rintro ⟨h1, h2⟩
        constructor
        · by_contra hc
          exact absurd (g7 a (by omega)) (not_lt.2 h2.ge)
        · by_contra hc
          have := g4 (by omega)
          exact absurd (lt_of_lt_of_le this (h.mono (k + 1) a (by omega) (by omega))) (not_lt.2 h2.le)
      · rintro ⟨h1, h2⟩
        exact ⟨by omega, g6 a (by omega) (by omega)⟩
    rw [this, Nat.card_Ico]
    omega
  refine ⟨by rw [e, hcard, hd], ?_⟩
  have hc2 : (c.insertKnot x r).2.cKnots = c.cKnots + (c.insertKnot x r).1 := by unfold Curve.cKnots; rw [o1, n1]; omega
  rw [hc2]
  rw [← e] at q
  generalize (c.insertKnot x r).1 = r' at *
  have hlist : (List.range (c.cKnots + r')).map (c.insertKnot x r).2.knots =
      (List.range (k + 1)).map c.knots ++ (List.replicate r' x ++ (List.range (c.cKnots - (k + 1))).map fun i => c.knots (k + 1 + i)) := by
    apply List.ext_getElem
    · simp; omega
    · intro i h1 h2
      simp only [List.getElem_map, List.getElem_range]
      rw [q]
      unfold newKnots
      by_cases hi : i ≤ k
      · rw [if_pos hi, List.getElem_append_left (by simp; omega)]
        simp
      · rw [if_neg hi, List.getElem_append_right (by simp; omega)]
        by_cases hi2 : i ≤ k + r'
        · rw [if_pos hi2, List.getElem_append_left (by simp; omega)]
          simp
        · rw [if_neg hi2, List.getElem_append_right (by simp; omega)]
          simp
          congr 1
          omega
  have hold : (List.range c.cKnots).map c.knots = (List.range (k + 1)).map c.knots ++ (List.range (c.cKnots - (k + 1))).map fun i => c.knots (k + 1 + i) := by
    apply List.ext_getElem
    · simp; omega
    · intro i h1 h2
      simp only [List.getElem_map, List.getElem_range]
      by_cases hi : i ≤ k
      · rw [List.getElem_append_left (by simp; omega)]
        simp
      · rw [List.getElem_append_right (by simp; omega)]
        simp
        congr 1
        omega
  rw [hlist, hold, List.append_assoc]
  exact List.Perm.append_left _ List.perm_append_comm

example : (exCurve.insertKnot 2 7).1 = 2 ∧ (List.range 9).map (exCurve.insertKnot 2 7).2.knots = [0, 1, 2, 2, 2, 3, 4, 5, 6] := by decide +kernel

/-- The quotients in `InsertKnot` exist: for every denominator that is used there is a knot not greater than the new one before it, and one that is
greater behind it. -/
theorem C71_insert_denominators (c : Curve K V) (h : Wf c) (x : K) (hx : c.knots c.degree ≤ x) (hx' : x ≤ c.knots c.n) (r : Nat)
    (hr : (c.insertKnot x r).1 ≠ 0) : ∃ k, (c.degree ≤ k ∧ k + 1 < c.cKnots) ∧ c.insertKnot x r =
      ((c.insertKnot x r).1, ⟨c.order, c.n + (c.insertKnot x r).1, newKnots c.knots x k (c.insertKnot x r).1,
        newPts c.knots c.pts c.n x k (multiplicity c.knots x k) c.degree (c.insertKnot x r).1⟩) ∧
      ∀ j i, 1 ≤ j → j ≤ (c.insertKnot x r).1 → i + j + multiplicity c.knots x k ≤ c.degree →
        k + (i + 1) < c.cKnots ∧ c.knots (k - c.degree + j + i) < c.knots (k + (i + 1)) := by
  have ho := h.order
  have hp := h.pts
  have hd : c.degree + 1 = c.order := by unfold Curve.degree; omega
  have hck : c.cKnots = c.n + c.degree + 1 := by unfold Curve.cKnots; omega
  obtain ⟨k, ek, k1, k2, k3⟩ := findK_spec c.knots c.cKnots x (c.cKnots + 1) 0 (by omega) (by omega) (fun a ha => by omega)
    ((h.mono 0 c.degree (by omega) (by omega)).trans hx) (by omega)
  have e : c.insertKnot x r = if (if c.degree + 1 < r + multiplicity c.knots x k then c.degree + 1 - multiplicity c.knots x k else r) = 0 then (0, c) else
      ((if c.degree + 1 < r + multiplicity c.knots x k then c.degree + 1 - multiplicity c.knots x k else r), ⟨c.order,
        c.n + (if c.degree + 1 < r + multiplicity c.knots x k then c.degree + 1 - multiplicity c.knots x k else r),
        newKnots c.knots x k (if c.degree + 1 < r + multiplicity c.knots x k then c.degree + 1 - multiplicity c.knots x k else r),
        newPts c.knots c.pts c.n x k (multiplicity c.knots x k) c.degree
          (if c.degree + 1 < r + multiplicity c.knots x k then c.degree + 1 - multiplicity c.knots x k else r)⟩) := by
    unfold Curve.insertKnot
    simp only
    rw [if_neg (by push Not; exact ⟨hx, hx'⟩), ek]
  have hkp : c.degree ≤ k := by
    by_contra hc
    push Not at hc
    exact absurd (k3 (by omega)) (not_lt.2 ((h.mono _ _ (by omega) (by omega)).trans hx))
  have hkn : k + 1 < c.cKnots := by
    by_contra hc
    apply hr
    have hge : c.degree + 1 ≤ multiplicity c.knots x k := by
      obtain ⟨c1, c2, c3⟩ := countDown_spec c.knots k
      have hxk : x ≤ c.knots k := hx'.trans (h.mono _ _ (by omega) (by omega))
      unfold multiplicity
      rw [if_pos hxk]
      by_contra hlt
      have h3 := c3 (by omega)
      have h4 : x ≤ c.knots (k - countDown c.knots k - 1) := hx'.trans (h.mono _ _ (by omega) (by omega))
      exact absurd (lt_of_le_of_lt h4 h3) (not_lt.2 (k2 _ (by omega)))
    rw [e, if_pos (by split_ifs <;> omega)]
  refine ⟨k, ⟨hkp, hkn⟩, ?_, fun j i h1 h2 h3 => ⟨?_, ?_⟩⟩
  · rw [e]
    by_cases h0 : (if c.degree + 1 < r + multiplicity c.knots x k then c.degree + 1 - multiplicity c.knots x k else r) = 0
    · exfalso
      apply hr
      rw [e, if_pos h0]
    · rw [if_neg h0]
  · by_contra hc
    -- the multiplicity covers what is missing
    have hm : k + 1 ≤ c.n + multiplicity c.knots x k := by
      by_contra hlt
      unfold multiplicity at hlt
      obtain ⟨c1, c2, c3⟩ := countDown_spec c.knots k
      have hxk : x ≤ c.knots k := hx'.trans (h.mono _ _ (by omega) (by omega))
      rw [if_pos hxk] at hlt
      have h5 := c3 (by omega)
      have h4 : x ≤ c.knots (k - countDown c.knots k - 1) := hx'.trans (h.mono _ _ (by omega) (by omega))
      exact absurd (lt_of_le_of_lt h4 h5) (not_lt.2 (k2 _ (by omega)))
    omega
  · have hm : k + 1 ≤ c.n + multiplicity c.knots x k ∨ k + 1 ≤ c.n := by
      by_contra hlt
      push Not at hlt
      obtain ⟨hlt, _⟩ := hlt
      unfold multiplicity at hlt
      obtain ⟨c1, c2, c3⟩ := countDown_spec c.knots k
      have hxk : x ≤ c.knots k := hx'.trans (h.mono _ _ (by omega) (by omega))
      rw [if_pos hxk] at hlt
      have h5 := c3 (by omega)
      have h4 : x ≤ c.knots (k - countDown c.knots k - 1) := hx'.trans (h.mono _ _ (by omega) (by omega))
      exact absurd (lt_of_le_of_lt h4 h5) (not_lt.2 (k2 _ (by omega)))
    refine lt_of_le_of_lt (k2 _ (by omega)) (lt_of_lt_of_le (k3 hkn) (h.mono _ _ (by omega) (by omega)))

example : (exCurve.insertKnot (5 / 2) 2).1 = 2 := by decide +kernel

/-! ## Clamping -/

/-- `Clamp`: the knots before and behind the domain are replaced by its ends, everything else stays, and the curve is the same. Missing: domains
that begin or end at a multiple knot on the inner side (see `C71_clamp_violated`). -/
theorem C71_clamp_partial (c : Curve K V) (h : Wf c) (hl : c.knots c.degree < c.knots (c.degree + 1)) (hr : c.knots (c.n - 1) < c.knots c.n) :
    Wf c.clamp ∧ c.clamp.order = c.order ∧ c.clamp.n = c.n ∧
      (∀ i, i ≤ c.n + c.degree → c.clamp.knots i = if i ≤ c.degree then c.knots c.degree else if i < c.n then c.knots i else c.knots c.n) ∧
      ∀ u, c.knots c.degree ≤ u → u < c.knots c.n → c.clamp.spline u = c.spline u := clamp_spec c h hl hr

example : (List.range 7).map exCurve.clamp.knots = [2, 2, 2, 3, 4, 4, 4] ∧
    (List.range 4).map exCurve.clamp.pts = [(1 / 2, 1 / 2, 1), (1, 1, 1), (2, 4, 1), (5 / 2, 13 / 2, 1)] := by decide +kernel

/-- A clamped curve begins at its first control point. -/
theorem C71_clamp_start (c : Curve K V) (h : Wf c) (hl : c.knots c.degree < c.knots (c.degree + 1)) (hr : c.knots (c.n - 1) < c.knots c.n) :
    c.clamp.evalH (c.knots c.degree) = some (c.clamp.pts 0) := by
  obtain ⟨w, o, n, q, -⟩ := clamp_spec c h hl hr
  have ho := h.order
  have hp := h.pts
  have hd : c.degree + 1 = c.order := by unfold Curve.degree; omega
  have hd' : c.clamp.degree = c.degree := by unfold Curve.degree; rw [o]
  have q0 : c.clamp.knots c.degree = c.knots c.degree := by rw [q _ (by omega), if_pos (le_refl _)]
  have q1 : c.clamp.knots c.degree < c.clamp.knots (c.degree + 1) := by
    rw [q0, q _ (by omega), if_neg (by omega)]
    split_ifs with hc
    · exact hl
    · exact lt_of_lt_of_le hl (h.mono _ _ (by omega) (by omega))
  have qn : c.clamp.knots c.n = c.knots c.n := by rw [q _ (by omega), if_neg (by omega), if_neg (by omega)]
  have hs : c.clamp.findSpan (c.knots c.degree) = some c.degree := by
    unfold Curve.findSpan
    rw [n, qn, if_neg (not_le.2 (lt_of_lt_of_le hl (h.mono _ _ (by omega) (by omega)))), hd', q0, if_pos (le_refl _)]
  rw [evalH_span c.clamp w _ c.degree hs (by rw [hd']) (by omega) q1, hd']
  congr 1
  have hz : ∀ (m : Nat) (P : ℤ → V), m ≤ c.degree → deBoor c.clamp.t c.degree (c.knots c.degree) m P = P ((c.degree : ℤ) - m) := by
    intro m
    induction m with
    | zero => intro P _; simp [deBoor]
    | succ m ih =>
      intro P hm
      unfold deBoor
      rw [ih _ (by omega), step_apply, t_nat c.clamp ((c.degree : ℤ) - m) (c.degree - m) (by omega) (by omega), q _ (by omega), if_pos (by omega),
        sub_self, zero_div, sub_zero, one_smul, zero_smul, add_zero]
      congr 1
      push_cast; ring
  rw [hz _ _ (le_refl _)]
  unfold Curve.p
  congr 1
  omega

example : exCurve.clamp.eval 2 = some (1 / 2, 1 / 2) := by decide +kernel

/-- A legal curve with a double knot at the start of its domain: after `Clamp` the first knot is still the one before the domain, and
the curve cannot be evaluated there. -/
theorem C71_clamp_violated : Wf dblCurve ∧ dblCurve.knots dblCurve.degree = 0 ∧ dblCurve.clamp.knots 0 = -1 ∧
    dblCurve.clamp.evalH (dblCurve.clamp.knots 0) = none := ⟨dblWf, by decide +kernel, by decide +kernel, by decide +kernel⟩

/-- `Prepare` puts points of the curve into the loop: those at the parameters that divide the domain evenly, from its start on. -/
theorem C71_prepare_partial (c : Curve K (K × K × K)) (h : Wf c) (hl : c.knots c.degree < c.knots (c.degree + 1))
    (hr : c.knots (c.n - 1) < c.knots c.n) (m : Nat) :
    preparePts c m = (List.range m).map fun (i : Nat) =>
      project (c.spline (c.knots c.degree + (i : K) * ((c.knots c.n - c.knots c.degree) / (m : K)))) := by
  obtain ⟨w, o, n, q, sp⟩ := clamp_spec c h hl hr
  have ho := h.order
  have hp := h.pts
  have hd : c.degree + 1 = c.order := by unfold Curve.degree; omega
  have hd' : c.clamp.degree = c.degree := by unfold Curve.degree; rw [o]
  have q0 : c.clamp.knots 0 = c.knots c.degree := by rw [q _ (by omega), if_pos (by omega)]
  have qE : c.clamp.knots (c.clamp.cKnots - 1) = c.knots c.n := by
    have : c.clamp.cKnots - 1 = c.n + c.degree := by unfold Curve.cKnots; rw [n, o]; omega
    rw [this, q _ (by omega), if_neg (by omega), if_neg (by omega)]
  have qp : c.clamp.knots c.degree = c.knots c.degree := by rw [q _ (by omega), if_pos (le_refl _)]
  have q1 : c.clamp.knots c.degree < c.clamp.knots (c.degree + 1) := by
    rw [qp, q _ (by omega), if_neg (by omega)]
    split_ifs with hc
    · exact hl
    · exact lt_of_lt_of_le hl (h.mono _ _ (by omega) (by omega))
  have qn : c.clamp.knots c.n = c.knots c.n := by rw [q _ (by omega), if_neg (by omega), if_neg (by omega)]
  have hlt : c.knots c.degree < c.knots c.n := lt_of_lt_of_le hl (h.mono _ _ (by omega) (by omega))
  unfold preparePts
  simp only
  rw [q0, qE]
  apply List.map_congr_left
  intro i hi
  rw [List.mem_range] at hi
  have hm : (0 : K) < (m : K) := by exact_mod_cast (by omega : 0 < m)
  have hm' : (m : K) ≠ 0 := hm.ne'
  have him : (i : K) < (m : K) := by exact_mod_cast hi
  have hi0 : (0 : K) ≤ (i : K) := by exact_mod_cast (Nat.zero_le i)
  have e1 : (i : K) * ((c.knots c.n - c.knots c.degree) / (m : K)) = (i : K) / (m : K) * (c.knots c.n - c.knots c.degree) := by field_simp
  have hq : (0 : K) ≤ (i : K) / (m : K) ∧ (i : K) / (m : K) < 1 := ⟨div_nonneg hi0 hm.le, by rw [div_lt_one hm]; exact him⟩
  have hu1 : c.knots c.degree ≤ c.knots c.degree + (i : K) * ((c.knots c.n - c.knots c.degree) / (m : K)) := by
    rw [e1]
    have := mul_nonneg hq.1 (sub_pos.2 hlt).le
    linarith
  have hu2 : c.knots c.degree + (i : K) * ((c.knots c.n - c.knots c.degree) / (m : K)) < c.knots c.n := by
    rw [e1]
    have := mul_lt_mul_of_pos_right hq.2 (sub_pos.2 hlt)
    linarith
  generalize c.knots c.degree + (i : K) * ((c.knots c.n - c.knots c.degree) / (m : K)) = u at *
  unfold Curve.eval
  rw [evalH_spline c.clamp w u (by rw [hd', qp]; exact hu1) (by rw [n, qn]; exact hu2) (by rw [hd']; exact q1), sp u hu1 hu2]
  rfl

example : preparePts exCurve 2 = [some (1 / 2, 1 / 2), some (3 / 2, 5 / 2)] := by decide +kernel

/-- `Prepare` takes the curves of a loop one after the other. -/
theorem C71_prepare_order (cs : List (Curve K (K × K × K) × Nat)) : prepare cs = (cs.map fun c => preparePts c.1 c.2).flatten ∧
    (prepare cs).length = (cs.map fun c => c.2).sum := by
  constructor
  · rfl
  · unfold prepare
    rw [List.length_flatMap]
    congr 1
    apply List.map_congr_left
    intro c _
    unfold preparePts
    simp

example : (prepare [(exCurve, 2), (exCurve, 3)]).length = 5 := by decide +kernel

/-! ## Points and loops -/

/-- `TrimPoint` is the parity of the edges that the ray from the point to the left crosses; an edge that ends at the height of the point counts
only if it comes from below. -/
theorem C71_point_parity (l : List (K × K)) (v : K × K) :
    trimPoint l v = ((edges l).countP (fun e => decide (min e.1.2 e.2.2 < v.2 ∧ v.2 ≤ max e.1.2 e.2.2 ∧
      e.2.1 + (v.2 - e.2.2) / (e.1.2 - e.2.2) * (e.1.1 - e.2.1) < v.1)) % 2 == 1) := by
  cases hz : l.getLast? with
  | none => unfold trimPoint edges; rw [hz]; rfl
  | some z =>
    rw [trimPoint_par l z v hz]
    unfold edges
    rw [hz]
    have hcr : ∀ a b : K × K, crosses v b a = decide (min a.2 b.2 < v.2 ∧ v.2 ≤ max a.2 b.2 ∧ b.1 + (v.2 - b.2) / (a.2 - b.2) * (a.1 - b.1) < v.1) := by
      intro a b
      rw [Bool.eq_iff_iff, crosses_true, decide_eq_true_iff, min_lt_iff, le_max_iff]
      constructor
      · rintro ⟨h1 | h1, h2⟩
        · exact ⟨Or.inr h1.1, Or.inl h1.2, h2⟩
        · exact ⟨Or.inl h1.1, Or.inr h1.2, h2⟩
      · rintro ⟨h1, h2, h3⟩
        refine ⟨?_, h3⟩
        rcases h1 with h1 | h1 <;> rcases h2 with h2 | h2
        · exact absurd h1 (not_lt.2 h2)
        · exact Or.inr ⟨h1, h2⟩
        · exact Or.inl ⟨h1, h2⟩
        · exact absurd h1 (not_lt.2 h2)
    have : ∀ (m : List (K × K)) (y : K × K), par v y m = (((y :: m).zip m).countP (fun e => decide (min e.1.2 e.2.2 < v.2 ∧ v.2 ≤ max e.1.2 e.2.2 ∧
        e.2.1 + (v.2 - e.2.2) / (e.1.2 - e.2.2) * (e.1.1 - e.2.1) < v.1)) % 2 == 1) := by
      intro m
      induction m with
      | nil => intro y; rfl
      | cons a m ih =>
        intro y
        unfold par
        rw [ih, hcr]
        show _ = (((y, a) :: ((a :: m).zip m)).countP _ % 2 == 1)
        rw [List.countP_cons]
        simp only
        generalize ((a :: m).zip m).countP _ = n
        by_cases hd : (min y.2 a.2 < v.2 ∧ v.2 ≤ max y.2 a.2 ∧ a.1 + (v.2 - a.2) / (y.2 - a.2) * (y.1 - a.1) < v.1)
        · rw [decide_eq_true hd, if_pos rfl]
          rcases Nat.mod_two_eq_zero_or_one n with h | h
          · have : (n + 1) % 2 = 1 := by omega
            rw [h, this]; rfl
          · have : (n + 1) % 2 = 0 := by omega
            rw [h, this]; rfl
        · rw [decide_eq_false hd]
          simp
    exact this l z

example : trimPoint [((0 : ℚ), 0), (4, 0), (4, 4), (0, 4)] (1, 2) = true ∧ trimPoint [((0 : ℚ), 0), (4, 0), (4, 4), (0, 4)] (5, 2) = false := by
  decide +kernel

/-- The direction of a loop does not matter. -/
theorem C71_point_reverse (l : List (K × K)) (v : K × K) : trimPoint l.reverse v = trimPoint l v := by
  cases l with
  | nil => rfl
  | cons a l =>
    cases hl : l.getLast? with
    | none =>
      have : l = [] := by simpa using hl
      subst this
      rfl
    | some z =>
      obtain ⟨m, rfl⟩ : ∃ m, l = m ++ [z] := by
        rw [List.getLast?_eq_some_iff] at hl
        exact hl
      have h1 : trimPoint (a :: (m ++ [z])) v = par v z (a :: (m ++ [z])) := trimPoint_par _ _ _ (by simp [List.getLast?_cons])
      have h2 : trimPoint (a :: (m ++ [z])).reverse v = par v a (a :: (m ++ [z])).reverse := trimPoint_par _ _ _ (by
        rw [List.getLast?_reverse]; rfl)
      rw [h1, h2]
      have e1 : (a :: (m ++ [z])).reverse = z :: (m.reverse ++ [a]) := by simp
      rw [e1]
      unfold par
      rw [par_reverse, crosses_symm v z a, List.reverse_reverse]

example : trimPoint [((0 : ℚ), 0), (4, 0), (0, 4)].reverse (1, 1) = true := by decide +kernel

/-- The point where a loop begins does not matter. -/
theorem C71_point_rotate (l m : List (K × K)) (v : K × K) : trimPoint (l ++ m) v = trimPoint (m ++ l) v := by
  rcases List.eq_nil_or_concat l with rfl | ⟨l', y, rfl⟩
  · simp
  rcases List.eq_nil_or_concat m with rfl | ⟨m', z, rfl⟩
  · simp
  have h1 : trimPoint (l' ++ [y] ++ (m' ++ [z])) v = par v z (l' ++ y :: (m' ++ [z])) := by
    rw [trimPoint_par _ z v (by rw [← List.append_assoc, List.getLast?_concat])]
    simp
  have h2 : trimPoint (m' ++ [z] ++ (l' ++ [y])) v = par v y (m' ++ z :: (l' ++ [y])) := by
    rw [trimPoint_par _ y v (by rw [← List.append_assoc, List.getLast?_concat])]
    simp
  rw [List.concat_eq_append, List.concat_eq_append, h1, h2, par_append v z l' y (m' ++ [z]), par_append v y m' z (l' ++ [y]), Bool.xor_comm]

example : trimPoint [((0 : ℚ), 4), (0, 0), (4, 0)] (1, 1) = true := by decide +kernel

/-- For a triangle, and a point off the lines of its edges, `TrimPoint` tells whether the point is inside. -/
theorem C71_point_triangle (a b c v : K × K) (h1 : area a b v ≠ 0) (h2 : area b c v ≠ 0) (h3 : area c a v ≠ 0) :
    trimPoint [a, b, c] v = true ↔ Inside a b c v := trimPoint_triangle a b c v h1 h2 h3

example : Inside ((0 : ℚ), 0) (4, 0) (0, 4) (1, 1) ∧ ¬ Inside ((0 : ℚ), 0) (4, 0) (0, 4) (3, 3) := by
  unfold Inside area
  norm_num

/-- For any loop it tells whether the point is inside an odd number of the triangles that the loop forms with one of its points. -/
theorem C71_point_fan (o a b v : K × K) (l : List (K × K)) :
    trimPoint (o :: a :: b :: l) v = (trimPoint [o, a, b] v ^^ trimPoint (o :: b :: l) v) := trimPoint_fan o a b v l

example : trimPoint [((0 : ℚ), 0), (4, 0), (1, 1), (0, 4)] (2, 2) = false := by decide +kernel

/-- Two points joined by a segment that touches no edge of the loop are both inside or both outside. -/
theorem C71_point_connected (l : List (K × K)) (v w : K × K) (hn : ∀ e ∈ edges l, ¬ Touch v w e.1 e.2) : trimPoint l v = trimPoint l w :=
  trimPoint_touch l v w hn

example : trimPoint [((0 : ℚ), 0), (4, 0), (0, 4)] (1, 1) = trimPoint [((0 : ℚ), 0), (4, 0), (0, 4)] (2, 1) := by decide +kernel

/-- Several loops: a point is trimmed if it is inside an even number of them; without loops nothing is trimmed. -/
theorem C71_loops (loops : List (List (K × K))) (v : K × K) :
    trimPointAll loops v = (!loops.isEmpty && (loops.countP (fun l => trimPoint l v) % 2 == 0)) := by
  unfold trimPointAll
  cases loops with
  | nil => rfl
  | cons a l =>
    rw [if_neg (by simp)]
    simp only
    have : ∀ (m : List (List (K × K))) (c : Nat), m.foldl (fun c l => c + (if trimPoint l v then 1 else 0)) c = c + m.countP (fun l => trimPoint l v) := by
      intro m
      induction m with
      | nil => intro c; simp
      | cons b m ih => intro c; rw [List.foldl_cons, ih, List.countP_cons]; omega
    rw [this, Nat.zero_add]
    show _ = (true && _)
    rw [Bool.true_and]
    rcases Nat.mod_two_eq_zero_or_one ((a :: l).countP (fun l => trimPoint l v)) with h | h
    · rw [h]; rfl
    · rw [h]; rfl

example : trimPointAll ([] : List (List (ℚ × ℚ))) (0, 0) = false ∧ trimPointAll [[((0 : ℚ), 0), (4, 0), (0, 4)]] (1, 1) = false ∧
    trimPointAll [[((0 : ℚ), 0), (4, 0), (0, 4)]] (3, 3) = true := by decide +kernel

/-! ## Lines and loops -/

theorem meets_iff (v1 v2 p q : K × K) : meets v1 v2 p q = true ↔
    (v2.1 - v1.1) * (q.2 - p.2) - (v2.2 - v1.2) * (q.1 - p.1) ≠ 0 ∧ Touch v1 v2 p q := by
  unfold meets
  simp only
  by_cases hd : (v2.1 - v1.1) * (q.2 - p.2) - (v2.2 - v1.2) * (q.1 - p.1) = 0
  · rw [if_pos hd]
    simp [hd]
  · rw [if_neg hd]
    simp only [Bool.and_eq_true, decide_eq_true_eq, ne_eq, hd, not_false_eq_true, true_and]
    constructor
    · rintro ⟨⟨⟨h1, h2⟩, h3⟩, h4⟩
      refine ⟨_, _, h1, h3, h2, h4, ?_⟩
      unfold at'
      ext
      · show v1.1 + _ / _ * (v2.1 - v1.1) = p.1 + _ / _ * (q.1 - p.1)
        rw [div_mul_eq_mul_div, div_mul_eq_mul_div, ← sub_eq_zero, add_sub_add_comm, ← sub_div, add_div_eq_mul_add_div _ _ hd, div_eq_zero_iff]
        left
        ring
      · show v1.2 + _ / _ * (v2.2 - v1.2) = p.2 + _ / _ * (q.2 - p.2)
        rw [div_mul_eq_mul_div, div_mul_eq_mul_div, ← sub_eq_zero, add_sub_add_comm, ← sub_div, add_div_eq_mul_add_div _ _ hd, div_eq_zero_iff]
        left
        ring
    · rintro ⟨r, s, h1, h2, h3, h4, e⟩
      have ex : v1.1 + r * (v2.1 - v1.1) = p.1 + s * (q.1 - p.1) := congrArg Prod.fst e
      have ey : v1.2 + r * (v2.2 - v1.2) = p.2 + s * (q.2 - p.2) := congrArg Prod.snd e
      have er : ((v1.2 - p.2) * (q.1 - p.1) - (v1.1 - p.1) * (q.2 - p.2)) / ((v2.1 - v1.1) * (q.2 - p.2) - (v2.2 - v1.2) * (q.1 - p.1)) = r := by
        rw [div_eq_iff hd]
        linear_combination (q.1 - p.1) * ey - (q.2 - p.2) * ex
      have es : ((v1.2 - p.2) * (v2.1 - v1.1) - (v1.1 - p.1) * (v2.2 - v1.2)) / ((v2.1 - v1.1) * (q.2 - p.2) - (v2.2 - v1.2) * (q.1 - p.1)) = s := by
        rw [div_eq_iff hd]
        linear_combination (v2.1 - v1.1) * ey - (v2.2 - v1.2) * ex
      rw [er, es]
      exact ⟨⟨⟨h1, h3⟩, h2⟩, h4⟩

/-- `LineIntersects`: the line touches an edge that is not parallel to it. Missing: parallel edges (see `C71_line_violated`). -/
theorem C71_line_partial (l : List (K × K)) (v1 v2 : K × K) : lineIntersects l v1 v2 = true ↔
    ∃ e ∈ edges l, (v2.1 - v1.1) * (e.1.2 - e.2.2) - (v2.2 - v1.2) * (e.1.1 - e.2.1) ≠ 0 ∧ Touch v1 v2 e.1 e.2 := by
  unfold lineIntersects edges
  cases l.getLast? with
  | none => simp
  | some z =>
    simp only
    induction l generalizing z with
    | nil => simp [lineLoop]
    | cons a l ih =>
      unfold lineLoop
      by_cases h : meets v1 v2 a z = true
      · rw [if_pos h]
        have := (meets_iff v1 v2 a z).1 h
        simp only [true_iff]
        exact ⟨(z, a), by simp, this.1, touch_symm _ _ _ _ this.2⟩
      · rw [if_neg h, ih]
        constructor
        · rintro ⟨e, he, h1⟩
          exact ⟨e, by simp at he ⊢; tauto, h1⟩
        · rintro ⟨e, he, h1, h2⟩
          refine ⟨e, ?_, h1, h2⟩
          rw [show (z :: a :: l).zip (a :: l) = (z, a) :: (a :: l).zip l from rfl, List.mem_cons] at he
          rcases he with he | he
          · exfalso
            subst he
            exact h ((meets_iff v1 v2 a z).2 ⟨h1, touch_symm _ _ _ _ h2⟩)
          · exact he

example : lineIntersects [((0 : ℚ), 0), (4, 0), (0, 4)] (1, 1) (5, 1) = true ∧ lineIntersects [((0 : ℚ), 0), (4, 0), (0, 4)] (5, 1) (6, 1) = false := by
  decide +kernel

/-- A line that runs along a loop of two coinciding edges is not noticed. -/
theorem C71_line_violated : ∃ (l : List (ℚ × ℚ)) (v1 v2 : ℚ × ℚ), lineIntersects l v1 v2 = false ∧ ∃ e ∈ edges l, Touch v1 v2 e.1 e.2 :=
  ⟨[(0, 0), (4, 0)], (1, 0), (2, 0), by decide +kernel, ((0, 0), (4, 0)), by decide +kernel,
    0, 1 / 4, by norm_num, by norm_num, by norm_num, by norm_num, by unfold at'; norm_num⟩

/-! ## Micropolygons -/

/-- When a micropolygon is thrown away, checked at each sample, or kept: the first if all corners are cut off and no side meets a
curve, the last if no corner is cut off. -/
theorem C71_mp_cases (loops : List (List (K × K))) (outside : Bool) (a b c d : K × K) :
    (mpTrim loops outside a b c d = .discarded ↔ (∀ q ∈ [a, b, c, d], trimPointAll loops q ≠ outside) ∧
      ∀ e ∈ [(a, b), (b, c), (c, d), (d, a)], ∀ l ∈ loops, lineIntersects l e.1 e.2 = false) ∧
    (mpTrim loops outside a b c d = .whole ↔ ∀ q ∈ [a, b, c, d], trimPointAll loops q = outside) := by
  have hx : ∀ x y : Bool, (x ^^ y) = true ↔ x ≠ y := by decide
  have hl : ∀ v w, lineIntersectsAll loops v w = false ↔ ∀ l ∈ loops, lineIntersects l v w = false := fun v w => by
    unfold lineIntersectsAll
    rw [List.any_eq_false]
    simp
  simp only [List.forall_mem_cons, List.not_mem_nil, false_implies, implies_true, and_true, ← hl, ← hx, mpTrim]
  generalize lineIntersectsAll loops a b = l1
  generalize lineIntersectsAll loops b c = l2
  generalize lineIntersectsAll loops c d = l3
  generalize lineIntersectsAll loops d a = l4
  generalize trimPointAll loops a = p1
  generalize trimPointAll loops b = p2
  generalize trimPointAll loops c = p3
  generalize trimPointAll loops d = p4
  cases outside <;> cases p1 <;> cases p2 <;> cases p3 <;> cases p4 <;> simp
  all_goals (cases l1 <;> cases l2 <;> cases l3 <;> cases l4 <;> decide)

/-- Sense "inside": there is a hit exactly where the surface is not trimmed, if the trim curves leave the way from some corner of the micropolygon to
the hit free, or if the micropolygon is marked. Missing: small loops within a micropolygon (see `C71_mp_hole_violated`,
`C71_mp_island_violated`). -/
theorem C71_mp_inside_partial (loops : List (List (K × K))) (a b c d v : K × K)
    (h : mpTrim loops false a b c d = .checked ∨
      ∃ q, (q = a ∨ q = b ∨ q = c ∨ q = d) ∧ ∀ l ∈ loops, ∀ e ∈ edges l, ¬ Touch q v e.1 e.2) :
    mpHit loops false a b c d v = !trimPointAll loops v := by
  rcases h with h | ⟨q, hq, hn⟩
  · unfold mpHit
    rw [h]
    simp [hitTrimmed]
  · have e : trimPointAll loops q = trimPointAll loops v := by
      rw [C71_loops, C71_loops]
      congr 3
      apply List.countP_congr
      intro l hl
      rw [trimPoint_touch l q v (hn l hl)]
    unfold mpHit
    cases hm : mpTrim loops false a b c d with
    | checked => simp [hitTrimmed]
    | discarded =>
      unfold mpTrim at hm
      simp only [Bool.xor_false] at hm
      split_ifs at hm with h1 h2
      simp only [Bool.and_eq_true] at h1
      have : trimPointAll loops q = true := by rcases hq with rfl | rfl | rfl | rfl <;> tauto
      rw [← e, this]
      rfl
    | whole =>
      unfold mpTrim at hm
      simp only [Bool.xor_false] at hm
      split_ifs at hm with h1 h2
      simp only [Bool.or_eq_true, not_or] at h2
      have : trimPointAll loops q = false := by rw [Bool.eq_false_iff]; rcases hq with rfl | rfl | rfl | rfl <;> tauto
      rw [← e, this]
      rfl

/-- A square of side 2 about the origin. -/
def exMp : (ℚ × ℚ) × (ℚ × ℚ) × (ℚ × ℚ) × (ℚ × ℚ) := ((-1, -1), (1, -1), (1, 1), (-1, 1))

example : mpHit [[((0 : ℚ), -5), (5, 0), (0, 5)]] false (-1, -1) (1, -1) (1, 1) (-1, 1) (1 / 2, 0) = true ∧
    mpHit [[((0 : ℚ), -5), (5, 0), (0, 5)]] false (-1, -1) (1, -1) (1, 1) (-1, 1) (-1 / 2, 0) = false := by decide +kernel

/-- Sense "outside": right for micropolygons that are drawn whole or not at all. Missing: those that a trim curve crosses
(see `C71_mp_outside_violated`), and surfaces without trim curves (see `C71_outside_no_loops_violated`). -/
theorem C71_mp_outside_partial (loops : List (List (K × K))) (a b c d v : K × K) (h : mpTrim loops true a b c d ≠ .checked)
    (hq : ∃ q, (q = a ∨ q = b ∨ q = c ∨ q = d) ∧ ∀ l ∈ loops, ∀ e ∈ edges l, ¬ Touch q v e.1 e.2) :
    mpHit loops true a b c d v = trimPointAll loops v := by
  obtain ⟨q, hq, hn⟩ := hq
  have e : trimPointAll loops q = trimPointAll loops v := by
    rw [C71_loops, C71_loops]
    congr 3
    apply List.countP_congr
    intro l hl
    rw [trimPoint_touch l q v (hn l hl)]
  unfold mpHit
  cases hm : mpTrim loops true a b c d with
  | checked => exact absurd hm h
  | discarded =>
    unfold mpTrim at hm
    simp only [Bool.xor_true] at hm
    split_ifs at hm with h1 h2
    simp only [Bool.and_eq_true, Bool.not_eq_true'] at h1
    have : trimPointAll loops q = false := by rcases hq with rfl | rfl | rfl | rfl <;> tauto
    rw [← e, this]
  | whole =>
    unfold mpTrim at hm
    simp only [Bool.xor_true] at hm
    split_ifs at hm with h1 h2
    simp only [Bool.or_eq_true, not_or, Bool.not_eq_true', Bool.not_eq_false] at h2
    have : trimPointAll loops q = true := by rcases hq with rfl | rfl | rfl | rfl <;> tauto
    rw [← e, this]

example : mpTrim [[((-5 : ℚ), -5), (15, -5), (-5, 15)]] true (-1, -1) (1, -1) (1, 1) (-1, 1) = .discarded ∧
    mpTrim [[((10 : ℚ), 10), (15, 10), (10, 15)]] true (-1, -1) (1, -1) (1, 1) (-1, 1) = .whole := by decide +kernel

/-- Sense "outside": a micropolygon that is crossed by a trim curve is drawn whole. -/
theorem C71_mp_outside_violated : (∀ (loops : List (List (K × K))) (v : K × K), hitTrimmed loops true v = false) ∧
    ∃ (loops : List (List (ℚ × ℚ))) (v : ℚ × ℚ), trimPointAll loops v = false ∧ loops ≠ [] ∧
      mpHit loops true exMp.1 exMp.2.1 exMp.2.2.1 exMp.2.2.2 v = true :=
  ⟨fun loops v => by simp [hitTrimmed], [[(0, -5), (5, 0), (0, 5)]], (1 / 2, 0), by decide +kernel, by decide +kernel, by decide +kernel⟩

/-- Sense "outside" and no trim curves: nothing of the surface is drawn. -/
theorem C71_outside_no_loops_violated (a b c d v : K × K) : mpHit [] true a b c d v = false ∧ trimPointAll ([] : List (List (K × K))) v = false := by
  constructor <;> rfl

/-- A hole within a micropolygon is not cut. -/
theorem C71_mp_hole_violated : ∃ (loops : List (List (ℚ × ℚ))) (v : ℚ × ℚ), trimPointAll loops v = true ∧
    mpHit loops false exMp.1 exMp.2.1 exMp.2.2.1 exMp.2.2.2 v = true :=
  ⟨[[(-9, -9), (9, -9), (9, 9), (-9, 9)], [(-1 / 2, -1 / 2), (1 / 2, -1 / 2), (0, 1 / 2)]], (0, 0), by decide +kernel, by decide +kernel⟩

/-- An island within a micropolygon is dropped. -/
theorem C71_mp_island_violated : ∃ (loops : List (List (ℚ × ℚ))) (v : ℚ × ℚ), trimPointAll loops v = false ∧
    mpHit loops false exMp.1 exMp.2.1 exMp.2.2.1 exMp.2.2.2 v = false :=
  ⟨[[(-1 / 2, -1 / 2), (1 / 2, -1 / 2), (0, 1 / 2)]], (0, 0), by decide +kernel, by decide +kernel⟩

/-! ## RiTrimCurve -/

section
variable {F : Type} [Zero F]

theorem readLoop_spec (a : TrimArgs F) (m : Nat) (ix : TrimIx) :
    let cs := (readLoop a m ix).1
    let jx := (readLoop a m ix).2
    cs.length = m ∧ jx.icurve = ix.icurve + m ∧ jx.iknot = ix.iknot + (cs.map fun c => c.order + c.n).sum ∧
      jx.ivert = ix.ivert + (cs.map fun c => c.n).sum ∧
      cs.map (fun c => c.order) = (List.range m).map (fun i => a.order.getD (ix.icurve + i) 0) ∧
      cs.map (fun c => c.n) = (List.range m).map (fun i => a.n.getD (ix.icurve + i) 0) ∧
      cs.flatMap (fun c => (List.range (c.order + c.n)).map c.knots) =
        (List.range ((cs.map fun c => c.order + c.n).sum)).map (fun i => a.knot.getD (ix.iknot + i) 0) ∧
      cs.flatMap (fun c => (List.range c.n).map c.pts) = (List.range ((cs.map fun c => c.n).sum)).map
        (fun i => (a.u.getD (ix.ivert + i) 0, a.v.getD (ix.ivert + i) 0, a.w.getD (ix.ivert + i) 0)) := by
  induction m generalizing ix with
  | zero => simp [readLoop]
  | succ m ih =>
    obtain ⟨h1, h2, h3, h4, h5, h6, h7, h8⟩ := ih (readCurve a ix).2
    unfold readLoop
    simp only
    refine ⟨by simp [h1], by rw [h2]; simp [readCurve]; omega, by rw [h3]; simp [readCurve]; omega, by rw [h4]; simp [readCurve]; omega,
      ?_, ?_, ?_, ?_⟩
    · rw [List.map_cons, h5, List.range_succ_eq_map, List.map_cons, List.map_map]
      congr 1
      apply List.map_congr_left
      intro i _
      show a.order.getD (ix.icurve + 1 + i) 0 = a.order.getD (ix.icurve + (i + 1)) 0
      congr 1; omega
    · rw [List.map_cons, h6, List.range_succ_eq_map, List.map_cons, List.map_map]
      congr 1
      apply List.map_congr_left
      intro i _
      show a.n.getD (ix.icurve + 1 + i) 0 = a.n.getD (ix.icurve + (i + 1)) 0
      congr 1; omega
    · rw [List.flatMap_cons, h7, List.map_cons, List.sum_cons, List.range_add (n := (readCurve a ix).1.order + (readCurve a ix).1.n), List.map_append, List.map_map]
      congr 1
      apply List.map_congr_left
      intro i _
      show a.knot.getD (ix.iknot + (a.order.getD ix.icurve 0 + a.n.getD ix.icurve 0) + i) 0 =
        a.knot.getD (ix.iknot + ((a.order.getD ix.icurve 0 + a.n.getD ix.icurve 0) + i)) 0
      congr 1; omega
    · rw [List.flatMap_cons, h8, List.map_cons, List.sum_cons, List.range_add, List.map_append, List.map_map]
      congr 1
      apply List.map_congr_left
      intro i _
      show (a.u.getD (ix.ivert + a.n.getD ix.icurve 0 + i) 0, a.v.getD (ix.ivert + a.n.getD ix.icurve 0 + i) 0,
          a.w.getD (ix.ivert + a.n.getD ix.icurve 0 + i) 0) = (a.u.getD (ix.ivert + (a.n.getD ix.icurve 0 + i)) 0,
          a.v.getD (ix.ivert + (a.n.getD ix.icurve 0 + i)) 0, a.w.getD (ix.ivert + (a.n.getD ix.icurve 0 + i)) 0)
      rw [Nat.add_assoc]

theorem readLoop_append (a : TrimArgs F) (m m' : Nat) (ix : TrimIx) :
    (readLoop a (m + m') ix).1 = (readLoop a m ix).1 ++ (readLoop a m' (readLoop a m ix).2).1 := by
  induction m generalizing ix with
  | zero => simp [readLoop]
  | succ m ih =>
    rw [Nat.add_right_comm]
    show (readCurve a ix).1 :: (readLoop a (m + m') (readCurve a ix).2).1 = _
    rw [ih]
    rfl

theorem readLoops_flatten (a : TrimArgs F) (nc : List Nat) (ix : TrimIx) : (readLoops a nc ix).flatten = (readLoop a nc.sum ix).1 := by
  induction nc generalizing ix with
  | nil => rfl
  | cons n nc ih =>
    unfold readLoops
    simp only
    rw [List.flatten_cons, ih, List.sum_cons, readLoop_append]

theorem range_getD {G : Type} (l : List G) (z : G) : (List.range l.length).map (fun i => l.getD i z) = l := by
  apply List.ext_getElem
  · simp
  · intro i h1 h2
    simp [List.getElem?_eq_getElem h2]

/-- RiTrimCurve: every loop gets as many curves as asked for, and the arrays are divided among the curves without gap or overlap. -/
theorem C71_read (ncurves : List Nat) (a : TrimArgs F) (h1 : a.order.length = ncurves.sum) (h2 : a.n.length = ncurves.sum)
    (h3 : a.knot.length = (List.zipWith (· + ·) a.order a.n).sum) (h4 : a.u.length = a.n.sum) :
    let loops := trimCurve ncurves a
    let cs := loops.flatten
    loops.map List.length = ncurves ∧ cs.map (fun c => c.order) = a.order ∧ cs.map (fun c => c.n) = a.n ∧
      cs.flatMap (fun c => (List.range (c.order + c.n)).map c.knots) = a.knot ∧
      cs.flatMap (fun c => (List.range c.n).map c.pts) = (List.range a.n.sum).map (fun i => (a.u.getD i 0, a.v.getD i 0, a.w.getD i 0)) ∧
      cs.flatMap (fun c => (List.range c.n).map fun i => (c.pts i).1) = a.u := by
  simp only
  unfold trimCurve
  rw [readLoops_flatten]
  obtain ⟨g1, g2, g3, g4, g5, g6, g7, g8⟩ := readLoop_spec a ncurves.sum ⟨0, 0, 0⟩
  simp only [Nat.zero_add] at g5 g6 g7 g8
  have o : (readLoop a ncurves.sum ⟨0, 0, 0⟩).1.map (fun c => c.order) = a.order := by rw [g5, ← h1]; exact range_getD _ _
  have n : (readLoop a ncurves.sum ⟨0, 0, 0⟩).1.map (fun c => c.n) = a.n := by rw [g6, ← h2]; exact range_getD _ _
  have s : (readLoop a ncurves.sum ⟨0, 0, 0⟩).1.map (fun c => c.order + c.n) = List.zipWith (· + ·) a.order a.n := by
    rw [← o, ← n, List.zipWith_map, List.zipWith_self]
  have pp : (readLoop a ncurves.sum ⟨0, 0, 0⟩).1.flatMap (fun c => (List.range c.n).map c.pts) =
      (List.range a.n.sum).map (fun i => (a.u.getD i 0, a.v.getD i 0, a.w.getD i 0)) := by rw [g8, n]
  refine ⟨?_, o, n, ?_, pp, ?_⟩
  · have : ∀ (nc : List Nat) (ix : TrimIx), (readLoops a nc ix).map List.length = nc := by
      intro nc
      induction nc with
      | nil => intro ix; rfl
      | cons m nc ih =>
        intro ix
        unfold readLoops
        simp only [List.map_cons]
        rw [ih, (readLoop_spec a m ix).1]
    exact this _ _
  · rw [g7, s, ← h3]; exact range_getD _ _
  · have := congrArg (List.map Prod.fst) pp
    rw [List.map_flatMap] at this
    simp only [List.map_map] at this
    refine Eq.trans (Eq.trans ?_ this) ?_
    · rfl
    · rw [← h4]
      exact range_getD _ _

/-- The ranges of the parameters are ignored. -/
theorem C71_read_range_violated : (∀ (ncurves : List Nat) (a : TrimArgs F) (mn mx : List F),
      trimCurve ncurves { a with min := mn, max := mx } = trimCurve ncurves a) ∧
    ∃ a : TrimArgs ℚ, a.min = [1 / 2] ∧ a.max = [1] ∧
      (trimCurve [1] a).map (fun l => prepare (l.map fun c => (c, 2))) = [[some (0, 0), some (1 / 2, 0)]] := by
  refine ⟨fun nc a mn mx => ?_, ⟨[2], [0, 0, 1, 1], [1 / 2], [1], [2], [0, 1], [0, 0], [1, 1]⟩, rfl, rfl, by decide +kernel⟩
  have hl : ∀ (m : Nat) (ix : TrimIx), readLoop { a with min := mn, max := mx } m ix = readLoop a m ix := by
    intro m
    induction m with
    | zero => intro ix; rfl
    | succ m ih =>
      intro ix
      unfold readLoop
      simp only [ih]
      rfl
  unfold trimCurve
  generalize (⟨0, 0, 0⟩ : TrimIx) = ix
  induction nc generalizing ix with
  | nil => rfl
  | cons m nc ih =>
    unfold readLoops
    simp only [hl, ih]

example : (trimCurve [1, 1] (⟨[2, 2], [0, 0, 1, 1, 0, 0, 2, 2], [0, 0], [1, 2], [2, 2], [0, 1, 2, 3], [0, 0, 0, 0], [1, 1, 1, 1]⟩ : TrimArgs ℚ)).map
    (fun l => l.map fun c => (List.range 4).map c.knots) = [[[0, 0, 1, 1]], [[0, 0, 2, 2]]] := by decide +kernel

end

end Verif.Geom.Trim
