import Verif.Geom.Trim
import Verif.Geom.BSpline
import Mathlib.Tactic.Tauto
import Mathlib.Tactic.ByContra
import Mathlib.Tactic.Push
/-!
# Lemmas on trim curves
-/
namespace Verif.Geom.Trim
open Verif.Geom.BSpline

set_option linter.unusedSectionVars false

variable {K : Type} [Field K] [LinearOrder K] [IsStrictOrderedRing K] {V : Type} [AddCommGroup V] [Module K V]

/-- Knots `0 … m` continued constantly on both sides. Specification. -/
def ext (T : Nat → K) (m : Nat) : ℤ → K := fun i => T (min i.toNat m)

omit [Field K] [IsStrictOrderedRing K] in
theorem ext_mono (T : Nat → K) (m : Nat) (h : ∀ i j, i ≤ j → j ≤ m → T i ≤ T j) : Monotone (ext T m) := by
  intro a b hab
  exact h _ _ (by omega) (by omega)

omit [Field K] [LinearOrder K] [IsStrictOrderedRing K] in
theorem ext_nat (T : Nat → K) (m : Nat) (i : ℤ) (j : Nat) (hi : i = j) (h : j ≤ m) : ext T m i = T j := by
  unfold ext
  congr 1
  omega

/-! ## Spans -/

theorem findLoop_spec (T : Nat → K) (n size : Nat) (u : K) (hs : n < size) (hu : u < T n) :
    ∀ (fuel low high : Nat), low < n → low < high → high ≤ n + 1 → T low ≤ u → (high ≤ n → u < T high) → high - low < fuel →
      ∃ j, findLoop T size u fuel low high = some j ∧ j < n ∧ T j ≤ u ∧ u < T (j + 1) := by
  intro fuel
  induction fuel with
  | zero => intro low high _ _ _ _ _ h; omega
  | succ fuel ih =>
    intro low high hl hlh hh hTl hTh hf
    unfold findLoop
    simp only
    have hm : (low + high) / 2 ≤ n := by omega
    rw [if_neg (by omega)]
    by_cases h1 : u < T ((low + high) / 2)
    · rw [if_pos h1]
      have hlm : low < (low + high) / 2 := by
        by_contra hc
        have : (low + high) / 2 = low := by omega
        rw [this] at h1
        exact absurd h1 (not_lt.2 hTl)
      exact ih _ _ hl hlm (by omega) hTl (fun _ => h1) (by omega)
    · rw [if_neg h1]
      have hmn : (low + high) / 2 ≠ n := by
        intro hc
        rw [hc] at h1
        exact h1 hu
      rw [if_neg (by omega)]
      push Not at h1
      by_cases h2 : T ((low + high) / 2 + 1) ≤ u
      · rw [if_pos h2]
        have hlm : low < (low + high) / 2 := by
          by_contra hc
          have e : (low + high) / 2 = low := by omega
          have e2 : (low + high) / 2 + 1 = high := by omega
          rw [e2] at h2
          exact absurd (hTh (by omega)) (not_lt.2 h2)
        exact ih _ _ (by omega) (by omega) hh h1 hTh (by omega)
      · rw [if_neg h2]
        push Not at h2
        exact ⟨_, rfl, by omega, h1, h2⟩

/-- What is assumed of a curve: order at least one, at least as many points as the order, knots in order. -/
structure Wf (c : Curve K V) : Prop where
  order : 1 ≤ c.order
  pts : c.order ≤ c.n
  mono : ∀ i j, i ≤ j → j ≤ c.n + c.degree → c.knots i ≤ c.knots j

theorem findSpan_spec (c : Curve K V) (h : Wf c) (u : K) (h1 : c.knots c.degree ≤ u) (h2 : u < c.knots c.n)
    (h3 : c.knots c.degree < c.knots (c.degree + 1)) :
    ∃ j, c.findSpan u = some j ∧ c.degree ≤ j ∧ j < c.n ∧ c.knots j ≤ u ∧ u < c.knots (j + 1) := by
  have ho := h.order
  have hp := h.pts
  have hd : c.degree + 1 = c.order := by unfold Curve.degree; omega
  unfold Curve.findSpan
  rw [if_neg (not_le.2 h2)]
  by_cases hu : u ≤ c.knots c.degree
  · rw [if_pos hu]
    exact ⟨_, rfl, le_refl _, by omega, h1, lt_of_le_of_lt hu h3⟩
  · rw [if_neg hu]
    push Not at hu
    obtain ⟨j, e, a, b, d⟩ := findLoop_spec c.knots c.n c.cKnots u (by unfold Curve.cKnots; omega) h2 (c.n + 2) 0 (c.n + 1) (by omega) (by omega)
      (by omega) ((h.mono 0 c.degree (by omega) (by omega)).trans h1) (fun h => by omega) (by omega)
    refine ⟨j, e, ?_, a, b, d⟩
    by_contra hc
    push Not at hc
    exact absurd (h.mono (j + 1) c.degree (by omega) (by omega)) (not_le.2 (hu.trans d))

/-! ## Basis functions -/

/-- The result of the inner loop. -/
def innerRes (ω : Nat → K) (m : Nat) (B : Nat → K) : Nat → K := fun x =>
  if x < m then ω x * B x + (if x = 0 then 0 else (1 - ω (x - 1)) * B (x - 1))
  else if x = m ∧ 0 < m then B m + (1 - ω (m - 1)) * B (m - 1) else B x

omit [IsStrictOrderedRing K] in
theorem basisInner_spec (T : Nat → K) (u : K) (span r : Nat) (m : Nat) (B : Nat → K) (hm : m ≤ span + 1) (hr : 1 ≤ r)
    (hd : ∀ s, s < m → T (span - s + r - 1) - T (span - s) ≠ 0) :
    basisInner T u span r m B =
      some (innerRes (fun s => (u - T (span - s)) / (T (span - s + r - 1) - T (span - s))) m B) := by
  induction m generalizing B with
  | zero =>
    unfold basisInner
    congr 1
    funext x
    unfold innerRes
    rw [if_neg (by omega), if_neg (by omega)]
  | succ s ih =>
    unfold basisInner
    simp only
    have e1 : ((span : Int) - (s : Int)).toNat = span - s := by omega
    have e2 : ((span : Int) - (s : Int) + (r : Int) - 1).toNat = span - s + r - 1 := by omega
    rw [if_neg (by omega), e1, e2]
    unfold sdiv
    rw [if_neg (hd s (by omega)), Option.bind_some, ih _ (by omega) (fun x hx => hd x (by omega))]
    congr 1
    funext x
    unfold innerRes
    simp only
    rcases lt_trichotomy x s with hx | hx | hx
    · rw [if_pos hx, if_pos (show x < s + 1 by omega)]
      by_cases h0 : x = 0
      · subst h0
        rw [if_pos rfl, Function.update_of_ne (by omega), Function.update_of_ne (by omega), if_pos rfl]
      · rw [if_neg h0, if_neg h0, Function.update_of_ne (by omega), Function.update_of_ne (by omega), Function.update_of_ne (by omega),
          Function.update_of_ne (by omega)]
    · subst hx
      rw [if_neg (lt_irrefl x), if_pos (show x < x + 1 by omega)]
      by_cases h0 : 0 < x
      · rw [if_pos (show x = x ∧ 0 < x from ⟨rfl, h0⟩), if_neg (show ¬ x = 0 by omega), Function.update_self,
          Function.update_of_ne (by omega), Function.update_of_ne (by omega), Function.update_of_ne (by omega)]
      · rw [if_neg (show ¬ (x = x ∧ 0 < x) from fun h => h0 h.2), if_pos (show x = 0 by omega), Function.update_self,
          Function.update_of_ne (by omega), add_zero]
    · rw [if_neg (show ¬ x < s by omega), if_neg (show ¬ (x = s ∧ 0 < s) by omega), if_neg (show ¬ x < s + 1 by omega),
        Function.update_of_ne (by omega)]
      by_cases h1 : x = s + 1
      · subst h1
        rw [if_pos (show s + 1 = s + 1 ∧ 0 < s + 1 by omega), Function.update_self, Nat.add_sub_cancel]
      · rw [if_neg (show ¬ (x = s + 1 ∧ 0 < s + 1) by omega), Function.update_of_ne h1]

/-- Cox and de Boor: what one round of `BasisFunctions` does to a sum over the points. -/
theorem innerRes_sum (t : ℤ → K) (u : K) (span q : Nat) (B : Nat → K) (hq : 0 < q) (hB : B q = 0) (ω : Nat → K)
    (hω : ∀ s, s < q → ω s = (u - t ((span : ℤ) - s)) / (t ((span : ℤ) - s + q) - t ((span : ℤ) - s))) (P : ℤ → V) :
    ∑ x ∈ Finset.range (q + 1), innerRes ω q B x • P ((span : ℤ) - x) =
      ∑ x ∈ Finset.range q, B x • step t q P u ((span : ℤ) - x) := by
  have e : ∀ x ∈ Finset.range (q + 1), innerRes ω q B x • P ((span : ℤ) - x) =
      (ω x * B x) • P ((span : ℤ) - x) + (if x = 0 then (0 : K) else (1 - ω (x - 1)) * B (x - 1)) • P ((span : ℤ) - x) := by
    intro x hx
    rw [Finset.mem_range] at hx
    rw [← add_smul]
    congr 1
    unfold innerRes
    by_cases h : x < q
    · rw [if_pos h]
    · have : x = q := by omega
      subst this
      rw [if_neg h, if_pos ⟨rfl, hq⟩, if_neg (by omega), hB]
      ring
  rw [Finset.sum_congr rfl e, Finset.sum_add_distrib, Finset.sum_range_succ (fun x : Nat => (ω x * B x) • P ((span : ℤ) - x)) q,
    Finset.sum_range_succ' (fun x : Nat => (if x = 0 then (0 : K) else (1 - ω (x - 1)) * B (x - 1)) • P ((span : ℤ) - x)) q, hB]
  simp only [mul_zero, zero_smul, add_zero, if_true]
  rw [← Finset.sum_add_distrib]
  apply Finset.sum_congr rfl
  intro x hx
  rw [Finset.mem_range] at hx
  rw [if_neg (by omega), Nat.add_sub_cancel, step_apply, ← hω x hx]
  have : (span : ℤ) - ((x + 1 : ℕ) : ℤ) = (span : ℤ) - x - 1 := by push_cast; ring
  rw [this]
  module

theorem basisFns_sum (T : Nat → K) (t : ℤ → K) (ht : Monotone t) (u : K) (span p : Nat) (hp : p ≤ span)
    (hT : ∀ i : Nat, span < i + p → i ≤ span + p → T i = t i) (hn : t span < t (span + 1)) (m : Nat) (hm : m ≤ p) :
    ∃ B, basisFns T u span m = some B ∧ ∀ P : ℤ → V, ∑ s ∈ Finset.range (m + 1), B s • P ((span : ℤ) - s) = deBoor t span u m P := by
  induction m with
  | zero =>
    refine ⟨_, rfl, fun P => ?_⟩
    simp [deBoor]
  | succ m ih =>
    obtain ⟨B, e, hB⟩ := ih (by omega)
    have hlt : ∀ s : Nat, s < m + 1 → t ((span : ℤ) - s) < t ((span : ℤ) - s + (m + 1 : ℕ)) := fun s hs =>
      lt_of_le_of_lt (ht (by omega)) (lt_of_lt_of_le hn (ht (by push_cast; omega)))
    have hT1 : ∀ s : Nat, s < m + 1 → T (span - s) = t ((span : ℤ) - s) := fun s hs => by
      rw [hT _ (by omega) (by omega)]; congr 1; omega
    have hT2 : ∀ s : Nat, s < m + 1 → T (span - s + (m + 2) - 1) = t ((span : ℤ) - s + (m + 1 : ℕ)) := fun s hs => by
      rw [hT _ (by omega) (by omega)]; congr 1; omega
    unfold basisFns
    rw [e, Option.bind_some, basisInner_spec T u span (m + 2) (m + 1) _ (by omega) (by omega) (fun s hs => by
      rw [hT1 s hs, hT2 s hs]; exact (sub_pos.2 (hlt s hs)).ne')]
    refine ⟨_, rfl, fun P => ?_⟩
    rw [innerRes_sum t u span (m + 1) _ (by omega) (Function.update_self _ _ _) _ (fun s hs => by rw [hT1 s hs, hT2 s hs]) P]
    show _ = deBoor t span u m (step t (m + 1) P u)
    rw [← hB]
    apply Finset.sum_congr rfl
    intro x hx
    rw [Finset.mem_range] at hx
    rw [Function.update_of_ne (by omega)]

/-- The knots of a curve, continued constantly. -/
def Curve.t (c : Curve K V) : ℤ → K := ext c.knots (c.n + c.degree)

/-- The points of a curve as a function on the integers. -/
def Curve.p (c : Curve K V) : ℤ → V := fun i => c.pts i.toNat

/-- The B-spline curve, by the recursion of Cox and de Boor. Specification. -/
def Curve.spline (c : Curve K V) (u : K) : V := ∑ i ∈ Finset.range c.n, cox c.t c.degree i u • c.pts i

theorem t_mono (c : Curve K V) (h : Wf c) : Monotone c.t := ext_mono _ _ h.mono

theorem t_nat (c : Curve K V) (i : ℤ) (j : Nat) (hi : i = j) (h : j ≤ c.n + c.degree) : c.t i = c.knots j := ext_nat _ _ _ _ hi h

theorem foldl_sum (f : Nat → V) (m : Nat) (a : V) : (List.range m).foldl (fun r j => r + f j) a = a + ∑ j ∈ Finset.range m, f j := by
  induction m with
  | zero => simp
  | succ m ih => rw [List.range_succ, List.foldl_append, ih, Finset.sum_range_succ, ← add_assoc]; rfl

/-- The spline within a span. -/
theorem spline_deBoor (c : Curve K V) (h : Wf c) (u : K) (j : Nat) (hj : c.degree ≤ j) (hj' : j < c.n) (h1 : c.knots j ≤ u)
    (h2 : u < c.knots (j + 1)) : c.spline u = deBoor c.t j u c.degree c.p := by
  have ht := t_mono c h
  have a1 : c.t j ≤ u := by rw [t_nat c j j rfl (by omega)]; exact h1
  have a2 : u < c.t ((j : ℤ) + 1) := by rw [t_nat c _ (j + 1) (by push_cast; rfl) (by omega)]; exact h2
  rw [deBoor_eq_sum c.t ht j u a1 a2]
  unfold Curve.spline
  have hsub : (Finset.range (c.degree + 1)).image (fun r => j - c.degree + r) ⊆ Finset.range c.n := by
    intro x hx
    rw [Finset.mem_image] at hx
    obtain ⟨r, hr, rfl⟩ := hx
    rw [Finset.mem_range] at *
    omega
  rw [← Finset.sum_subset hsub (fun x _ hx' => by
    rw [cox_zero c.t ht j u a1 a2, zero_smul]
    rw [Finset.mem_image] at hx'
    push Not at hx'
    by_contra hc
    push Not at hc
    exact hx' (x - (j - c.degree)) (by rw [Finset.mem_range]; omega) (by omega))]
  rw [Finset.sum_image (fun a _ b _ hab => by simpa using hab)]
  apply Finset.sum_congr rfl
  intro r _
  have e : ((j - c.degree + r : ℕ) : ℤ) = (j : ℤ) - c.degree + r := by omega
  rw [e]
  congr 1
  unfold Curve.p
  congr 1
  omega

/-- `Evaluate` in a span that is not empty. -/
theorem evalH_span (c : Curve K V) (h : Wf c) (u : K) (j : Nat) (e : c.findSpan u = some j) (hj : c.degree ≤ j) (hj' : j < c.n)
    (h1 : c.knots j < c.knots (j + 1)) : c.evalH u = some (deBoor c.t j u c.degree c.p) := by
  have ho := h.order
  have hd : c.order = c.degree + 1 := by unfold Curve.degree; omega
  obtain ⟨B, eB, hB⟩ := basisFns_sum (V := V) c.knots c.t (t_mono c h) u j c.degree hj (fun i _ h2 => (t_nat c i i rfl (by omega)).symm)
    (by rw [t_nat c j j rfl (by omega), t_nat c _ (j + 1) (by push_cast; rfl) (by omega)]; exact h1) c.degree (le_refl _)
  unfold Curve.evalH
  rw [e, Option.bind_some]
  have : c.order - 1 = c.degree := rfl
  rw [this, eB, Option.map_some, foldl_sum, zero_add, ← hB, hd]
  congr 1
  rw [← Finset.sum_range_reflect]
  apply Finset.sum_congr rfl
  intro x hx
  rw [Finset.mem_range] at hx
  have e1 : c.degree - (c.degree + 1 - 1 - x) = x := by omega
  rw [e1]
  congr 1
  unfold Curve.p
  congr 1
  omega

theorem evalH_spline (c : Curve K V) (h : Wf c) (u : K) (h1 : c.knots c.degree ≤ u) (h2 : u < c.knots c.n)
    (h3 : c.knots c.degree < c.knots (c.degree + 1)) : c.evalH u = some (c.spline u) := by
  obtain ⟨j, e, a, b, d, f⟩ := findSpan_spec c h u h1 h2 h3
  rw [evalH_span c h u j e a b (lt_of_le_of_lt d f), spline_deBoor c h u j a b d f]

/-- A parameter of the domain lies in a span that is not empty. -/
theorem exists_span (c : Curve K V) (h : Wf c) (u : K) (h1 : c.knots c.degree ≤ u) (h2 : u < c.knots c.n) :
    ∃ j, c.degree ≤ j ∧ j < c.n ∧ c.knots j ≤ u ∧ u < c.knots (j + 1) := by
  have hp := h.pts
  have ho := h.order
  have hd : c.order = c.degree + 1 := by unfold Curve.degree; omega
  have hex : ∃ m, u < c.knots (c.degree + m) := ⟨c.n - c.degree, by rw [Nat.add_sub_cancel' (by omega)]; exact h2⟩
  classical
  have hf := Nat.find_spec hex
  have hmin : ∀ m, m < Nat.find hex → ¬ u < c.knots (c.degree + m) := fun m hm => Nat.find_min hex hm
  have hle : Nat.find hex ≤ c.n - c.degree := Nat.find_min' hex (by rw [Nat.add_sub_cancel' (by omega)]; exact h2)
  generalize Nat.find hex = m at *
  have h0 : m ≠ 0 := by
    rintro rfl
    exact absurd hf (not_lt.2 h1)
  refine ⟨c.degree + (m - 1), by omega, by omega, not_lt.1 (hmin (m - 1) (by omega)), ?_⟩
  have : c.degree + (m - 1) + 1 = c.degree + m := by omega
  rw [this]
  exact hf

end Verif.Geom.Trim
