import Verif.Geom.Nurbs
import Verif.Geom.TrimClampLemmas
/-!
# Lemmas on NURBS: basis functions, the ends of a curve, refinement
-/
namespace Verif.Geom.Nurbs
open Verif.Geom.BSpline Verif.Geom.Trim

set_option linter.unusedSectionVars false

variable {K : Type} [Field K] [LinearOrder K] [IsStrictOrderedRing K] {V : Type} [AddCommGroup V] [Module K V]

/-! ## Basis functions -/

theorem basisInner_sum (U : Nat → K) (t : ℤ → K) (u : K) (i j : Nat) (hj : j ≤ i) (hU : ∀ x : Nat, i < x + j → x ≤ i + j → U x = t x)
    (hn : ∀ r : Nat, r < j → t ((i : ℤ) - j + 1 + r) < t ((i : ℤ) + 1 + r)) (N : Nat → K) (m : Nat) (hm : m ≤ j) :
    ∃ N' saved, basisInner U u i j m N = some (N', saved) ∧ (∀ x, m ≤ x → N' x = N x) ∧ ∀ P : ℤ → V,
      ∑ r ∈ Finset.range m, N' r • P ((i : ℤ) - j + r) + saved • P ((i : ℤ) - j + m) =
        ∑ r ∈ Finset.range m, N r • step t j P u ((i : ℤ) - j + 1 + r) := by
  induction m with
  | zero => exact ⟨N, 0, rfl, fun _ _ => rfl, fun P => by simp⟩
  | succ m ih =>
    obtain ⟨N', saved, e, h1, h2⟩ := ih (by omega)
    have e1 : U (i + 1 - (j - m)) = t ((i : ℤ) - j + 1 + m) := by
      rw [hU _ (by omega) (by omega)]; congr 1; omega
    have e2 : U (i + (m + 1)) = t ((i : ℤ) + 1 + m) := by
      rw [hU _ (by omega) (by omega)]; congr 1; push_cast; ring
    have hlt := hn m (by omega)
    have den : t ((i : ℤ) + 1 + m) - u + (u - t ((i : ℤ) - j + 1 + m)) = t ((i : ℤ) + 1 + m) - t ((i : ℤ) - j + 1 + m) := by ring
    have hne : t ((i : ℤ) + 1 + m) - t ((i : ℤ) - j + 1 + m) ≠ 0 := (sub_pos.2 hlt).ne'
    unfold basisInner
    rw [e, Option.bind_some]
    simp only
    rw [e1, e2, den]
    unfold sdiv
    rw [if_neg hne, Option.map_some]
    refine ⟨_, _, rfl, fun x hx => ?_, fun P => ?_⟩
    · rw [Function.update_of_ne (by omega)]
      exact h1 x (by omega)
    · rw [Finset.sum_range_succ, Finset.sum_range_succ, ← h2 P]
      have c1 : ∀ r ∈ Finset.range m, Function.update (β := fun _ => K) N' m (saved + (t ((i : ℤ) + 1 + m) - u) *
          (N' m / (t ((i : ℤ) + 1 + m) - t ((i : ℤ) - j + 1 + m)))) r • P ((i : ℤ) - j + r) = N' r • P ((i : ℤ) - j + r) := by
        intro r hr
        rw [Finset.mem_range] at hr
        rw [Function.update_of_ne (by omega)]
      rw [Finset.sum_congr rfl c1, Function.update_self, h1 m (le_refl _), step_apply]
      have e3 : (i : ℤ) - j + 1 + m + j = (i : ℤ) + 1 + m := by ring
      have e4 : (i : ℤ) - j + 1 + m - 1 = (i : ℤ) - j + m := by ring
      have e5 : (i : ℤ) - j + ((m + 1 : ℕ) : ℤ) = (i : ℤ) - j + 1 + m := by push_cast; ring
      rw [e3, e4, e5]
      generalize t ((i : ℤ) + 1 + m) = b at *
      generalize t ((i : ℤ) - j + 1 + m) = a at *
      have k1 : 1 - (u - a) / (b - a) = (b - u) / (b - a) := by field_simp; ring
      have k2 : (b - u) * (N m / (b - a)) = N m * ((b - u) / (b - a)) := by ring
      have k3 : (u - a) * (N m / (b - a)) = N m * ((u - a) / (b - a)) := by ring
      rw [k1, k2, k3]
      module

/-- `BasisFunctions` gives the weights of de Boor's algorithm. -/
theorem basis_sum (U : Nat → K) (t : ℤ → K) (ht : Monotone t) (u : K) (i p : Nat) (hp : p ≤ i)
    (hU : ∀ x : Nat, i < x + p → x ≤ i + p → U x = t x) (hn : t i < t ((i : ℤ) + 1)) (m : Nat) (hm : m ≤ p) :
    ∃ N, basis U u i m = some N ∧ ∀ P : ℤ → V, ∑ r ∈ Finset.range (m + 1), N r • P ((i : ℤ) - m + r) = deBoor t i u m P := by
  induction m with
  | zero =>
    refine ⟨_, rfl, fun P => ?_⟩
    simp [deBoor]
  | succ m ih =>
    obtain ⟨N, e, hN⟩ := ih (by omega)
    obtain ⟨N', saved, e', -, h2⟩ := basisInner_sum (V := V) U t u i (m + 1) (by omega) (fun x h1 h2 => hU x (by omega) (by omega))
      (fun r hr => lt_of_le_of_lt (ht (by push_cast; omega)) (lt_of_lt_of_le hn (ht (by omega)))) N (m + 1) (le_refl _)
    unfold basis
    rw [e, Option.bind_some, e', Option.map_some]
    refine ⟨Function.update (β := fun _ => K) N' (m + 1) saved, rfl, fun P => ?_⟩
    rw [Finset.sum_range_succ]
    have c1 : ∀ r ∈ Finset.range (m + 1), Function.update (β := fun _ => K) N' (m + 1) saved r • P ((i : ℤ) - (m + 1 : ℕ) + r) =
        N' r • P ((i : ℤ) - (m + 1 : ℕ) + r) := by
      intro r hr
      rw [Finset.mem_range] at hr
      rw [Function.update_of_ne (by omega)]
    rw [Finset.sum_congr rfl c1, Function.update_self, h2 P]
    show _ = deBoor t i u m (step t (m + 1) P u)
    rw [← hN]
    apply Finset.sum_congr rfl
    intro r _
    have e3 : (i : ℤ) - ((m + 1 : ℕ) : ℤ) + 1 + r = (i : ℤ) - m + r := by push_cast; ring
    rw [e3]

/-! ## The ends -/

theorem deBoor_end (t : ℤ → K) (j : ℤ) (u : K) (p : Nat) (P : ℤ → V) (hj : t j < u) (h : ∀ i : ℤ, j < i → i ≤ j + p → t i = u) :
    deBoor t j u p P = P j := by
  induction p generalizing P with
  | zero => rfl
  | succ p ih =>
    unfold deBoor
    rw [ih _ (fun i h1 h2 => h i h1 (by push_cast; omega)), step_apply, h (j + (p + 1 : ℕ)) (by push_cast; omega) (le_refl _),
      div_self (sub_pos.2 hj).ne']
    simp

theorem deBoor_start (t : ℤ → K) (j : ℤ) (u : K) (p : Nat) (P : ℤ → V) (h : ∀ i : ℤ, j - p < i → i ≤ j → t i = u) :
    deBoor t j u p P = P (j - p) := by
  induction p generalizing P with
  | zero => simp [deBoor]
  | succ p ih =>
    unfold deBoor
    rw [ih _ (fun i h1 h2 => h i (by push_cast; omega) h2), step_apply, h (j - p) (by push_cast; omega) (by omega), sub_self, zero_div]
    have e : j - (p : ℤ) - 1 = j - (p + 1 : ℕ) := by push_cast; ring
    rw [e]
    simp

/-- De Boor's algorithm stays within every convex set that contains the points. -/
theorem deBoor_convex (C : V → Prop) (hC : ∀ (x y : V) (a : K), C x → C y → 0 ≤ a → a ≤ 1 → C ((1 - a) • x + a • y)) (t : ℤ → K)
    (ht : Monotone t) (j : ℤ) (u : K) (h1 : t j ≤ u) (h2 : u ≤ t (j + 1)) (h3 : t j < t (j + 1)) (p : Nat) (P : ℤ → V)
    (hP : ∀ i : ℤ, j - p ≤ i → i ≤ j → C (P i)) : C (deBoor t j u p P) := by
  induction p generalizing P with
  | zero => exact hP j (by simp) (le_refl _)
  | succ p ih =>
    unfold deBoor
    apply ih
    intro i hi hi'
    rw [step_apply]
    have b1 : t i ≤ t j := ht hi'
    have b2 : t (j + 1) ≤ t (i + (p + 1 : ℕ)) := ht (by push_cast; omega)
    have hpos : 0 < t (i + (p + 1 : ℕ)) - t i := sub_pos.2 (lt_of_le_of_lt b1 (lt_of_lt_of_le h3 b2))
    refine hC _ _ _ (hP _ (by push_cast; omega) (by omega)) (hP _ (by push_cast; omega) hi') (div_nonneg (sub_nonneg.2 (b1.trans h1)) hpos.le) ?_
    rw [div_le_one hpos]
    exact sub_le_sub_right (h2.trans b2) _

/-! ## Refinement by equal knots -/

theorem shiftK_stop (T U : Nat → K) (x : K) (a f k : Nat) : shiftK T x a f (U, a, k) = (U, a, k) := by
  cases f with
  | zero => rfl
  | succ f =>
    unfold shiftK
    rw [if_neg (by omega)]

theorem shiftP_stop (U : Nat → K) (P : Nat → V) (p : Nat) (x : K) (a f k : Nat) (Q : Nat → V) : shiftP U P p x a f (Q, a, k) = (Q, a, k) := by
  cases f with
  | zero => rfl
  | succ f =>
    unfold shiftP
    rw [if_neg (by omega)]

/-- The first shift of the knots. -/
theorem shiftK_run (T : Nat → K) (x : K) (a J : Nat) (hJ : 0 < J) (m : Nat) (f : Nat) (hf : m ≤ f) (U : Nat → K)
    (hU : ∀ i, a < i → i ≤ a + m → x ≤ U i) :
    shiftK T x a f (U, a + m, a + m + J) = ((fun j => if a + J < j ∧ j ≤ a + m + J then T (j - J) else U j), a, a + J) := by
  induction m generalizing U f with
  | zero =>
    rw [Nat.add_zero, shiftK_stop]
    congr 1
    funext j
    rw [if_neg (by omega)]
  | succ m ih =>
    obtain ⟨f, rfl⟩ : ∃ g, f = g + 1 := ⟨f - 1, by omega⟩
    unfold shiftK
    rw [if_pos ⟨hU _ (by omega) (le_refl _), by omega⟩]
    have e1 : a + (m + 1) - 1 = a + m := by omega
    have e2 : a + (m + 1) + J - 1 = a + m + J := by omega
    rw [e1, e2, ih f (by omega) _ (fun i h1 h2 => by rw [Function.update_of_ne (by omega)]; exact hU i h1 (by omega))]
    congr 1
    funext j
    by_cases h1 : j = a + (m + 1) + J
    · subst h1
      rw [if_neg (by omega), if_pos (by omega), Function.update_self]
      congr 1
      omega
    · rw [Function.update_of_ne h1]
      by_cases h2 : a + J < j ∧ j ≤ a + m + J
      · rw [if_pos h2, if_pos (by omega)]
      · rw [if_neg h2, if_neg (by omega)]

theorem refKnots_run (T : Nat → K) (x : K) (a : Nat) (m : Nat) (U : Nat → K) :
    refKnots T a (List.replicate m x) (U, a, a + m) = ((fun j => if a < j ∧ j ≤ a + m then x else U j), a, a) := by
  induction m generalizing U with
  | zero =>
    show (U, a, a + 0) = _
    congr 1
    funext j
    rw [if_neg (by omega)]
  | succ m ih =>
    rw [List.replicate_succ]
    unfold refKnots
    simp only
    rw [shiftK_stop]
    simp only
    have e : a + (m + 1) - 1 = a + m := by omega
    rw [e, ih]
    congr 1
    funext j
    by_cases h1 : j = a + (m + 1)
    · subst h1
      rw [if_neg (by omega), if_pos (by omega), Function.update_self]
    · rw [Function.update_of_ne h1]
      by_cases h2 : a < j ∧ j ≤ a + m
      · rw [if_pos h2, if_pos (by omega)]
      · rw [if_neg h2, if_neg (by omega)]

/-- The first round does the shift, and then all go on as above. -/
theorem refKnots_first (T : Nat → K) (x : K) (a : Nat) (X : List K) (U U' : Nat → K) (i k k' : Nat)
    (h : shiftK T x a i (U, i, k) = (U', a, k')) : refKnots T a (x :: X) (U, i, k) = refKnots T a (x :: X) (U', a, k') := by
  unfold refKnots
  simp only
  rw [h, shiftK_stop]

theorem shiftP_run (U : Nat → K) (P : Nat → V) (p : Nat) (x : K) (a J : Nat) (hJ : 0 < J) (hpa : p ≤ a) (m : Nat) (f : Nat) (hf : m ≤ f) (Q : Nat → V)
    (hU : ∀ i, a < i → i ≤ a + m → x ≤ U i) :
    shiftP U P p x a f (Q, a + m, a + m + J) =
      ((fun j => if a + J ≤ j + p ∧ j + p < a + m + J then P (j - J) else Q j), a, a + J) := by
  induction m generalizing Q f with
  | zero =>
    rw [Nat.add_zero, shiftP_stop]
    congr 1
    funext j
    rw [if_neg (by omega)]
  | succ m ih =>
    obtain ⟨f, rfl⟩ : ∃ g, f = g + 1 := ⟨f - 1, by omega⟩
    unfold shiftP
    rw [if_pos ⟨hU _ (by omega) (le_refl _), by omega⟩]
    have e1 : a + (m + 1) - 1 = a + m := by omega
    have e2 : a + (m + 1) + J - 1 = a + m + J := by omega
    rw [e1, e2, ih f (by omega) _ (fun i h1 h2 => hU i h1 (by omega))]
    congr 1
    funext j
    by_cases h1 : j = a + (m + 1) + J - p - 1
    · subst h1
      rw [if_neg (by omega), if_pos (by omega), Function.update_self]
      congr 1
      omega
    · rw [Function.update_of_ne h1]
      by_cases h2 : a + J ≤ j + p ∧ j + p < a + m + J
      · rw [if_pos h2, if_pos (by omega)]
      · rw [if_neg h2, if_neg (by omega)]

/-- One round of the loop over `l`. -/
theorem blend_eq (T U : Nat → K) (p : Nat) (x : K) (i k : Nat) (hpk : p ≤ k) (m : Nat) (Q : Nat → V) :
    blend T U p x i k m Q = fun y => if k ≤ y + p ∧ y + p < k + m then
      (if U (k + (y + p - k + 1)) - x = 0 then Q (y + 1) else
        ((U (k + (y + p - k + 1)) - x) / (U (k + (y + p - k + 1)) - T (i - p + (y + p - k + 1)))) • Q y +
        (1 - (U (k + (y + p - k + 1)) - x) / (U (k + (y + p - k + 1)) - T (i - p + (y + p - k + 1)))) • Q (y + 1)) else Q y := by
  induction m with
  | zero => funext y; rw [if_neg (by omega)]; rfl
  | succ m ih =>
    funext y
    unfold blend
    simp only
    rw [ih]
    simp only
    have e1 : k - p + (m + 1) - 1 = k - p + m := by omega
    rw [e1, if_neg (show ¬ (k ≤ k - p + (m + 1) + p ∧ k - p + (m + 1) + p < k + m) by omega),
      if_neg (show ¬ (k ≤ k - p + m + p ∧ k - p + m + p < k + m) by omega)]
    by_cases hy : y = k - p + m
    · subst hy
      have e2 : k - p + m + p - k + 1 = m + 1 := by omega
      rw [if_pos (show k ≤ k - p + m + p ∧ k - p + m + p < k + (m + 1) by omega), e2]
      by_cases h0 : U (k + (m + 1)) - x = 0
      · rw [if_pos h0, if_pos h0, Function.update_self]; rfl
      · rw [if_neg h0, if_neg h0, Function.update_self]; rfl
    · have hite : ∀ (b : Prop) [Decidable b] (v w : V), (if b then Function.update (β := fun _ => V) (fun y => if k ≤ y + p ∧ y + p < k + m then
      (if U (k + (y + p - k + 1)) - x = 0 then Q (y + 1) else
        ((U (k + (y + p - k + 1)) - x) / (U (k + (y + p - k + 1)) - T (i - p + (y + p - k + 1)))) • Q y +
        (1 - (U (k + (y + p - k + 1)) - x) / (U (k + (y + p - k + 1)) - T (i - p + (y + p - k + 1)))) • Q (y + 1)) else Q y) (k - p + m) v
        else Function.update (β := fun _ => V) (fun y => if k ≤ y + p ∧ y + p < k + m then
      (if U (k + (y + p - k + 1)) - x = 0 then Q (y + 1) else
        ((U (k + (y + p - k + 1)) - x) / (U (k + (y + p - k + 1)) - T (i - p + (y + p - k + 1)))) • Q y +
        (1 - (U (k + (y + p - k + 1)) - x) / (U (k + (y + p - k + 1)) - T (i - p + (y + p - k + 1)))) • Q (y + 1)) else Q y) (k - p + m) w) y =
        if k ≤ y + p ∧ y + p < k + m then
      (if U (k + (y + p - k + 1)) - x = 0 then Q (y + 1) else
        ((U (k + (y + p - k + 1)) - x) / (U (k + (y + p - k + 1)) - T (i - p + (y + p - k + 1)))) • Q y +
        (1 - (U (k + (y + p - k + 1)) - x) / (U (k + (y + p - k + 1)) - T (i - p + (y + p - k + 1)))) • Q (y + 1)) else Q y := by
        intro b _ v w
        by_cases hb : b
        · rw [if_pos hb, Function.update_of_ne hy]
        · rw [if_neg hb, Function.update_of_ne hy]
      rw [hite]
      by_cases h2 : k ≤ y + p ∧ y + p < k + m
      · rw [if_pos h2, if_pos (show k ≤ y + p ∧ y + p < k + (m + 1) by omega)]
      · rw [if_neg h2, if_neg (show ¬ (k ≤ y + p ∧ y + p < k + (m + 1)) by omega)]

section
variable (T U : Nat → K) (P : Nat → V) (t : ℤ → K) (ht : Monotone t) (x : K) (p a J M : Nat) (hpa : p ≤ a) (hM : a + p ≤ M)
  (hT : ∀ i : Nat, i ≤ M → T i = t i) (h1 : t a ≤ x) (h2 : x < t ((a : ℤ) + 1)) (hJ : J ≤ p + 1)
  (hU : ∀ i : Nat, i ≤ M + J → U i = itK t a x J i)
include ht hpa hM hT h1 h2 hJ hU

/-- The rounds of the loop over the new knots: the points of that many insertions, moved to the place where they stay. -/
theorem refPts_run (m tt : Nat) (hm : tt + m = J) (Q : Nat → V)
    (q1 : ∀ j : Nat, a + m ≤ j + p → Q j = itP t a x p (fun i => P i.toNat) tt ((j : ℤ) - m)) (q2 : ∀ j, j + p ≤ a → Q j = P j) (j : Nat) :
    (refPts T U P p a (List.replicate m x) (Q, a, a + m)).1 j = itP t a x p (fun i => P i.toNat) J j := by
  induction m generalizing tt Q with
  | zero =>
    have : tt = J := by omega
    subst this
    show Q j = _
    by_cases h : a ≤ j + p
    · rw [q1 j (by omega)]
      congr 1
    · rw [q2 j (by omega), itP_lo' t a x p _ 0 tt (by omega) j (by push_cast; omega)]
      rfl
  | succ m ih =>
    rw [List.replicate_succ]
    unfold refPts
    simp only
    rw [shiftP_stop]
    simp only
    have e0 : a + (m + 1) - 1 = a + m := by omega
    have ea : a + (m + 1) - p - 1 = a + m - p := by omega
    rw [e0, ea]
    -- the copy
    have c1 : ∀ j : Nat, a + (m + 1) ≤ j + p → Function.update (β := fun _ => V) Q (a + m - p) (Q (a + (m + 1) - p)) j =
        itP t a x p (fun i => P i.toNat) tt ((j : ℤ) - (m + 1 : ℕ)) := by
      intro j hj
      rw [Function.update_of_ne (by omega)]
      exact q1 j hj
    have c0 : Function.update (β := fun _ => V) Q (a + m - p) (Q (a + (m + 1) - p)) (a + m - p) =
        itP t a x p (fun i => P i.toNat) tt ((a : ℤ) - p) := by
      rw [Function.update_self, q1 _ (by omega)]
      congr 1
      omega
    have c2 : ∀ j, j + p ≤ a → Function.update (β := fun _ => V) Q (a + m - p) (Q (a + (m + 1) - p)) j = P j := by
      intro j hj
      by_cases h : j = a + m - p
      · have hm0 : m = 0 := by omega
        subst h
        rw [c0, itP_lo' t a x p _ 0 tt (by omega) _ (by push_cast; omega)]
        show P _ = P _
        congr 1
        omega
      · rw [Function.update_of_ne h]
        exact q2 j hj
    generalize Function.update (β := fun _ => V) Q (a + m - p) (Q (a + (m + 1) - p)) = Q' at *
    refine ih (tt + 1) (by omega) _ (fun j hj => ?_) (fun j hj => ?_)
    · rw [blend_eq _ _ _ _ _ _ (by omega)]
      simp only
      by_cases hA : a + (m + 1) ≤ j + p ∧ j + p < a + (m + 1) + p
      · rw [if_pos hA]
        obtain ⟨l, hl⟩ : ∃ l, l = j + p - (a + (m + 1)) + 1 := ⟨_, rfl⟩
        rw [← hl]
        have ej : (j : ℤ) - m = (a : ℤ) - p + l := by omega
        have ej1 : (j : ℤ) - (m + 1 : ℕ) = (a : ℤ) - p + l - 1 := by push_cast; omega
        have ej2 : ((j + 1 : ℕ) : ℤ) - (m + 1 : ℕ) = (a : ℤ) - p + l := by push_cast; omega
        rw [c1 j hA.1, c1 (j + 1) (by omega), ej, ej1, ej2, hU _ (by omega), itK_eq, if_neg (show ¬ ((a + (m + 1) + l : ℕ) : ℤ) ≤ a by push_cast; omega)]
        by_cases hlt : l ≤ tt
        · rw [if_pos (show ((a + (m + 1) + l : ℕ) : ℤ) ≤ a + J by push_cast; omega), sub_self, if_pos rfl]
          show _ = insPts _ _ _ _ _ _
          rw [insPts_lo _ _ _ _ _ _ (by omega)]
        · have eT : t (((a + (m + 1) + l : ℕ) : ℤ) - J) = t ((a : ℤ) - p + l + p - tt) := by congr 1; push_cast; omega
          have hxb : x < t ((a : ℤ) - p + l + p - tt) := lt_of_lt_of_le h2 (ht (by omega))
          have hab : t ((a : ℤ) - p + l) ≤ x := (ht (by omega)).trans h1
          rw [if_neg (show ¬ ((a + (m + 1) + l : ℕ) : ℤ) ≤ a + J by push_cast; omega), eT, if_neg (sub_pos.2 hxb).ne', hT _ (by omega)]
          have eT2 : ((a - p + l : ℕ) : ℤ) = (a : ℤ) - p + l := by omega
          rw [eT2]
          show _ = insPts _ _ _ _ _ _
          rw [insPts_mid _ _ _ _ _ _ (by omega) (by omega), step_apply, itK_eq, itK_eq, if_pos (show (a : ℤ) - p + l ≤ a by omega),
            if_neg (show ¬ (a : ℤ) - p + l + p ≤ a by omega), if_neg (show ¬ (a : ℤ) - p + l + p ≤ a + tt by omega)]
          have hne : t ((a : ℤ) - p + l + p - tt) - t ((a : ℤ) - p + l) ≠ 0 := (sub_pos.2 (lt_of_le_of_lt hab hxb)).ne'
          generalize t ((a : ℤ) - p + l + p - tt) = b at *
          generalize t ((a : ℤ) - p + l) = d at *
          have k1 : (b - x) / (b - d) = 1 - (x - d) / (b - d) := by field_simp; ring
          rw [k1, sub_sub_cancel]
      · rw [if_neg hA]
        by_cases hB : j = a + m - p
        · subst hB
          have ej : ((a + m - p : ℕ) : ℤ) - m = (a : ℤ) - p := by omega
          rw [c0, ej, itP_lo t a x p _ tt _ (by omega)]
        · have := itP_hi t a x p (fun i => P i.toNat) 0 (fun i h h' => by omega) tt (by omega) ((j : ℤ) - m) (by omega)
          rw [c1 j (by omega), this]
          congr 1
          push_cast
          ring
    · rw [blend_eq _ _ _ _ _ _ (by omega)]
      simp only
      rw [if_neg (by omega)]
      exact c2 j hj

end

/-- `RefineKnotU` and `RefineKnotV` with several times the same knot. -/
theorem refine_eq (c : Curve K V) (h : Wf c) (x : K) (a J : Nat) (hJ : J ≤ c.order) (hs : c.findSpan x = some a) (ha : c.degree ≤ a) (ha' : a < c.n)
    (h1 : c.knots a ≤ x) (h2 : x < c.knots (a + 1)) :
    ∃ c', refine c (List.replicate J x) = some c' ∧ c'.order = c.order ∧ c'.n = c.n + J ∧ (∀ i, c'.knots i = newKnots c.knots x a J i) ∧
      ∀ i : Nat, c'.pts i = itP c.t a x c.degree c.p J i := by
  have ho := h.order
  have hd : c.order = c.degree + 1 := by unfold Curve.degree; omega
  cases J with
  | zero =>
    refine ⟨c, rfl, rfl, rfl, fun i => ?_, fun i => rfl⟩
    unfold newKnots
    by_cases hi : i ≤ a
    · rw [if_pos hi]
    · rw [if_neg hi, if_neg (by omega), Nat.sub_zero]
  | succ r =>
    have hh : (List.replicate (r + 1) x).head? = some x := rfl
    have hl : (List.replicate (r + 1) x).getLast? = some x := by
      rw [List.replicate_succ', List.getLast?_concat]
    unfold refine
    rw [hh, hl]
    simp only [hs, Option.bind_some, Option.map_some, List.length_replicate, List.reverse_replicate]
    have e1 : r + 1 - 1 = r := by omega
    have e2 : a + 1 + c.degree - 1 = a + c.degree := by omega
    have e3 : a + 1 + c.degree + r = a + c.degree + (r + 1) := by omega
    have e4 : a + 1 - 1 + r + 1 = a + (r + 1) := by omega
    have e5 : a + c.degree + (r + 1) + 1 = a + c.degree + (r + 2) := by omega
    rw [e1, e2, e3, e4, e5]
    -- the knots
    have kn : ∀ i, (refKnots c.knots a (List.replicate (r + 1) x) ((fun j => if j ≤ a then c.knots j else if a + c.degree + (r + 2) ≤ j then
        c.knots (j - (r + 1)) else c.knots j), a + c.degree, a + c.degree + (r + 1))).1 i = newKnots c.knots x a (r + 1) i := by
      intro i
      rw [List.replicate_succ, refKnots_first c.knots x a (List.replicate r x) _ _ _ _ _ (shiftK_run c.knots x a (r + 1) (by omega) c.degree (a + c.degree)
        (by omega) _ (fun i hi hi' => by
          rw [if_neg (by omega), if_neg (by omega)]
          exact h2.le.trans (h.mono _ _ (by omega) (by omega)))), ← List.replicate_succ, refKnots_run]
      simp only
      unfold newKnots
      by_cases i1 : i ≤ a
      · rw [if_neg (by omega), if_neg (by omega), if_pos i1, if_pos i1]
      · rw [if_neg i1, if_neg i1]
        by_cases i2 : i ≤ a + (r + 1)
        · rw [if_pos (by omega), if_pos i2]
        · rw [if_neg (by omega), if_neg i2]
          by_cases i3 : i ≤ a + c.degree + (r + 1)
          · rw [if_pos (by omega)]
          · rw [if_neg (by omega), if_pos (by omega)]
    generalize refKnots c.knots a (List.replicate (r + 1) x) ((fun j => if j ≤ a then c.knots j else if a + c.degree + (r + 2) ≤ j then
        c.knots (j - (r + 1)) else c.knots j), a + c.degree, a + c.degree + (r + 1)) = R at *
    refine ⟨_, rfl, rfl, by show r + 1 + c.n = _; omega, kn, fun i => ?_⟩
    -- the points
    simp only
    have ht := t_mono c h
    have tk : c.t a = c.knots a := t_nat c a a rfl (by omega)
    have tk1 : c.t ((a : ℤ) + 1) = c.knots (a + 1) := t_nat c _ (a + 1) (by push_cast; rfl) (by omega)
    rw [List.replicate_succ]
    unfold refPts
    simp only
    rw [shiftP_run R.1 c.pts c.degree x a (r + 1) (by omega) ha c.degree (a + c.degree) (by omega) _ (fun i hi hi' => by
      rw [kn]
      unfold newKnots
      rw [if_neg (by omega)]
      by_cases i2 : i ≤ a + (r + 1)
      · rw [if_pos i2]
      · rw [if_neg i2]
        exact h2.le.trans (h.mono _ _ (by omega) (by omega)))]
    have := refPts_run c.knots R.1 c.pts c.t ht x c.degree a (r + 1) (c.n + c.degree) ha (by omega) (fun i hi => (t_nat c i i rfl hi).symm)
      (by rw [tk]; exact h1) (by rw [tk1]; exact h2) (by omega) (fun i hi => by
        rw [kn, itK_eq]
        unfold newKnots
        by_cases i1 : i ≤ a
        · rw [if_pos i1, if_pos (by omega), t_nat c i i rfl (by omega)]
        · rw [if_neg i1, if_neg (show ¬ (i : ℤ) ≤ a by omega)]
          by_cases i2 : i ≤ a + (r + 1)
          · rw [if_pos i2, if_pos (by omega)]
          · rw [if_neg i2, if_neg (by omega), t_nat c _ (i - (r + 1)) (by omega) (by omega)]) (r + 1) 0 (by omega)
      (fun j => if a + (r + 1) ≤ j + c.degree ∧ j + c.degree < a + c.degree + (r + 1) then c.pts (j - (r + 1))
        else if j ≤ a - c.degree then c.pts j else if a + (r + 1) ≤ j then c.pts (j - (r + 1)) else c.pts j)
      (fun j hj => by
        show _ = c.pts (((j : ℤ) - (r + 1 : ℕ)).toNat)
        have e : ((j : ℤ) - (r + 1 : ℕ)).toNat = j - (r + 1) := by omega
        rw [e]
        by_cases j1 : j + c.degree < a + c.degree + (r + 1)
        · rw [if_pos ⟨hj, j1⟩]
        · rw [if_neg (by omega), if_neg (by omega), if_pos (by omega)])
      (fun j hj => by rw [if_neg (by omega), if_pos (by omega)]) i
    rw [List.replicate_succ] at this
    unfold refPts at this
    simp only at this
    rw [shiftP_stop] at this
    exact this

end Verif.Geom.Nurbs
