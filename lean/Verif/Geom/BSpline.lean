import Mathlib.Algebra.Order.Field.Basic
import Mathlib.Algebra.Module.BigOperators
import Mathlib.Algebra.BigOperators.Intervals
import Mathlib.Algebra.BigOperators.Fin
import Mathlib.Tactic.Linarith
import Mathlib.Tactic.Ring
import Mathlib.Tactic.FieldSimp
import Mathlib.Tactic.Module
import Mathlib.Tactic.Abel
import Mathlib.Tactic.LinearCombination
import Mathlib.Tactic.SplitIfs
/-!
# B-splines

The specification of B-spline curves by the recursion of Cox and de Boor, and what is needed about them: de Boor's algorithm
and the insertion of knots (Boehm). Used for trim curves (libs/core/geometry/trimcurve.cpp) and NURBS
(libs/core/geometry/nurbs.cpp). Nothing here is a model of code.
-/
namespace Verif.Geom.BSpline

variable {K : Type} [Field K] [LinearOrder K]

/-- The recursion of Cox and de Boor: the basis function of degree `p` that begins at the knot `i`. A quotient with
denominator zero counts as zero. Specification; compare libs/core/geometry/nurbs.cpp:190-210. -/
def cox (t : ℤ → K) : ℕ → ℤ → K → K
  | 0, i, u => if t i ≤ u ∧ u < t (i + 1) then 1 else 0
  | p + 1, i, u => (u - t i) / (t (i + p + 1) - t i) * cox t p i u +
      (t (i + p + 2) - u) / (t (i + p + 2) - t (i + 1)) * cox t p (i + 1) u

/-- The knots with `x` inserted after the knot `k`. Specification; compare libs/core/geometry/trimcurve.cpp:295-302. -/
def insKnot (t : ℤ → K) (k : ℤ) (x : K) : ℤ → K := fun i => if i ≤ k then t i else if i = k + 1 then x else t (i - 1)

variable {V : Type} [AddCommGroup V] [Module K V]

/-- A point between two neighbours: one step of de Boor's algorithm in degree `p`. Specification; compare
libs/core/geometry/trimcurve.cpp:327-330. -/
def step (t : ℤ → K) (p : ℕ) (P : ℤ → V) (u : K) : ℤ → V := fun i =>
  (1 - (u - t i) / (t (i + p) - t i)) • P (i - 1) + ((u - t i) / (t (i + p) - t i)) • P i

/-- De Boor's algorithm in the span `j`. Specification. -/
def deBoor (t : ℤ → K) (j : ℤ) (u : K) : ℕ → (ℤ → V) → V
  | 0, P => P j
  | p + 1, P => deBoor t j u p (step t (p + 1) P u)

/-- The control points after the insertion of one knot. Specification; compare libs/core/geometry/trimcurve.cpp:307-339. -/
def insPts (t : ℤ → K) (k : ℤ) (x : K) (p : ℕ) (P : ℤ → V) : ℤ → V := fun i =>
  if i ≤ k - p then P i else if i ≤ k then step t p P x i else P (i - 1)

omit [LinearOrder K] in
theorem deBoor_congr (t t' : ℤ → K) (j : ℤ) (u : K) (p : ℕ) (P Q : ℤ → V)
    (ht : ∀ i, j - p < i → i ≤ j + p → t i = t' i)
    (h : ∀ i, j - p ≤ i → i ≤ j → P i = Q i) : deBoor t j u p P = deBoor t' j u p Q := by
  induction p generalizing P Q with
  | zero => exact h j (by simp) (le_refl _)
  | succ p ih =>
    unfold deBoor
    apply ih
    · intro i h1 h2
      exact ht i (by push_cast; omega) (by push_cast; omega)
    · intro i h1 h2
      unfold step
      rw [h (i - 1) (by push_cast; omega) (by omega), h i (by push_cast; omega) h2,
        ht i (by push_cast; omega) (by push_cast; omega), ht (i + (p + 1 : ℕ)) (by push_cast; omega) (by push_cast; omega)]

omit [LinearOrder K] in
theorem step_apply (t : ℤ → K) (p : ℕ) (P : ℤ → V) (u : K) (i : ℤ) : step t p P u i =
    (1 - (u - t i) / (t (i + p) - t i)) • P (i - 1) + ((u - t i) / (t (i + p) - t i)) • P i := rfl

omit [LinearOrder K] in
theorem insPts_lo (t : ℤ → K) (k : ℤ) (x : K) (p : ℕ) (P : ℤ → V) (i : ℤ) (h : i ≤ k - p) : insPts t k x p P i = P i := if_pos h

omit [LinearOrder K] in
theorem insPts_mid (t : ℤ → K) (k : ℤ) (x : K) (p : ℕ) (P : ℤ → V) (i : ℤ) (h : k - p < i) (h' : i ≤ k) :
    insPts t k x p P i = step t p P x i := by
  unfold insPts
  rw [if_neg (by omega), if_pos h']

omit [LinearOrder K] in
theorem insPts_hi (t : ℤ → K) (k : ℤ) (x : K) (p : ℕ) (P : ℤ → V) (i : ℤ) (h' : k < i) :
    insPts t k x p P i = P (i - 1) := by
  unfold insPts
  rw [if_neg (by omega), if_neg (by omega)]

omit [Field K] [LinearOrder K] in
theorem insKnot_lo (t : ℤ → K) (k : ℤ) (x : K) (i : ℤ) (h : i ≤ k) : insKnot t k x i = t i := if_pos h

omit [Field K] [LinearOrder K] in
theorem insKnot_at (t : ℤ → K) (k : ℤ) (x : K) (i : ℤ) (h : i = k + 1) : insKnot t k x i = x := by
  unfold insKnot; rw [if_neg (by omega), if_pos h]

omit [Field K] [LinearOrder K] in
theorem insKnot_hi (t : ℤ → K) (k : ℤ) (x : K) (i : ℤ) (h : k + 1 < i) : insKnot t k x i = t (i - 1) := by
  unfold insKnot; rw [if_neg (by omega), if_neg (by omega)]

/-- One step of de Boor's algorithm and the insertion of a knot can be exchanged. -/
theorem insPts_step [IsStrictOrderedRing K] (t : ℤ → K) (ht : Monotone t) (k : ℤ) (x : K) (hk : t k ≤ x) (hk' : x < t (k + 1)) (p : ℕ)
    (P : ℤ → V) (u : K) (i : ℤ) (hi : insKnot t k x i < insKnot t k x (i + (p + 1 : ℕ))) :
    step (insKnot t k x) (p + 1) (insPts t k x (p + 1) P) u i = insPts t k x p (step t (p + 1) P u) i := by
  rw [step_apply]
  rcases lt_trichotomy i (k - p) with h1 | h1 | h1
  · -- before
    rw [insKnot_lo t k x i (by omega), insKnot_lo t k x (i + (p + 1 : ℕ)) (by push_cast; omega),
      insPts_lo _ _ _ _ _ (i - 1) (by push_cast; omega), insPts_lo _ _ _ _ _ i (by push_cast; omega),
      insPts_lo _ _ _ _ _ i (by omega)]
    rfl
  · -- first affected
    have hik : i ≤ k := by omega
    have e1 : insKnot t k x i = t i := insKnot_lo _ _ _ _ hik
    have e2 : insKnot t k x (i + (p + 1 : ℕ)) = x := insKnot_at _ _ _ _ (by push_cast; omega)
    rw [e1, e2] at hi
    have hb : x < t (i + (p + 1 : ℕ)) := lt_of_lt_of_le hk' (ht (by push_cast; omega))
    rw [e1, e2, insPts_lo _ _ _ _ _ (i - 1) (by push_cast; omega), insPts_mid _ _ _ _ _ i (by push_cast; omega) hik,
      insPts_lo _ _ _ _ _ i (by omega), step_apply, step_apply]
    have n1 : x - t i ≠ 0 := (sub_pos.2 hi).ne'
    have n2 : t (i + (p + 1 : ℕ)) - t i ≠ 0 := (sub_pos.2 (hi.trans hb)).ne'
    generalize t (i + (p + 1 : ℕ)) = b at *
    generalize t i = a at *
    have key : (u - a) / (x - a) * ((x - a) / (b - a)) = (u - a) / (b - a) := by field_simp
    rw [← key]
    module
  · rcases lt_trichotomy i (k + 1) with h2 | h2 | h2
    · -- in the middle
      have hik : i ≤ k := by omega
      have e1 : insKnot t k x i = t i := insKnot_lo _ _ _ _ hik
      have e2 : insKnot t k x (i + (p + 1 : ℕ)) = t (i + p) := by
        rw [insKnot_hi _ _ _ _ (by push_cast; omega)]
        congr 1; push_cast; ring
      rw [e1, e2] at hi
      have ea : i - 1 + ((p + 1 : ℕ) : ℤ) = i + p := by push_cast; ring
      rw [e1, e2, insPts_mid _ _ _ _ _ (i - 1) (by push_cast; omega) (by omega), insPts_mid _ _ _ _ _ i (by push_cast; omega) hik,
        insPts_mid _ _ _ _ _ i (by omega) hik, step_apply, step_apply, step_apply, step_apply, step_apply, ea]
      have m1 : t (i - 1) ≤ t i := ht (by omega)
      have m2 : t (i + p) ≤ t (i + (p + 1 : ℕ)) := ht (by push_cast; omega)
      have n1 : t (i + p) - t i ≠ 0 := (sub_pos.2 hi).ne'
      have n2 : t (i + (p + 1 : ℕ)) - t i ≠ 0 := (sub_pos.2 (lt_of_lt_of_le hi m2)).ne'
      have n3 : t (i + p) - t (i - 1) ≠ 0 := (sub_pos.2 (lt_of_le_of_lt m1 hi)).ne'
      generalize t (i + (p + 1 : ℕ)) = Y at *
      generalize t (i + p) = X at *
      generalize t (i - 1) = z at *
      generalize t i = y at *
      have c2 : (1 - (u - y) / (X - y)) * (1 - (x - z) / (X - z)) = (1 - (x - y) / (X - y)) * (1 - (u - z) / (X - z)) := by
        field_simp
        ring
      have c0 : (u - y) / (X - y) * ((x - y) / (Y - y)) = (x - y) / (X - y) * ((u - y) / (Y - y)) := by
        field_simp
      have c1 : (1 - (u - y) / (X - y)) * ((x - z) / (X - z)) + (u - y) / (X - y) * (1 - (x - y) / (Y - y)) =
          (1 - (x - y) / (X - y)) * ((u - z) / (X - z)) + (x - y) / (X - y) * (1 - (u - y) / (Y - y)) := by
        field_simp
        ring
      have expand : ∀ (α β γ δ ε ζ : K), α • (β • P (i - 1 - 1) + γ • P (i - 1)) + δ • (ε • P (i - 1) + ζ • P i) =
          (α * β) • P (i - 1 - 1) + (α * γ + δ * ε) • P (i - 1) + (δ * ζ) • P i := by
        intros; module
      rw [expand, expand, c2, c1, c0]
    · -- the inserted knot
      subst h2
      have e1 : insKnot t k x (k + 1) = x := insKnot_at _ _ _ _ rfl
      have e2 : insKnot t k x (k + 1 + (p + 1 : ℕ)) = t (k + (p + 1 : ℕ)) := by
        rw [insKnot_hi _ _ _ _ (by push_cast; omega)]
        congr 1; push_cast; ring
      rw [e1, e2] at hi
      have ek : k + 1 - 1 = k := by ring
      rw [e1, e2, ek, insPts_mid _ _ _ _ _ k (by push_cast; omega) (le_refl k), insPts_hi _ _ _ _ _ (k + 1) (by omega),
        insPts_hi _ _ _ _ _ (k + 1) (by omega), ek, step_apply, step_apply]
      have n1 : t (k + (p + 1 : ℕ)) - x ≠ 0 := (sub_pos.2 hi).ne'
      have n2 : t (k + (p + 1 : ℕ)) - t k ≠ 0 := (sub_pos.2 (lt_of_le_of_lt hk hi)).ne'
      generalize t (k + (p + 1 : ℕ)) = b at *
      generalize t k = a at *
      have key : (1 - (u - x) / (b - x)) * (1 - (x - a) / (b - a)) = 1 - (u - a) / (b - a) := by
        field_simp
        ring
      have key2 : (1 - (u - x) / (b - x)) * ((x - a) / (b - a)) + (u - x) / (b - x) = (u - a) / (b - a) := by
        field_simp
        ring
      rw [smul_add, smul_smul, smul_smul, key, add_assoc, ← add_smul, key2]
    · -- behind
      have e2 : i + ((p + 1 : ℕ) : ℤ) - 1 = i - 1 + (p + 1 : ℕ) := by push_cast; ring
      rw [insKnot_hi t k x i h2, insKnot_hi t k x (i + (p + 1 : ℕ)) (by push_cast; omega), e2,
        insPts_hi _ _ _ _ _ (i - 1) (by omega), insPts_hi _ _ _ _ _ i (by omega), insPts_hi _ _ _ _ _ i (by omega)]
      rfl

omit [Field K] in
/-- The insertion of a knot keeps the knots in order. -/
theorem insKnot_mono (t : ℤ → K) (ht : Monotone t) (k : ℤ) (x : K) (hk : t k ≤ x) (hk' : x < t (k + 1)) :
    Monotone (insKnot t k x) := by
  intro a b hab
  unfold insKnot
  split_ifs with h1 h2 h3 h4 h5 h6 h7 h8
  · exact ht hab
  · exact (ht h1).trans hk
  · exact ht (by omega)
  · omega
  · exact le_refl x
  · exact hk'.le.trans (ht (by omega))
  · omega
  · omega
  · exact ht (by omega)

/-- Boehm: the insertion of a knot keeps the curve, in every span that is not empty. -/
theorem deBoor_insert [IsStrictOrderedRing K] (t : ℤ → K) (ht : Monotone t) (k : ℤ) (x : K) (hk : t k ≤ x) (hk' : x < t (k + 1))
    (j : ℤ) (u : K) (hj : insKnot t k x j < insKnot t k x (j + 1)) (p : ℕ) (P : ℤ → V) :
    deBoor (insKnot t k x) j u p (insPts t k x p P) = deBoor t (if j ≤ k then j else j - 1) u p P := by
  have hm := insKnot_mono t ht k x hk hk'
  induction p generalizing P with
  | zero =>
    unfold deBoor insPts
    by_cases h : j ≤ k
    · rw [if_pos (by simpa using h), if_pos h]
    · rw [if_neg (by simpa using h), if_neg h, if_neg h]
  | succ p ih =>
    unfold deBoor
    rw [← ih]
    apply deBoor_congr
    · intros; rfl
    · intro i h1 h2
      apply insPts_step t ht k x hk hk'
      exact lt_of_le_of_lt (hm h2) (lt_of_lt_of_le hj (hm (by push_cast; omega)))

/-! ## The basis functions -/

theorem cox_zero [IsStrictOrderedRing K] (t : ℤ → K) (ht : Monotone t) (j : ℤ) (u : K) (h1 : t j ≤ u) (h2 : u < t (j + 1)) (p : ℕ) (i : ℤ)
    (hi : i < j - p ∨ j < i) : cox t p i u = 0 := by
  induction p generalizing i with
  | zero =>
    unfold cox
    rw [if_neg]
    rintro ⟨a, b⟩
    rcases hi with hi | hi
    · exact absurd b (not_lt.2 ((ht (by simp at hi; omega)).trans h1))
    · exact absurd a (not_le.2 (lt_of_lt_of_le h2 (ht (by omega))))
  | succ p ih =>
    unfold cox
    rw [ih i (by push_cast at hi; omega), ih (i + 1) (by push_cast at hi; omega)]
    simp

/-- De Boor's algorithm gives the sum of the basis functions. -/
theorem deBoor_eq_sum [IsStrictOrderedRing K] (t : ℤ → K) (ht : Monotone t) (j : ℤ) (u : K) (h1 : t j ≤ u) (h2 : u < t (j + 1)) (p : ℕ)
    (P : ℤ → V) : deBoor t j u p P = ∑ r ∈ Finset.range (p + 1), cox t p (j - p + r) u • P (j - p + r) := by
  induction p generalizing P with
  | zero => simp [deBoor, cox, h1, h2]
  | succ p ih =>
    unfold deBoor
    rw [ih]
    have hL : ∑ r ∈ Finset.range (p + 1 + 1), cox t (p + 1) (j - (p + 1 : ℕ) + r) u • P (j - (p + 1 : ℕ) + r) =
        (∑ r ∈ Finset.range (p + 1 + 1), ((u - t (j - (p + 1 : ℕ) + r)) / (t (j - (p + 1 : ℕ) + r + p + 1) - t (j - (p + 1 : ℕ) + r)) *
          cox t p (j - (p + 1 : ℕ) + r) u) • P (j - (p + 1 : ℕ) + r)) +
        ∑ r ∈ Finset.range (p + 1 + 1), ((t (j - (p + 1 : ℕ) + r + p + 2) - u) / (t (j - (p + 1 : ℕ) + r + p + 2) - t (j - (p + 1 : ℕ) + r + 1)) *
          cox t p (j - (p + 1 : ℕ) + r + 1) u) • P (j - (p + 1 : ℕ) + r) := by
      rw [← Finset.sum_add_distrib]
      apply Finset.sum_congr rfl
      intro r _
      rw [← add_smul]
      rfl
    rw [hL, Finset.sum_range_succ' _ (p + 1), Finset.sum_range_succ (fun r : ℕ => ((t (j - (p + 1 : ℕ) + r + p + 2) - u) /
      (t (j - (p + 1 : ℕ) + r + p + 2) - t (j - (p + 1 : ℕ) + r + 1)) * cox t p (j - (p + 1 : ℕ) + r + 1) u) • P (j - (p + 1 : ℕ) + r)) (p + 1)]
    have z1 : cox t p (j - (p + 1 : ℕ) + (0 : ℕ)) u = 0 := cox_zero t ht j u h1 h2 p _ (by push_cast; omega)
    have z2 : cox t p (j - (p + 1 : ℕ) + (p + 1 : ℕ) + 1) u = 0 := cox_zero t ht j u h1 h2 p _ (by push_cast; omega)
    rw [z1, z2]
    simp only [mul_zero, zero_smul, add_zero]
    rw [← Finset.sum_add_distrib]
    apply Finset.sum_congr rfl
    intro r hr
    rw [Finset.mem_range] at hr
    have e1 : j - ((p + 1 : ℕ) : ℤ) + ((r + 1 : ℕ) : ℤ) = j - p + r := by push_cast; ring
    have e2 : j - ((p + 1 : ℕ) : ℤ) + (r : ℤ) = j - p + r - 1 := by push_cast; ring
    have e3 : j - (p : ℤ) + r - 1 + 1 = j - p + r := by ring
    have e4 : j - (p : ℤ) + r - 1 + p + 2 = j - p + r + p + 1 := by ring
    rw [e1, e2, e3, e4]
    unfold step
    have e5 : j - (p : ℤ) + r + ((p + 1 : ℕ) : ℤ) = j - p + r + p + 1 := by push_cast; ring
    rw [e5]
    have lt : t (j - p + r) < t (j - p + r + p + 1) :=
      lt_of_le_of_lt ((ht (by omega)).trans h1) (lt_of_lt_of_le h2 (ht (by omega)))
    have n1 : t (j - p + r + p + 1) - t (j - p + r) ≠ 0 := (sub_pos.2 lt).ne'
    generalize t (j - p + r + p + 1) = b at *
    generalize t (j - p + r) = a at *
    have : 1 - (u - a) / (b - a) = (b - u) / (b - a) := by field_simp; ring
    rw [this, smul_add, smul_smul, smul_smul, add_comm]
    congr 1
    · rw [mul_comm]
    · rw [mul_comm]

/-- The basis functions of one degree sum to one. -/
theorem deBoor_const [IsStrictOrderedRing K] (t : ℤ → K) (j : ℤ) (u : K) (p : ℕ) (v : V) :
    deBoor t j u p (fun _ => v) = v := by
  induction p with
  | zero => rfl
  | succ p ih =>
    unfold deBoor
    have : step t (p + 1) (fun _ => v) u = fun _ => v := by
      funext i
      unfold step
      module
    rw [this, ih]

end Verif.Geom.BSpline
