import Verif.Geom.TrimLemmas
/-!
# Lemmas on the insertion of knots
-/
namespace Verif.Geom.Trim
open Verif.Geom.BSpline

set_option linter.unusedSectionVars false

variable {K : Type} [Field K] [LinearOrder K] [IsStrictOrderedRing K] {V : Type} [AddCommGroup V] [Module K V]

/-! ## The insertion of several knots, one after the other -/

/-- Knots after `j` insertions. -/
def itK (t : ℤ → K) (k : ℤ) (x : K) : Nat → ℤ → K
  | 0 => t
  | j + 1 => insKnot (itK t k x j) (k + j) x

/-- Points after `j` insertions. -/
def itP (t : ℤ → K) (k : ℤ) (x : K) (p : Nat) (P : ℤ → V) : Nat → ℤ → V
  | 0 => P
  | j + 1 => insPts (itK t k x j) (k + j) x p (itP t k x p P j)

theorem itK_eq (t : ℤ → K) (k : ℤ) (x : K) (j : Nat) (i : ℤ) :
    itK t k x j i = if i ≤ k then t i else if i ≤ k + j then x else t (i - j) := by
  induction j generalizing i with
  | zero =>
    unfold itK
    by_cases h : i ≤ k
    · rw [if_pos h]
    · rw [if_neg h, if_neg (by simpa using h)]; simp
  | succ j ih =>
    unfold itK insKnot
    rw [ih, ih]
    by_cases h : i ≤ k
    · rw [if_pos (by omega), if_pos h, if_pos h]
    · rw [if_neg h, if_neg h]
      by_cases h2 : i ≤ k + j
      · rw [if_pos h2, if_pos h2, if_pos (by push_cast; omega)]
      · rw [if_neg h2]
        by_cases h3 : i = k + j + 1
        · rw [if_pos h3, if_pos (by push_cast; omega)]
        · rw [if_neg h3, if_neg (by omega), if_neg (by omega), if_neg (by push_cast; omega)]
          congr 1
          push_cast
          ring

section
variable (t : ℤ → K) (ht : Monotone t) (k : ℤ) (x : K) (hk : t k ≤ x) (hk' : x < t (k + 1))
include ht hk hk'

theorem itK_bounds (j : Nat) : Monotone (itK t k x j) ∧ itK t k x j (k + j) ≤ x ∧ x < itK t k x j (k + j + 1) := by
  have b : itK t k x j (k + j) ≤ x ∧ x < itK t k x j (k + j + 1) := by
    rw [itK_eq, itK_eq, if_neg (show ¬ k + (j : ℤ) + 1 ≤ k by omega), if_neg (show ¬ k + (j : ℤ) + 1 ≤ k + j by omega)]
    have : k + (j : ℤ) + 1 - j = k + 1 := by ring
    rw [this]
    refine ⟨?_, hk'⟩
    split_ifs with h1 h2
    · exact (ht h1).trans hk
    · exact le_refl _
    · omega
  refine ⟨?_, b⟩
  clear b
  induction j with
  | zero => exact ht
  | succ j ih =>
    unfold itK
    refine insKnot_mono _ ih _ _ ?_ ?_
    · rw [itK_eq]
      split_ifs with h1 h2
      · exact (ht h1).trans hk
      · exact le_refl _
      · omega
    · rw [itK_eq, if_neg (by omega), if_neg (by omega)]
      have : k + (j : ℤ) + 1 - j = k + 1 := by ring
      rw [this]
      exact hk'

/-- Several insertions keep the curve. -/
theorem deBoor_itP (p : Nat) (P : ℤ → V) (u : K) (r : Nat) (j : ℤ) (hj : itK t k x r j < itK t k x r (j + 1)) :
    deBoor (itK t k x r) j u p (itP t k x p P r) = deBoor t (if j ≤ k then j else j - r) u p P := by
  induction r generalizing j with
  | zero => simp [itK, itP]
  | succ r ih =>
    obtain ⟨m, b1, b2⟩ := itK_bounds t ht k x hk hk' r
    unfold itK itP
    rw [deBoor_insert _ m _ _ b1 b2 j u hj]
    have hlt := hj
    rw [itK_eq, itK_eq] at hj
    by_cases h : j ≤ k
    · rw [if_pos (show j ≤ k + r by omega)]
      by_cases hr : r = 0
      · subst hr
        simp [itK, itP, h]
      · rw [ih j, if_pos h, if_pos h]
        rw [itK_eq, itK_eq]
        rw [if_pos h] at hj ⊢
        by_cases h2 : j + 1 ≤ k
        · rw [if_pos h2] at hj ⊢; exact hj
        · rw [if_neg h2, if_pos (by push_cast; omega)] at hj
          rw [if_neg h2, if_pos (by omega)]
          exact hj
    · have hge : k + (r + 1 : ℕ) ≤ j := by
        by_contra hc
        rw [if_neg h, if_pos (by omega), if_neg (by omega), if_pos (by omega)] at hj
        exact lt_irrefl _ hj
      have e : ∀ (y : ℤ → K), y (j - 1 + 1) = y j := fun y => by congr 1; ring
      rw [if_neg (by push_cast at hge; omega), ih (j - 1)]
      · by_cases h2 : j - 1 ≤ k
        · have hr0 : r = 0 := by push_cast at hge; omega
          rw [if_pos h2, if_neg h]
          subst hr0
          congr 1
        · rw [if_neg h2, if_neg h]
          congr 1
          push_cast; ring
      · rw [e (itK t k x r), itK_eq, itK_eq, if_neg (show ¬ j ≤ k from h), if_neg (show ¬ j ≤ k + r by push_cast at hge; omega)]
        rw [if_neg h, if_neg (show ¬ j + 1 ≤ k by omega), if_neg (show ¬ j + 1 ≤ k + (r + 1 : ℕ) by push_cast at hge ⊢; omega)] at hj
        have e2 : j + 1 - ((r + 1 : ℕ) : ℤ) = j - r := by push_cast; ring
        rw [e2] at hj
        refine lt_of_le_of_lt ?_ hj
        by_cases h3 : j ≤ k + (r + 1 : ℕ)
        · rw [if_pos h3]
          split_ifs with h4 h5
          · exact (ht h4).trans hk
          · exact le_refl _
          · push_cast at h3; omega
        · rw [if_neg h3, if_neg (by push_cast at h3; omega), if_neg (by push_cast at h3; omega)]
          apply le_of_eq
          congr 1
          push_cast; ring

end

/-! ## The points -/

section
variable (t : ℤ → K) (k : ℤ) (x : K) (p : Nat) (P : ℤ → V)

/-- Insertions do not touch the points before. -/
theorem itP_lo (j : Nat) (l : ℤ) (h : l ≤ k + j - p) : itP t k x p P (j + 1) l = itP t k x p P j l := by
  show insPts _ _ _ _ _ l = _
  exact insPts_lo _ _ _ _ _ _ h

theorem itP_lo' (j r : Nat) (hr : j ≤ r) (l : ℤ) (h : l ≤ k + j - p) : itP t k x p P r l = itP t k x p P j l := by
  induction r with
  | zero => have : j = 0 := by omega
            rw [this]
  | succ r ih =>
    by_cases hj : j = r + 1
    · rw [hj]
    · rw [itP_lo t k x p P r l (by omega), ih (by omega)]

variable (s : Nat) (hs : ∀ i, k - s < i → i ≤ k → t i = x)
include hs

/-- Points behind are moved by one with each insertion. -/
theorem itP_hi (j : Nat) (hj : j + s ≤ p) (l : ℤ) (h : k - s < l) : itP t k x p P (j + 1) l = itP t k x p P j (l - 1) := by
  show insPts _ _ _ _ _ l = _
  by_cases h1 : l ≤ k + j
  · rw [insPts_mid _ _ _ _ _ _ (by omega) h1, step_apply]
    have : itK t k x j l = x := by
      rw [itK_eq]
      split_ifs with h2
      · exact hs l h h2
      · rfl
    rw [this, sub_self, zero_div, sub_zero, one_smul, zero_smul, add_zero]
  · rw [insPts_hi _ _ _ _ _ _ (by omega)]

theorem itP_hi' (j i : Nat) (hj : j + i + s ≤ p + 1) (l : ℤ) (h : k - s ≤ l) : itP t k x p P (j + i) (l + i) = itP t k x p P j l := by
  induction i with
  | zero => simp
  | succ i ih =>
    have e : l + ((i + 1 : ℕ) : ℤ) - 1 = l + i := by push_cast; ring
    rw [← Nat.add_assoc, itP_hi t k x p P s hs (j + i) (by omega) _ (by push_cast; omega), e, ih (by omega)]
end

theorem insInner_eq (T : Nat → K) (u : K) (k L : Nat) (m : Nat) (R : Nat → V) :
    insInner T u k L m R = fun i => if i < m then
      ((u - T (L + i)) / (T (k + (i + 1)) - T (L + i))) • R (i + 1) + (1 - (u - T (L + i)) / (T (k + (i + 1)) - T (L + i))) • R i else R i := by
  induction m with
  | zero => funext i; rfl
  | succ m ih =>
    funext i
    unfold insInner
    simp only
    rw [ih]
    by_cases h : i = m
    · subst h
      simp
    · rw [Function.update_of_ne h]
      by_cases h2 : i < m
      · rw [if_pos h2, if_pos (by omega)]
      · rw [if_neg h2, if_neg (by omega)]

section
variable (T : Nat → K) (P : Nat → V) (t : ℤ → K) (n : Nat) (x : K) (k s p r : Nat) (hkp : p ≤ k) (hsp : s ≤ p) (hr : r + s ≤ p + 1)
  (hkn : k < n + p) (hT : ∀ i : Nat, i ≤ n + p → T i = t i)
  (hs : ∀ i : ℤ, (k : ℤ) - s < i → i ≤ k → t i = x) (hkm : k < n + s)
include hkp hsp hr hkn hT hs hkm

/-- What holds during the loop over the insertions. -/
theorem insOuter_inv (Q0 : Nat → V) (hQ : ∀ i, (i ≤ k - p ∨ k + r ≤ i + s) → i < n + r → Q0 i = itP t k x p (fun i => P i.toNat) r i) (m : Nat) (hm : m ≤ r) :
    (m + s ≤ p → ∀ i, i + m + s ≤ p → (insOuter T x k s p r m (fun i => P (k - p + i), Q0)).1 i =
      itP t k x p (fun i => P i.toNat) m ((k : ℤ) - p + m + i)) ∧
    (m + s = p + 1 → 0 < m → (insOuter T x k s p r m (fun i => P (k - p + i), Q0)).1 0 = itP t k x p (fun i => P i.toNat) m ((k : ℤ) - p + m)) ∧
    (∀ i, k - p < i → i ≤ k - p + m → (insOuter T x k s p r m (fun i => P (k - p + i), Q0)).2 i = itP t k x p (fun i => P i.toNat) r i) ∧
    (∀ i, k + r ≤ i + m + s → i + s < k + r → k + r < p + i →
      (insOuter T x k s p r m (fun i => P (k - p + i), Q0)).2 i = itP t k x p (fun i => P i.toNat) r i) ∧
    (∀ i, (i ≤ k - p ∨ k + r ≤ i + s) → i < n + r →
      (insOuter T x k s p r m (fun i => P (k - p + i), Q0)).2 i = itP t k x p (fun i => P i.toNat) r i) := by
  generalize hPP : (fun i : ℤ => P i.toNat) = PP at *
  induction m with
  | zero =>
    refine ⟨fun _ i _ => ?_, fun _ h => by omega, fun i _ _ => by omega, fun i _ _ _ => by omega, fun i h h' => hQ i h h'⟩
    show P (k - p + i) = PP _
    rw [← hPP]
    show P _ = P _
    congr 1
    omega
  | succ m ih =>
    obtain ⟨i1, i2, i3, i4, i5⟩ := ih (by omega)
    unfold insOuter
    generalize insOuter T x k s p r m (fun i => P (k - p + i), Q0) = X at *
    obtain ⟨R, Q⟩ := X
    simp only at *
    have i1' := i1 (by omega)
    -- the array R
    have hR : ∀ i, i + (m + 1) + s ≤ p → insInner T x k (k - p + (m + 1)) (p + 1 - (m + 1) - s) R i =
        itP t k x p PP (m + 1) ((k : ℤ) - p + (m + 1 : ℕ) + i) := by
      intro i hi
      rw [insInner_eq]
      simp only
      rw [if_pos (by omega), i1' i (by omega), i1' (i + 1) (by omega)]
      show _ = insPts _ _ _ _ _ _
      rw [insPts_mid _ _ _ _ _ _ (by push_cast; omega) (by push_cast; omega), step_apply, itK_eq, itK_eq,
        if_pos (show (k : ℤ) - p + (m + 1 : ℕ) + i ≤ k by push_cast; omega),
        if_neg (show ¬ (k : ℤ) - p + (m + 1 : ℕ) + i + p ≤ k by push_cast; omega),
        if_neg (show ¬ (k : ℤ) - p + (m + 1 : ℕ) + i + p ≤ k + m by push_cast; omega),
        hT _ (by omega), hT _ (by omega)]
      have e1 : ((k - p + (m + 1) + i : ℕ) : ℤ) = (k : ℤ) - p + (m + 1 : ℕ) + i := by omega
      have e2 : ((k + (i + 1) : ℕ) : ℤ) = (k : ℤ) - p + (m + 1 : ℕ) + i + p - m := by push_cast; ring
      have e3 : (k : ℤ) - p + (m + 1 : ℕ) + i - 1 = (k : ℤ) - p + m + i := by push_cast; ring
      have e4 : (k : ℤ) - p + m + (i + 1 : ℕ) = (k : ℤ) - p + (m + 1 : ℕ) + i := by push_cast; ring
      rw [e1, e2, e3, e4, add_comm]
    -- its first entry
    have hR0 : insInner T x k (k - p + (m + 1)) (p + 1 - (m + 1) - s) R 0 =
        itP t k x p PP (m + 1) ((k : ℤ) - p + (m + 1 : ℕ)) := by
      by_cases h : m + 1 + s ≤ p
      · rw [hR 0 (by omega)]
        congr 1
        simp
      · have e : p + 1 - (m + 1) - s = 0 := by omega
        rw [e]
        show R 0 = _
        rw [i1' 0 (by omega), itP_hi t k x p PP s hs m (by omega) _ (by push_cast; omega)]
        congr 1
        push_cast; ring
    generalize insInner T x k (k - p + (m + 1)) (p + 1 - (m + 1) - s) R = R' at *
    have hL : R' 0 = itP t k x p PP r ((k - p + (m + 1) : ℕ) : ℤ) := by
      rw [hR0, itP_lo' t k x p PP (m + 1) r hm _ (by push_cast; omega)]
      congr 1
      omega
    have hU : p > m + 1 + s → R' (p - (m + 1) - s) = itP t k x p PP r ((k + r - (m + 1) - s : ℕ) : ℤ) := by
      intro h
      rw [hR _ (by omega)]
      have := itP_hi' t k x p PP s hs (m + 1) (r - (m + 1)) (by omega) ((k : ℤ) - s) (by omega)
      have e1 : m + 1 + (r - (m + 1)) = r := by omega
      rw [e1] at this
      have e2 : (k : ℤ) - s + (r - (m + 1) : ℕ) = ((k + r - (m + 1) - s : ℕ) : ℤ) := by omega
      rw [e2] at this
      rw [this]
      congr 1
      omega
    -- writing right values is harmless
    have hw : ∀ i, (Q i = itP t k x p PP r i ∨ i = k - p + (m + 1) ∨ (p > m + 1 + s ∧ i = k + r - (m + 1) - s)) →
        (if p > m + 1 + s then Function.update (β := fun _ => V) (Function.update (β := fun _ => V) Q (k - p + (m + 1)) (R' 0))
          (k + r - (m + 1) - s) (R' (p - (m + 1) - s)) else Function.update (β := fun _ => V) Q (k - p + (m + 1)) (R' 0)) i =
        itP t k x p PP r i := by
      intro i hi
      have h1 : (Q i = itP t k x p PP r i ∨ i = k - p + (m + 1)) → Function.update (β := fun _ => V) Q (k - p + (m + 1)) (R' 0) i = itP t k x p PP r i := by
        intro hi
        by_cases h : i = k - p + (m + 1)
        · subst h
          rw [Function.update_self, hL]
        · rw [Function.update_of_ne h]
          exact hi.resolve_right h
      by_cases hp : p > m + 1 + s
      · rw [if_pos hp]
        by_cases h : i = k + r - (m + 1) - s
        · subst h
          rw [Function.update_self, hU hp]
        · rw [Function.update_of_ne h]
          exact h1 (hi.imp_right fun h' => h'.resolve_right fun h'' => h h''.2)
      · rw [if_neg hp]
        exact h1 (hi.imp_right fun h' => h'.resolve_right fun h'' => hp h''.1)
    refine ⟨fun _ i hi => hR i hi, fun _ _ => hR0, fun i h1 h2 => hw i ?_, fun i h1 h2 h3 => hw i ?_, fun i h h' => hw i (Or.inl (i5 i h h'))⟩
    · by_cases h : i = k - p + (m + 1)
      · exact Or.inr (Or.inl h)
      · exact Or.inl (i3 i h1 (by omega))
    · by_cases h : i = k + r - (m + 1) - s
      · exact Or.inr (Or.inr ⟨by omega, h⟩)
      · exact Or.inl (i4 i (by omega) h2 h3)

/-- The new control points are those of the insertions one after the other. -/
theorem newPts_eq (i : Nat) (hi : i < n + r) : newPts T P n x k s p r i = itP t k x p (fun i => P i.toNat) r i := by
  unfold newPts
  simp only
  have hQ : ∀ i, (i ≤ k - p ∨ k + r ≤ i + s) → i < n + r →
      (fun i => if k - s + r ≤ i ∧ i < n + r then P (i - r) else P i) i = itP t k x p (fun i => P i.toNat) r i := by
    intro i h h'
    simp only
    by_cases h1 : k - s + r ≤ i
    · rw [if_pos ⟨h1, h'⟩]
      have := itP_hi' t k x p (fun i => P i.toNat) s hs 0 r (by omega) ((i : ℤ) - r) (by omega)
      rw [Nat.zero_add] at this
      have e : (i : ℤ) - r + r = i := by ring
      rw [e] at this
      rw [this]
      show P _ = P _
      congr 1
      omega
    · rw [if_neg (by tauto), itP_lo' t k x p _ 0 r (by omega) _ (by push_cast; omega)]
      rfl
  have inv := insOuter_inv T P t n x k s p r hkp hsp hr hkn hT hs hkm _ hQ r (le_refl _)
  generalize insOuter T x k s p r r (fun i => P (k - p + i), fun i => if k - s + r ≤ i ∧ i < n + r then P (i - r) else P i) = X at *
  obtain ⟨R, Q⟩ := X
  obtain ⟨j1, j2, j3, j4, j5⟩ := inv
  clear hQ j2
  simp only at *
  by_cases h : k - p + r < i ∧ i < k - s
  · rw [if_pos h, j1 (by omega) _ (by omega)]
    congr 1
    omega
  · rw [if_neg h]
    by_cases h1 : i ≤ k - p ∨ k + r ≤ i + s
    · exact j5 i h1 hi
    · by_cases h2 : i ≤ k - p + r
      · exact j3 i (by omega) h2
      · exact j4 i (by omega) (by omega) (by omega)
end

end Verif.Geom.Trim
