import Verif.Math.Matrix
import Mathlib.LinearAlgebra.Matrix.ToLinearEquiv
import Mathlib.Tactic.Linarith
import Mathlib.Tactic.FinCases
import Mathlib.Tactic.FieldSimp

/-! # Lemmas about matrices -/

namespace Verif.Math.Matrix4

variable {K : Type} [Field K] [LinearOrder K] [IsStrictOrderedRing K]

abbrev M (K : Type) := Matrix (Fin 4) (Fin 4) K

omit [LinearOrder K] [IsStrictOrderedRing K] in
theorem identity_m : (identity : Mat K).m = 1 := by
  ext i j; simp only [identity, Matrix.one_apply]

omit [LinearOrder K] [IsStrictOrderedRing K] in
theorem mul_m (a b : Mat K) (ha : a.ident = true → a.m = 1) (hb : b.ident = true → b.m = 1) : (mul a b).m = b.m * a.m := by
  unfold mul
  by_cases h1 : a.ident = true
  · rw [if_pos h1, ha h1, mul_one]
  rw [if_neg h1]
  by_cases h2 : b.ident = true
  · rw [if_pos h2, hb h2, one_mul]
  rw [if_neg h2]
  ext i j
  simp only [Matrix.mul_apply, Fin.sum_univ_four]

omit [LinearOrder K] [IsStrictOrderedRing K] in
theorem preMul_m (a b : Mat K) (ha : a.ident = true → a.m = 1) (hb : b.ident = true → b.m = 1) : (preMul a b).m = a.m * b.m := by
  unfold preMul
  by_cases h1 : a.ident = true
  · rw [if_pos h1, ha h1, one_mul]
  rw [if_neg h1]
  by_cases h2 : b.ident = true
  · rw [if_pos h2, hb h2, mul_one]
  rw [if_neg h2]
  ext i j
  simp only [Matrix.mul_apply, Fin.sum_univ_four]

theorem pivot_fold (a : M K) (j : Fin 4) (l : List (Fin 4)) (p : Fin 4) (hp : j ≤ p) :
    j ≤ l.foldl (fun i1 i => if i > j ∧ |a i j| > |a i1 j| then i else i1) p ∧
    |a p j| ≤ |a (l.foldl (fun i1 i => if i > j ∧ |a i j| > |a i1 j| then i else i1) p) j| ∧
    ∀ i ∈ l, j < i → |a i j| ≤ |a (l.foldl (fun i1 i => if i > j ∧ |a i j| > |a i1 j| then i else i1) p) j| := by
  induction l generalizing p with
  | nil => exact ⟨hp, le_refl _, fun i hi => absurd hi (List.not_mem_nil)⟩
  | cons x l ih =>
    rw [List.foldl_cons]
    by_cases hx : x > j ∧ |a x j| > |a p j|
    · rw [if_pos hx]
      obtain ⟨h1, h2, h3⟩ := ih x (le_of_lt hx.1)
      refine ⟨h1, le_trans (le_of_lt hx.2) h2, ?_⟩
      intro i hi hj
      rcases List.mem_cons.1 hi with rfl | hi
      · exact h2
      · exact h3 i hi hj
    · rw [if_neg hx]
      obtain ⟨h1, h2, h3⟩ := ih p hp
      refine ⟨h1, h2, ?_⟩
      intro i hi hj
      rcases List.mem_cons.1 hi with rfl | hi
      · exact le_trans (not_lt.1 fun h => hx ⟨hj, h⟩) h2
      · exact h3 i hi hj

theorem pivot_spec (a : M K) (j : Fin 4) : j ≤ pivot a j ∧ ∀ i, j ≤ i → |a i j| ≤ |a (pivot a j) j| := by
  obtain ⟨h1, h2, h3⟩ := pivot_fold a j (List.finRange 4) j (le_refl _)
  refine ⟨h1, fun i hi => ?_⟩
  rcases eq_or_lt_of_le hi with rfl | hi
  · exact h2
  · exact h3 i (List.mem_finRange i) hi

/-- What holds before column `j`: columns to the left are done, and `b` records what was done to `A`. -/
structure Inv (A : M K) (j : ℕ) (a b : M K) : Prop where
  prod : b * A = a
  ker : ∀ x, a.mulVec x = 0 → A.mulVec x = 0
  cols : ∀ i c : Fin 4, c.val < j → a i c = if i = c then 1 else 0

omit [LinearOrder K] [IsStrictOrderedRing K] in
theorem swapRows_mul (b A : M K) (p q : Fin 4) : swapRows b p q * A = swapRows (b * A) p q := by
  ext i k
  simp only [swapRows, Matrix.mul_apply]
  split_ifs
  · rfl
  · rfl
  · rfl

omit [LinearOrder K] [IsStrictOrderedRing K] in
theorem swapRows_swap (a : M K) (p q : Fin 4) (i : Fin 4) : ∃ k, swapRows a p q k = a i := by
  by_cases h1 : i = q
  · exact ⟨p, by unfold swapRows; rw [if_pos rfl, h1]⟩
  by_cases h2 : i = p
  · exact ⟨q, by
      unfold swapRows
      rw [if_neg (fun h : q = p => h1 (by rw [h2, h])), if_pos rfl, h2]⟩
  · exact ⟨i, by unfold swapRows; rw [if_neg h2, if_neg h1]⟩

omit [LinearOrder K] [IsStrictOrderedRing K] in
theorem inv_swap (A a b : M K) (j p : Fin 4) (h : Inv A j.val a b) (hp : j ≤ p) :
    Inv A j.val (swapRows a p j) (swapRows b p j) := by
  refine ⟨by rw [swapRows_mul, h.prod], fun x hx => h.ker x ?_, ?_⟩
  · funext i
    obtain ⟨k, hk⟩ := swapRows_swap a p j i
    have := congrFun hx k
    simp only [Matrix.mulVec, Pi.zero_apply] at this ⊢
    rw [← hk]
    exact this
  · intro i c hc
    have hcj : c < j := hc
    have h1 : j ≠ c := fun e => absurd hcj (by rw [e]; exact lt_irrefl c)
    have h2 : p ≠ c := fun e => absurd (lt_of_lt_of_le hcj hp) (by rw [e]; exact lt_irrefl c)
    unfold swapRows
    by_cases hi : i = p
    · rw [if_pos hi, h.cols j c hc, if_neg h1, if_neg (by rw [hi]; exact h2)]
    rw [if_neg hi]
    by_cases hi' : i = j
    · rw [if_pos hi', h.cols p c hc, if_neg h2, if_neg (by rw [hi']; exact h1)]
    rw [if_neg hi', h.cols i c hc]

omit [IsStrictOrderedRing K] in
theorem scaleA_eq (a : M K) (j : Fin 4) (hj : a j j ≠ 0) (hl : ∀ c, c < j → a j c = 0) :
    scaleA (1 / a j j) j a = scaleB (1 / a j j) j a := by
  ext i k
  unfold scaleA scaleB
  by_cases h : i = j
  · rw [if_pos h, if_pos h]
    subst h
    by_cases h1 : k > i
    · rw [if_pos h1]
    rw [if_neg h1]
    by_cases h2 : k = i
    · rw [if_pos h2, h2, mul_one_div_cancel hj]
    rw [if_neg h2, hl k (lt_of_le_of_ne (not_lt.1 h1) h2), zero_mul]
  · rw [if_neg h, if_neg h]

omit [LinearOrder K] [IsStrictOrderedRing K] in
theorem scaleB_mul (s : K) (b A : M K) (j : Fin 4) : scaleB s j b * A = scaleB s j (b * A) := by
  ext i k
  simp only [scaleB, Matrix.mul_apply]
  split_ifs
  · rw [Finset.sum_mul]
    exact Finset.sum_congr rfl fun x _ => by rw [mul_assoc, mul_assoc, mul_comm s]
  · rfl

omit [LinearOrder K] [IsStrictOrderedRing K] in
theorem inv_scale (A a b : M K) (j : Fin 4) (s : K) (hs : s ≠ 0) (h : Inv A j.val a b) :
    Inv A j.val (scaleB s j a) (scaleB s j b) := by
  refine ⟨by rw [scaleB_mul, h.prod], fun x hx => h.ker x ?_, ?_⟩
  · funext i
    have hi := congrFun hx i
    simp only [Matrix.mulVec, dotProduct, Pi.zero_apply, scaleB] at hi ⊢
    by_cases h1 : i = j
    · simp only [if_pos h1] at hi
      have : (∑ k, a i k * x k) * s = 0 := by
        rw [Finset.sum_mul, ← hi]
        exact Finset.sum_congr rfl fun k _ => by ring
      exact (mul_eq_zero.1 this).resolve_right hs
    · simp only [if_neg h1] at hi
      exact hi
  · intro i c hc
    have h1 : j ≠ c := fun e => absurd hc (by rw [e]; exact lt_irrefl _)
    unfold scaleB
    by_cases hi : i = j
    · rw [if_pos hi, h.cols i c hc, if_neg (by rw [hi]; exact h1), zero_mul]
    · rw [if_neg hi, h.cols i c hc]

omit [IsStrictOrderedRing K] in
theorem elimA_eq (a : M K) (j : Fin 4) (hj : a j j = 1) (hl : ∀ c, c < j → a j c = 0) : elimA j a = elimB j a a := by
  ext i k
  unfold elimA elimB
  by_cases h : i = j
  · rw [if_pos h, if_pos h]
  rw [if_neg h, if_neg h]
  by_cases h1 : k > j
  · rw [if_pos h1]
  rw [if_neg h1]
  by_cases h2 : k = j
  · rw [if_pos h2, h2, hj, mul_one, sub_self]
  rw [if_neg h2, hl k (lt_of_le_of_ne (not_lt.1 h1) h2), mul_zero, sub_zero]

omit [LinearOrder K] [IsStrictOrderedRing K] in
theorem elimB_mul (a b A : M K) (j : Fin 4) : elimB j a b * A = elimB j a (b * A) := by
  ext i k
  simp only [elimB, Matrix.mul_apply]
  split_ifs
  · rfl
  · rw [Finset.mul_sum, ← Finset.sum_sub_distrib]
    exact Finset.sum_congr rfl fun x _ => by ring

omit [LinearOrder K] [IsStrictOrderedRing K] in
theorem inv_elim (A a b : M K) (j : Fin 4) (hj : a j j = 1) (h : Inv A j.val a b) :
    Inv A (j.val + 1) (elimB j a a) (elimB j a b) := by
  refine ⟨by rw [elimB_mul, h.prod], fun x hx => h.ker x ?_, ?_⟩
  · have hrow : (a.mulVec x) j = 0 := by
      have hi := congrFun hx j
      simp only [Matrix.mulVec, dotProduct, Pi.zero_apply, elimB, if_pos] at hi
      exact hi
    funext i
    by_cases h1 : i = j
    · rw [h1]; exact hrow
    have hi := congrFun hx i
    simp only [Matrix.mulVec, dotProduct, Pi.zero_apply, elimB, if_neg h1] at hi hrow ⊢
    have : ∑ k, (a i k - a i j * a j k) * x k = (∑ k, a i k * x k) - a i j * ∑ k, a j k * x k := by
      rw [Finset.mul_sum, ← Finset.sum_sub_distrib]
      exact Finset.sum_congr rfl fun k _ => by ring
    rw [this, hrow, mul_zero, sub_zero] at hi
    exact hi
  · intro i c hc
    unfold elimB
    by_cases hcj : c = j
    · subst hcj
      by_cases hi : i = c
      · rw [if_pos hi, if_pos hi, hi, hj]
      · rw [if_neg hi, if_neg hi, hj, mul_one, sub_self]
    have hc' : c.val < j.val := lt_of_le_of_ne (Nat.lt_succ_iff.1 hc) fun e => hcj (Fin.ext e)
    by_cases hi : i = j
    · rw [if_pos hi, h.cols i c hc']
    · rw [if_neg hi, h.cols i c hc', h.cols j c hc', if_neg (fun e : j = c => hcj e.symm), mul_zero, sub_zero]

omit [LinearOrder K] [IsStrictOrderedRing K] in
theorem inv_singular (A a b : M K) (j : Fin 4) (h : Inv A j.val a b) (hz : ∀ i, j ≤ i → a i j = 0) : A.det = 0 := by
  rw [← Matrix.exists_mulVec_eq_zero_iff]
  refine ⟨fun c => if c < j then a c j else if c = j then -1 else 0, ?_, h.ker _ ?_⟩
  · intro h0
    have := congrFun h0 j
    simp only [lt_irrefl, if_false, if_true, Pi.zero_apply] at this
    exact one_ne_zero (neg_eq_zero.1 this)
  · funext i
    have hc := h.cols
    simp only [Matrix.mulVec, dotProduct, Pi.zero_apply]
    have : ∀ c, a i c * (if c < j then a c j else if c = j then -1 else 0) =
        (if c = i then (if i < j then a i j else 0) else 0) + (if c = j then -(a i j) else 0) := by
      intro c
      by_cases h1 : c < j
      · rw [if_pos h1, hc i c h1, if_neg (ne_of_lt h1), add_zero]
        by_cases h2 : i = c
        · rw [if_pos h2, if_pos h2.symm, h2, if_pos h1, one_mul]
        · rw [if_neg h2, if_neg (fun e => h2 e.symm), zero_mul]
      · rw [if_neg h1]
        by_cases h2 : c = i
        · have h4 : ¬ i < j := h2 ▸ h1
          rw [if_pos h2, if_neg h4, zero_add]
          split_ifs with h3
          · rw [h3]; ring
          · ring
        · rw [if_neg h2, zero_add]
          split_ifs with h3
          · rw [h3]; ring
          · ring
    rw [Finset.sum_congr rfl fun c _ => this c, Finset.sum_add_distrib, Finset.sum_ite_eq' , Finset.sum_ite_eq']
    simp only [Finset.mem_univ, if_true]
    by_cases h1 : i < j
    · rw [if_pos h1]; ring
    · rw [if_neg h1, hz i (not_lt.1 h1)]; ring

theorem column_inv (A a b : M K) (j : Fin 4) (h : Inv A j.val a b) :
    (column (a, b) j = none → A.det = 0) ∧ ∀ s, column (a, b) j = some s → Inv A (j.val + 1) s.1 s.2 := by
  obtain ⟨hp, hmax⟩ := pivot_spec a j
  have hs := inv_swap A a b j (pivot a j) h hp
  have hjj : swapRows a (pivot a j) j j j = a (pivot a j) j := by
    unfold swapRows
    by_cases e : j = pivot a j
    · rw [if_pos e, ← e]
    · rw [if_neg e, if_pos rfl]
  unfold column
  by_cases h0 : swapRows a (pivot a j) j j j = 0
  · constructor
    · intro _
      refine inv_singular A a b j h fun i hi => ?_
      have := hmax i hi
      rw [← hjj, h0, abs_zero] at this
      exact abs_eq_zero.1 (le_antisymm this (abs_nonneg _))
    · intro s he
      rw [show (if swapRows a (pivot a j) j j j = 0 then none else _) = (none : Option (M K × M K)) from if_pos h0] at he
      exact absurd he (by simp)
  · constructor
    · intro he
      rw [show (if swapRows a (pivot a j) j j j = 0 then none else _) = (some _ : Option (M K × M K)) from if_neg h0] at he
      exact absurd he (by simp)
    · intro s he
      rw [show (if swapRows a (pivot a j) j j j = 0 then none else _) = (some _ : Option (M K × M K)) from if_neg h0] at he
      have he := Option.some.inj he
      have hl : ∀ c, c < j → swapRows a (pivot a j) j j c = 0 := fun c hc => by
        rw [hs.cols j c hc, if_neg (ne_of_gt hc)]
      rw [scaleA_eq _ j h0 hl] at he
      have hsc := inv_scale A _ _ j (1 / swapRows a (pivot a j) j j j) (one_div_ne_zero h0) hs
      have h1 : scaleB (1 / swapRows a (pivot a j) j j j) j (swapRows a (pivot a j) j) j j = 1 := by
        show (if j = j then _ else _) = _
        rw [if_pos rfl, mul_one_div_cancel h0]
      have hl' : ∀ c, c < j → scaleB (1 / swapRows a (pivot a j) j j j) j (swapRows a (pivot a j) j) j c = 0 := fun c hc => by
        rw [hsc.cols j c hc, if_neg (ne_of_gt hc)]
      rw [elimA_eq _ j h1 hl'] at he
      have := inv_elim A _ _ j h1 hsc
      rw [← he]
      exact this

theorem inverse_spec (A : M K) :
    ((List.finRange 4).foldlM column (A, (1 : M K)) = none ↔ A.det = 0) ∧
    ∀ s, (List.finRange 4).foldlM column (A, (1 : M K)) = some s → s.2 * A = 1 := by
  have h0 : Inv A 0 A (1 : M K) := ⟨one_mul A, fun x h => h, fun i c h => absurd h (Nat.not_lt_zero _)⟩
  have hr : List.finRange 4 = [0, 1, 2, 3] := by decide
  rw [hr]
  have key : ((List.foldlM column (A, (1 : M K)) [0, 1, 2, 3] = none → A.det = 0) ∧
      ∀ s, List.foldlM column (A, (1 : M K)) [0, 1, 2, 3] = some s → s.2 * A = 1) := by
    simp only [List.foldlM_cons, List.foldlM_nil]
    obtain ⟨n0, s0⟩ := column_inv A A 1 0 h0
    rcases c0 : column (A, (1 : M K)) 0 with _ | ⟨a1, b1⟩
    · exact ⟨fun _ => n0 c0, fun s h => absurd h (by simp)⟩
    have i1 := s0 _ c0
    obtain ⟨n1, s1⟩ := column_inv A a1 b1 1 i1
    rcases c1 : column (a1, b1) 1 with _ | ⟨a2, b2⟩
    · exact ⟨fun _ => n1 c1, fun s h => absurd h (by simp [c1])⟩
    have i2 := s1 _ c1
    obtain ⟨n2, s2⟩ := column_inv A a2 b2 2 i2
    rcases c2 : column (a2, b2) 2 with _ | ⟨a3, b3⟩
    · exact ⟨fun _ => n2 c2, fun s h => absurd h (by simp [c1, c2])⟩
    have i3 := s2 _ c2
    obtain ⟨n3, s3⟩ := column_inv A a3 b3 3 i3
    rcases c3 : column (a3, b3) 3 with _ | ⟨a4, b4⟩
    · exact ⟨fun _ => n3 c3, fun s h => absurd h (by simp [c1, c2, c3])⟩
    have i4 := s3 _ c3
    refine ⟨fun h => absurd h (by simp [c1, c2, c3]), fun s h => ?_⟩
    have : s = (a4, b4) := by simpa [c1, c2, c3] using h.symm
    rw [this, i4.prod]
    ext i c
    rw [i4.cols i c c.isLt, Matrix.one_apply]
  refine ⟨⟨key.1, fun hd => ?_⟩, key.2⟩
  rcases hf : List.foldlM column (A, (1 : M K)) [0, 1, 2, 3] with _ | s
  · rfl
  · have := congrArg Matrix.det (key.2 s hf)
    rw [Matrix.det_mul, hd, mul_zero, Matrix.det_one] at this
    exact absurd this zero_ne_one

end Verif.Math.Matrix4
