import Verif.Geom.Bicubic
import Verif.Math.MatrixProps
import Mathlib.Tactic.Ring
import Mathlib.Tactic.FieldSimp
import Mathlib.Tactic.Linarith
import Mathlib.Tactic.Positivity
import Mathlib.Tactic.FinCases

/-! # Lemmas about bicubic patches -/

namespace Verif.Geom.Bicubic

variable {K : Type} [Field K] [LinearOrder K] [IsStrictOrderedRing K]

/-- Specification: the Bézier curve of four values. -/
def bez (p : Fin 4 → K) (t : K) : K :=
  (1 - t) ^ 3 * p 0 + 3 * t * (1 - t) ^ 2 * p 1 + 3 * t ^ 2 * (1 - t) * p 2 + t ^ 3 * p 3

/-- Specification: the Bézier surface of sixteen values. -/
def surf (p : Net K) (u v : K) : K := bez (fun iv => bez (p iv) u) v

omit [LinearOrder K] [IsStrictOrderedRing K] in
theorem surf_swap (p : Net K) (u v : K) : surf p u v = bez (fun iu => bez (fun iv => p iv iu) v) u := by
  unfold surf bez
  ring

theorem iter_f (s : FD K) (n : ℕ) :
    ((step floatOps)^[n] s).f =
      s.f + n * s.df + n * (n - 1) / 2 * s.ddf + n * (n - 1) * (n - 2) / 6 * s.dddf := by
  induction n generalizing s with
  | zero => simp
  | succ n ih =>
    rw [Function.iterate_succ_apply, ih]
    simp only [step, floatOps]
    push_cast
    ring

theorem fdiff_value (p : Fin 4 → K) (d : K) (n : ℕ) :
    ((step floatOps)^[n] (fdiff floatOps d p)).f = bez p (n * d) := by
  rw [iter_f]
  simp only [fdiff, comb, floatOps, id, bez]
  ring

omit [Field K] [LinearOrder K] [IsStrictOrderedRing K] in
theorem diceU_length {T : Type} (o : Ops K T) (s : FD T) (n : ℕ) : (diceU o s n).length = n := by
  induction n generalizing s with
  | zero => rfl
  | succ n ih => simp [diceU, ih]

omit [Field K] [LinearOrder K] [IsStrictOrderedRing K] in
theorem diceU_get {T : Type} (o : Ops K T) (s : FD T) (n i : ℕ) (h : i < n) :
    (diceU o s n)[i]? = some ((step o)^[i] s).f := by
  induction n generalizing s i with
  | zero => omega
  | succ n ih =>
    cases i with
    | zero => simp [diceU]
    | succ i =>
      simp only [diceU, List.getElem?_cons_succ]
      rw [ih _ _ (by omega), Function.iterate_succ_apply]

omit [LinearOrder K] [IsStrictOrderedRing K] in
theorem diceV_length {T : Type} (o : Ops K T) (u : ℕ) (s : Fin 4 → FD T) (n : ℕ) :
    (diceV o u s n).length = n * (u + 1) := by
  induction n generalizing s with
  | zero => simp [diceV]
  | succ n ih => simp only [diceV, List.length_append, diceU_length, ih]; ring

omit [LinearOrder K] [IsStrictOrderedRing K] in
theorem diceV_get {T : Type} (o : Ops K T) (u : ℕ) (s : Fin 4 → FD T) (n iv iu : ℕ) (h : iv < n) (hu : iu ≤ u) :
    (diceV o u s n)[iv * (u + 1) + iu]? =
      some ((step o)^[iu] (fdiff o (1 / (u : K)) fun k => ((step o)^[iv] (s k)).f)).f := by
  induction n generalizing s iv with
  | zero => omega
  | succ n ih =>
    cases iv with
    | zero =>
      simp only [diceV, Nat.zero_mul, Nat.zero_add]
      rw [List.getElem?_append_left (by rw [diceU_length]; omega), diceU_get _ _ _ _ (by omega)]
      rfl
    | succ iv =>
      simp only [diceV]
      have e : (iv + 1) * (u + 1) + iu = (u + 1) + (iv * (u + 1) + iu) := by ring
      rw [List.getElem?_append_right (by rw [diceU_length, e]; omega), diceU_length, e, Nat.add_sub_cancel_left,
        ih _ _ (by omega)]
      simp only [Function.iterate_succ_apply]

theorem halve_left (p : Fin 4 → K) (t : K) : bez (halve id p).1 t = bez p (t / 2) := by
  simp only [halve, bez, id, Matrix.cons_val]
  field_simp
  ring

theorem halve_right (p : Fin 4 → K) (t : K) : bez (halve id p).2 t = bez p ((1 + t) / 2) := by
  simp only [halve, bez, id, Matrix.cons_val]
  field_simp
  ring

/-! ## Bounds -/

omit [Field K] [IsStrictOrderedRing K] in
theorem fold_mono (l : List K) (b : K × K) :
    (l.foldl (fun b v => (if v < b.1 then v else b.1, if v > b.2 then v else b.2)) b).1 ≤ b.1 ∧
    b.2 ≤ (l.foldl (fun b v => (if v < b.1 then v else b.1, if v > b.2 then v else b.2)) b).2 := by
  induction l generalizing b with
  | nil => exact ⟨le_refl _, le_refl _⟩
  | cons a l ih =>
    have h := ih (if a < b.1 then a else b.1, if a > b.2 then a else b.2)
    rw [List.foldl_cons]
    refine ⟨le_trans h.1 ?_, le_trans ?_ h.2⟩
    · show (if a < b.1 then a else b.1) ≤ b.1
      by_cases c : a < b.1
      · rw [if_pos c]; exact c.le
      · rw [if_neg c]
    · show b.2 ≤ (if a > b.2 then a else b.2)
      by_cases c : a > b.2
      · rw [if_pos c]; exact c.le
      · rw [if_neg c]

omit [Field K] [IsStrictOrderedRing K] in
theorem fold_mem (l : List K) (b : K × K) (x : K) (hx : x ∈ l) :
    (l.foldl (fun b v => (if v < b.1 then v else b.1, if v > b.2 then v else b.2)) b).1 ≤ x ∧
    x ≤ (l.foldl (fun b v => (if v < b.1 then v else b.1, if v > b.2 then v else b.2)) b).2 := by
  induction l generalizing b with
  | nil => simp at hx
  | cons a l ih =>
    rw [List.foldl_cons]
    rcases List.mem_cons.1 hx with rfl | hx
    · have h := fold_mono l (if x < b.1 then x else b.1, if x > b.2 then x else b.2)
      refine ⟨le_trans h.1 ?_, le_trans ?_ h.2⟩
      · show (if x < b.1 then x else b.1) ≤ x
        by_cases c : x < b.1
        · rw [if_pos c]
        · rw [if_neg c]; exact not_lt.1 c
      · show x ≤ (if x > b.2 then x else b.2)
        by_cases c : x > b.2
        · rw [if_pos c]
        · rw [if_neg c]; exact not_lt.1 c
    · exact ih _ hx

omit [Field K] [IsStrictOrderedRing K] in
/-- The bound is the least one: each end is the start value or a member. -/
theorem fold_attained (l : List K) (b : K × K) :
    ((l.foldl (fun b v => (if v < b.1 then v else b.1, if v > b.2 then v else b.2)) b).1 = b.1 ∨
      (l.foldl (fun b v => (if v < b.1 then v else b.1, if v > b.2 then v else b.2)) b).1 ∈ l) ∧
    ((l.foldl (fun b v => (if v < b.1 then v else b.1, if v > b.2 then v else b.2)) b).2 = b.2 ∨
      (l.foldl (fun b v => (if v < b.1 then v else b.1, if v > b.2 then v else b.2)) b).2 ∈ l) := by
  induction l generalizing b with
  | nil => exact ⟨Or.inl rfl, Or.inl rfl⟩
  | cons a l ih =>
    have h := ih (if a < b.1 then a else b.1, if a > b.2 then a else b.2)
    rw [List.foldl_cons]
    constructor
    · rcases h.1 with e | e
      · rw [e]
        show (if a < b.1 then a else b.1) = b.1 ∨ (if a < b.1 then a else b.1) ∈ a :: l
        by_cases c : a < b.1
        · rw [if_pos c]; exact Or.inr List.mem_cons_self
        · rw [if_neg c]; exact Or.inl rfl
      · exact Or.inr (List.mem_cons_of_mem _ e)
    · rcases h.2 with e | e
      · rw [e]
        show (if a > b.2 then a else b.2) = b.2 ∨ (if a > b.2 then a else b.2) ∈ a :: l
        by_cases c : a > b.2
        · rw [if_pos c]; exact Or.inr List.mem_cons_self
        · rw [if_neg c]; exact Or.inl rfl
      · exact Or.inr (List.mem_cons_of_mem _ e)

theorem project_eq (x h : K) : project x h = x / h := by
  unfold project
  by_cases c : h = 1
  · rw [if_neg (by simp [c]), c, div_one]
  · rw [if_pos c]; ring

omit [IsStrictOrderedRing K] in
theorem mem_points (x h : Net K) (iv iu : Fin 4) : project (x iv iu) (h iv iu) ∈ points x h := by
  unfold points
  exact List.mem_flatMap.2 ⟨iv, List.mem_finRange _, List.mem_map.2 ⟨iu, List.mem_finRange _, rfl⟩⟩

omit [IsStrictOrderedRing K] in
theorem of_mem_points (x h : Net K) (a : K) (ha : a ∈ points x h) : ∃ iv iu, a = project (x iv iu) (h iv iu) := by
  unfold points at ha
  obtain ⟨iv, _, h2⟩ := List.mem_flatMap.1 ha
  obtain ⟨iu, _, h3⟩ := List.mem_map.1 h2
  exact ⟨iv, iu, h3.symm⟩

theorem bez_mono (p q : Fin 4 → K) (t : K) (h0 : 0 ≤ t) (h1 : t ≤ 1) (h : ∀ k, p k ≤ q k) : bez p t ≤ bez q t := by
  have w : 0 ≤ 1 - t := by linarith
  unfold bez
  have a0 := mul_le_mul_of_nonneg_left (h 0) (show (0 : K) ≤ (1 - t) ^ 3 by positivity)
  have a1 := mul_le_mul_of_nonneg_left (h 1) (show (0 : K) ≤ 3 * t * (1 - t) ^ 2 by positivity)
  have a2 := mul_le_mul_of_nonneg_left (h 2) (show (0 : K) ≤ 3 * t ^ 2 * (1 - t) by positivity)
  have a3 := mul_le_mul_of_nonneg_left (h 3) (show (0 : K) ≤ t ^ 3 by positivity)
  linarith

omit [LinearOrder K] [IsStrictOrderedRing K] in
theorem bez_const (c t : K) : bez (fun _ => c) t = c := by unfold bez; ring

theorem bez_pos (p : Fin 4 → K) (t : K) (h0 : 0 ≤ t) (h1 : t ≤ 1) (h : ∀ k, 0 < p k) : 0 < bez p t := by
  let m := min (min (p 0) (p 1)) (min (p 2) (p 3))
  have hm : 0 < m := lt_min (lt_min (h 0) (h 1)) (lt_min (h 2) (h 3))
  have := bez_mono (fun _ => m) p t h0 h1 (by
    intro k
    fin_cases k
    · exact le_trans (min_le_left _ _) (min_le_left _ _)
    · exact le_trans (min_le_left _ _) (min_le_right _ _)
    · exact le_trans (min_le_right _ _) (min_le_left _ _)
    · exact le_trans (min_le_right _ _) (min_le_right _ _))
  rw [bez_const] at this
  linarith

omit [LinearOrder K] [IsStrictOrderedRing K] in
theorem surf_smul (c : K) (p : Net K) (u v : K) : surf (fun i j => c * p i j) u v = c * surf p u v := by
  unfold surf bez; ring

theorem surf_mono (p q : Net K) (u v : K) (hu : 0 ≤ u ∧ u ≤ 1) (hv : 0 ≤ v ∧ v ≤ 1) (h : ∀ i j, p i j ≤ q i j) :
    surf p u v ≤ surf q u v :=
  bez_mono _ _ _ hv.1 hv.2 fun i => bez_mono _ _ _ hu.1 hu.2 fun j => h i j

theorem surf_pos (p : Net K) (u v : K) (hu : 0 ≤ u ∧ u ≤ 1) (hv : 0 ≤ v ∧ v ≤ 1) (h : ∀ i j, 0 < p i j) :
    0 < surf p u v :=
  bez_pos _ _ hv.1 hv.2 fun i => bez_pos _ _ hu.1 hu.2 fun j => h i j

/-- Halving keeps inequalities between control values. -/
theorem halve_mono (p q : Fin 4 → K) (h : ∀ k, p k ≤ q k) (k : Fin 4) :
    (halve id p).1 k ≤ (halve id q).1 k ∧ (halve id p).2 k ≤ (halve id q).2 k := by
  have h0 := h 0
  have h1 := h 1
  have h2 := h 2
  have h3 := h 3
  fin_cases k <;> simp only [halve, id, Fin.zero_eta, Fin.mk_one, Fin.reduceFinMk, Matrix.cons_val] <;> constructor <;>
    linarith

theorem halve_pos (p : Fin 4 → K) (h : ∀ k, 0 < p k) (k : Fin 4) : 0 < (halve id p).1 k ∧ 0 < (halve id p).2 k := by
  have h0 := h 0
  have h1 := h 1
  have h2 := h 2
  have h3 := h 3
  fin_cases k <;> simp only [halve, id, Fin.zero_eta, Fin.mk_one, Fin.reduceFinMk, Matrix.cons_val] <;> constructor <;>
    linarith

theorem halve_smul (c : K) (p : Fin 4 → K) (k : Fin 4) :
    (halve id fun k => c * p k).1 k = c * (halve id p).1 k ∧ (halve id fun k => c * p k).2 k = c * (halve id p).2 k := by
  constructor <;> fin_cases k <;> simp [halve] <;> ring

theorem natSubdiv_mono (u : Bool) (p q : Net K) (h : ∀ i j, p i j ≤ q i j) (i j : Fin 4) :
    (natSubdiv id u p).1 i j ≤ (natSubdiv id u q).1 i j ∧ (natSubdiv id u p).2 i j ≤ (natSubdiv id u q).2 i j := by
  cases u
  · exact halve_mono (fun k => p k j) (fun k => q k j) (fun k => h k j) i
  · exact halve_mono (p i) (q i) (h i) j

theorem natSubdiv_pos (u : Bool) (p : Net K) (h : ∀ i j, 0 < p i j) (i j : Fin 4) :
    0 < (natSubdiv id u p).1 i j ∧ 0 < (natSubdiv id u p).2 i j := by
  cases u
  · exact halve_pos (fun k => p k j) (fun k => h k j) i
  · exact halve_pos (p i) (h i) j

theorem natSubdiv_smul (u : Bool) (c : K) (p : Net K) (i j : Fin 4) :
    (natSubdiv id u fun i j => c * p i j).1 i j = c * (natSubdiv id u p).1 i j ∧
    (natSubdiv id u fun i j => c * p i j).2 i j = c * (natSubdiv id u p).2 i j := by
  cases u
  · exact halve_smul c (fun k => p k j) i
  · exact halve_smul c (p i) j

end Verif.Geom.Bicubic
