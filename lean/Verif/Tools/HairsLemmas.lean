import Verif.Tools.Hairs
import Mathlib.Tactic.Linarith
import Mathlib.Tactic.FieldSimp
import Mathlib.Tactic.Ring

/-!
Lemmas about child hairs.
-/

namespace Verif.Tools.Hairs

namespace Spec

/-- The values of all curves of a variable moved so that the root of the curve of `ref` comes to
where the hair is emitted. -/
def moved (emit : Nat → Nat → ℝ) (root stride : Nat) (ref val : Nat → ℝ) (m : Nat) : ℝ :=
  val m + (emit (m / stride) (m % 3) - ref (stride * (m / stride) + 3 * root + m % 3))

end Spec

open Spec

/-! ### Weights -/

theorem decay_pos (d m : ℝ) : 0 < decay d m := Real.rpow_pos_of_pos (by norm_num) _

theorem decay_anti {d e m : ℝ} (hm : 0 < m) (h : d ≤ e) : decay e m ≤ decay d m := by
  unfold decay
  apply Real.rpow_le_rpow_of_exponent_le (by norm_num)
  have : Real.sqrt (d / m) ≤ Real.sqrt (e / m) := Real.sqrt_le_sqrt (div_le_div_of_nonneg_right h hm.le)
  linarith

/-! ### Roots -/

theorem shift_eq (val : Nat → ℝ) (stride curve : Nat) (delta : Nat → ℝ) (h3 : stride % 3 = 0)
    (hs : 0 < stride) (m : Nat) :
    shift val stride curve delta m = if m / stride = curve then val m + delta (m % 3) else val m := by
  unfold shift
  have hiff : (curve * stride ≤ m ∧ m < (curve + 1) * stride) ↔ m / stride = curve := by
    rw [Nat.div_eq_iff hs]
    rw [Nat.add_mul, one_mul]
    omega
  by_cases h : m / stride = curve
  · rw [if_pos (hiff.mpr h), if_pos h]
    congr 2
    obtain ⟨q, hq⟩ : 3 ∣ stride := Nat.dvd_of_mod_eq_zero h3
    have := (hiff.mpr h).1
    have e : curve * stride = 3 * (curve * q) := by rw [hq]; ring
    omega
  · rw [if_neg (fun h' => h (hiff.mp h')), if_neg h]

/-- The correction of a variable, for a reference that it may be itself. -/
theorem correctCurves_eq (emit : Nat → Nat → ℝ) (root p i : Nat) (vars : List Var) (v : Var)
    (hv : vars[i]? = some v) (h3 : v.stride % 3 = 0) (hr : 3 * root + 3 ≤ v.stride) (c : Nat) :
    ∃ val', correctCurves emit root p i c vars = vars.set i { v with val := val' } ∧
      ∀ m, val' m = if m / v.stride < c then moved emit root v.stride (valOf vars p) v.val m else v.val m := by
  have hi : i < vars.length := (List.getElem?_eq_some_iff.mp hv).1
  have hs : 0 < v.stride := by omega
  induction c with
  | zero =>
    refine ⟨v.val, ?_, by simp⟩
    unfold correctCurves
    symm
    apply List.ext_getElem?
    intro n
    by_cases hn : n = i
    · subst hn; rw [List.getElem?_set_self hi, hv]
    · rw [List.getElem?_set_ne (Ne.symm hn)]
  | succ c ih =>
    obtain ⟨val', e, h⟩ := ih
    unfold correctCurves
    rw [e]
    simp only [List.getElem?_set_self hi, List.set_set]
    refine ⟨_, rfl, ?_⟩
    intro m
    rw [shift_eq _ _ _ _ h3 hs]
    by_cases hm : m / v.stride = c
    · rw [if_pos hm, if_pos (by omega), h m, if_neg (by omega)]
      unfold moved
      rw [hm]
      congr 2
      -- the reference is not touched in this curve
      unfold valOf
      by_cases hp : p = i
      · subst hp
        rw [List.getElem?_set_self hi, hv]
        simp only
        rw [h]
        have hdiv : (v.stride * c + 3 * root + m % 3) / v.stride = c := by
          have : m % 3 < 3 := Nat.mod_lt _ (by norm_num)
          rw [Nat.add_assoc, Nat.mul_add_div hs, Nat.div_eq_of_lt (by omega)]
          omega
        rw [if_neg (by rw [hdiv]; omega)]
      · rw [List.getElem?_set_ne (Ne.symm hp)]
    · rw [if_neg hm, h m]
      by_cases hlt : m / v.stride < c
      · rw [if_pos hlt, if_pos (by omega)]
      · rw [if_neg hlt, if_neg (by omega)]

theorem correctCurves_other (emit : Nat → Nat → ℝ) (root p i n : Nat) (hn : n ≠ i) (c : Nat) (vars : List Var) :
    (correctCurves emit root p i c vars)[n]? = vars[n]? := by
  induction c with
  | zero => rfl
  | succ c ih =>
    unfold correctCurves
    simp only
    cases h : (correctCurves emit root p i c vars)[i]? with
    | none => exact ih
    | some v => simp only; rw [List.getElem?_set_ne (Ne.symm hn)]; exact ih

theorem correct_later (emit : Nat → Nat → ℝ) (root p nc n : Nat) : ∀ (k : Nat) (vars : List Var), k ≤ n →
    (correct emit root p nc k vars)[n]? = vars[n]? := by
  intro k
  induction k with
  | zero => intro vars _; rfl
  | succ k ih =>
    intro vars hk
    unfold correct
    simp only
    cases h : (correct emit root p nc k vars)[k]? with
    | none => exact ih vars (by omega)
    | some v =>
      simp only
      by_cases hc : v.corrected
      · rw [if_pos hc, correctCurves_other _ _ _ _ _ (by omega)]; exact ih vars (by omega)
      · rw [if_neg hc]; exact ih vars (by omega)

theorem correct_done (emit : Nat → Nat → ℝ) (root p nc n : Nat) (vars : List Var) : ∀ d : Nat,
    (correct emit root p nc (n + 1 + d) vars)[n]? = (correct emit root p nc (n + 1) vars)[n]? := by
  intro d
  induction d with
  | zero => rfl
  | succ d ih =>
    rw [← Nat.add_assoc]
    conv_lhs => unfold correct
    simp only
    cases h : (correct emit root p nc (n + 1 + d) vars)[n + 1 + d]? with
    | none => exact ih
    | some v =>
      simp only
      by_cases hc : v.corrected
      · rw [if_pos hc, correctCurves_other _ _ _ _ _ (by omega)]; exact ih
      · rw [if_neg hc]; exact ih

theorem index_parts (s c k j : Nat) (h3 : s % 3 = 0) (hk : 3 * k + 3 ≤ s) (hj : j < 3) :
    (s * c + 3 * k + j) / s = c ∧ (s * c + 3 * k + j) % 3 = j := by
  obtain ⟨q, hq⟩ : 3 ∣ s := Nat.dvd_of_mod_eq_zero h3
  constructor
  · rw [Nat.add_assoc, Nat.mul_add_div (by omega), Nat.div_eq_of_lt (by omega)]
    omega
  · have : s * c = 3 * (q * c) := by rw [hq]; ring
    omega

/-- What the correction of a variable is, with the reference at that time. -/
theorem correct_var (emit : Nat → Nat → ℝ) (root p nc i N : Nat) (vars : List Var) (v : Var) (hN : i < N)
    (hv : vars[i]? = some v) (hc : v.corrected = true) (h3 : v.stride % 3 = 0) (hr : 3 * root + 3 ≤ v.stride) :
    ∃ val', (correct emit root p nc N vars)[i]? = some { v with val := val' } ∧
      ∀ m, val' m = if m / v.stride < nc then
        moved emit root v.stride (valOf (correct emit root p nc i vars) p) v.val m else v.val m := by
  obtain ⟨d, rfl⟩ : ∃ d, N = i + 1 + d := ⟨N - (i + 1), by omega⟩
  rw [correct_done]
  have hv' : (correct emit root p nc i vars)[i]? = some v := by
    rw [correct_later _ _ _ _ _ _ _ (le_refl i)]; exact hv
  have hi : i < (correct emit root p nc i vars).length := (List.getElem?_eq_some_iff.mp hv').1
  obtain ⟨val', e, h⟩ := correctCurves_eq emit root p i _ v hv' h3 hr nc
  refine ⟨val', ?_, h⟩
  unfold correct
  simp only [hv', hc, if_true, e]
  rw [List.getElem?_set_self hi]

theorem valOf_early (emit : Nat → Nat → ℝ) (root p nc i : Nat) (vars : List Var) (hip : i ≤ p) :
    valOf (correct emit root p nc i vars) p = valOf vars p := by
  unfold valOf
  rw [correct_later _ _ _ _ _ _ _ hip]

/-! ### Clumps -/

end Verif.Tools.Hairs
