import Verif.Geom.Curves
import Verif.Geom.BicubicProps
import Mathlib.Tactic.Linarith
import Mathlib.Tactic.FieldSimp
import Mathlib.Tactic.NormNum
import Mathlib.Analysis.Calculus.Deriv.Pow
import Mathlib.Analysis.Calculus.Deriv.Mul
import Mathlib.Analysis.Calculus.Deriv.Add

/-!
Lemmas about ribbons of curves
-/

namespace Verif.Geom.Curves

open Verif.Geom.Bicubic

namespace Spec

/-- Specification: the products of a vector with another one, `0` if they are at right angles. -/
noncomputable def inner (a b : V3) : ℝ := ∑ j, a j * b j

/-- Specification: the part `k / 3` of the way from `a` to `b`. -/
noncomputable def third (a b : V3) (k : Fin 4) : V3 := fun j => a j + (k.val : ℝ) / 3 * (b j - a j)

/-- Specification: the same for widths. -/
noncomputable def thirdW (a b : ℝ) (k : Fin 4) : ℝ := a + (k.val : ℝ) / 3 * (b - a)

/-- Specification: where the tangents of the control points are taken. -/
noncomputable def param : Fin 4 → ℝ := ![0, 333 / 1000, 666 / 1000, 1]

/-- Specification: an offset across a ribbon: at right angles to the normal and the curve, half as long as the ribbon is wide, to the right
side; or none if the normal is along the curve. -/
def Across (n t : V3) (w : ℝ) (o : V3) : Prop :=
  inner o n = 0 ∧ inner o t = 0 ∧
  ((∃ c, c ≠ 0 ∧ ∀ j, n j = c * t j) ∨ n = 0 ∨ t = 0 → o = 0) ∧
  (¬((∃ c, c ≠ 0 ∧ ∀ j, n j = c * t j) ∨ n = 0 ∨ t = 0) → inner o o = (w / 2) ^ 2 ∧
    (0 < w → 0 < o 0 * (n 1 * t 2 - n 2 * t 1) + o 1 * (n 2 * t 0 - n 0 * t 2) + o 2 * (n 0 * t 1 - n 1 * t 0)))

end Spec

open Spec

/-! ## Vectors -/

theorem inner_eq (a b : V3) : inner a b = dot a b := by simp [inner, dot, Fin.sum_univ_three]

theorem dot_self_nonneg (a : V3) : 0 ≤ dot a a := by unfold dot; nlinarith [mul_self_nonneg (a 0), mul_self_nonneg (a 1), mul_self_nonneg (a 2)]

theorem dot_self_zero (a : V3) : dot a a = 0 ↔ a = 0 := by
  constructor
  · intro h
    unfold dot at h
    have h0 := mul_self_nonneg (a 0)
    have h1 := mul_self_nonneg (a 1)
    have h2 := mul_self_nonneg (a 2)
    funext j
    fin_cases j
    · show a 0 = 0; exact mul_self_eq_zero.mp (le_antisymm (by linarith) (by assumption))
    · show a 1 = 0; exact mul_self_eq_zero.mp (le_antisymm (by linarith) (by assumption))
    · show a 2 = 0; exact mul_self_eq_zero.mp (le_antisymm (by linarith) (by assumption))
  · rintro rfl; simp [dot]

theorem len_zero (a : V3) : len a = 0 ↔ a = 0 := by
  unfold len
  rw [Real.sqrt_eq_zero (dot_self_nonneg a), dot_self_zero]

theorem len_sq (a : V3) : len a * len a = dot a a := Real.mul_self_sqrt (dot_self_nonneg a)

theorem len_nonneg (a : V3) : 0 ≤ len a := Real.sqrt_nonneg _

theorem cross_zero (n t : V3) : cross n t = 0 ↔ (∃ c, c ≠ 0 ∧ ∀ j, n j = c * t j) ∨ n = 0 ∨ t = 0 := by
  constructor
  · intro h
    have e0 : n 1 * t 2 - n 2 * t 1 = 0 := congrFun h 0
    have e1 : n 2 * t 0 - n 0 * t 2 = 0 := congrFun h 1
    have e2 : n 0 * t 1 - n 1 * t 0 = 0 := congrFun h 2
    by_cases ht : t = 0
    · right; right; exact ht
    by_cases hn : n = 0
    · right; left; exact hn
    left
    have hd : dot t t ≠ 0 := fun h => ht ((dot_self_zero t).mp h)
    have key : ∀ j, n j = dot n t / dot t t * t j := by
      intro j
      rw [div_mul_eq_mul_div, eq_div_iff hd]
      unfold dot
      fin_cases j
      · show n 0 * _ = _ * t 0; linear_combination e2 * t 1 - e1 * t 2
      · show n 1 * _ = _ * t 1; linear_combination e0 * t 2 - e2 * t 0
      · show n 2 * _ = _ * t 2; linear_combination e1 * t 0 - e0 * t 1
    refine ⟨dot n t / dot t t, fun h0 => hn ?_, key⟩
    funext j
    rw [key j, h0, zero_mul]; rfl
  · rintro (⟨c, _, h⟩ | h | h)
    · funext j; fin_cases j
      · show n 1 * t 2 - n 2 * t 1 = 0; rw [h 1, h 2]; ring
      · show n 2 * t 0 - n 0 * t 2 = 0; rw [h 0, h 2]; ring
      · show n 0 * t 1 - n 1 * t 0 = 0; rw [h 1, h 0]; ring
    · subst h; funext j; fin_cases j <;> simp [cross]
    · subst h; funext j; fin_cases j <;> simp [cross]

theorem cross_dot_left (n t : V3) : dot (cross n t) n = 0 := by simp [dot, cross]; ring

theorem cross_dot_right (n t : V3) : dot (cross n t) t = 0 := by simp [dot, cross]; ring

theorem dot_smul_left (c : ℝ) (a b : V3) : dot (fun j => c * a j) b = c * dot a b := by unfold dot; ring

theorem dot_smul_smul (c : ℝ) (a : V3) : dot (fun j => c * a j) (fun j => c * a j) = c * c * dot a a := by unfold dot; ring

theorem across_of (n t : V3) (w k : ℝ) (o : V3) (ho : o = fun j => k * cross n t j)
    (hk : cross n t ≠ 0 → k = w / 2 / len (cross n t)) : Across n t w o := by
  subst ho
  refine ⟨?_, ?_, ?_, ?_⟩
  · rw [inner_eq, dot_smul_left, cross_dot_left, mul_zero]
  · rw [inner_eq, dot_smul_left, cross_dot_right, mul_zero]
  · intro h
    have := (cross_zero n t).mpr h
    funext j; rw [this]; simp
  · intro h
    have hc : cross n t ≠ 0 := fun e => h ((cross_zero n t).mp e)
    have hl : len (cross n t) ≠ 0 := fun e => hc ((len_zero _).mp e)
    have hp : 0 < len (cross n t) := lt_of_le_of_ne (len_nonneg _) (Ne.symm hl)
    rw [hk hc]
    constructor
    · rw [inner_eq, dot_smul_smul, ← len_sq]
      field_simp
    · intro hw
      have e : ∀ k : ℝ, k * cross n t 0 * (n 1 * t 2 - n 2 * t 1) + k * cross n t 1 * (n 2 * t 0 - n 0 * t 2) +
          k * cross n t 2 * (n 0 * t 1 - n 1 * t 0) = k * dot (cross n t) (cross n t) := by
        intro k; simp only [dot, cross, Matrix.cons_val]; ring
      rw [e, ← len_sq]
      positivity

/-! ## Tangents -/

theorem bez_deriv (p : Fin 4 → ℝ) (u : ℝ) : HasDerivAt (fun t => bez p t)
    (3 * ((-(u * u) + 2 * u - 1) * p 0 + (3 * (u * u) - 4 * u + 1) * p 1 + (-3 * (u * u) + 2 * u) * p 2 + u * u * p 3)) u := by
  have e : (fun t => bez p t) = fun t => (p 3 - 3 * p 2 + 3 * p 1 - p 0) * t ^ 3 + (3 * p 2 - 6 * p 1 + 3 * p 0) * t ^ 2 +
      (3 * p 1 - 3 * p 0) * t ^ 1 + p 0 := by
    funext t; unfold bez; ring
  rw [e]
  have d := HasDerivAt.add (HasDerivAt.add (HasDerivAt.add (HasDerivAt.const_mul (p 3 - 3 * p 2 + 3 * p 1 - p 0) (hasDerivAt_pow 3 u))
    (HasDerivAt.const_mul (3 * p 2 - 6 * p 1 + 3 * p 0) (hasDerivAt_pow 2 u))) (HasDerivAt.const_mul (3 * p 1 - 3 * p 0) (hasDerivAt_pow 1 u)))
    (hasDerivAt_const u (p 0))
  refine HasDerivAt.congr_deriv d ?_
  push_cast
  ring

/-! ## Ribbons of cubic pieces -/

theorem unit_cross (n t : V3) (w : ℝ) : ∃ k, (∀ j, unit (cross n t) j * (w / 6) * 3 = k * cross n t j) ∧
    (cross n t ≠ 0 → k = w / 2 / len (cross n t)) := by
  by_cases h : len (cross n t) = 0
  · refine ⟨w / 2, fun j => ?_, fun hc => absurd ((len_zero _).mp h) hc⟩
    unfold unit; rw [if_neg (by simpa using h)]; ring
  · refine ⟨w / 2 / len (cross n t), fun j => ?_, fun _ => rfl⟩
    unfold unit; rw [if_pos h]; field_simp; ring

theorem sixth_eq (P : Fin 4 → V3) (n0 n3 : V3) (w0 w3 : ℝ) (k : Fin 4) :
    sixth P n0 n3 w0 w3 k = fun j => unit (cross (third n0 n3 k) (tangent P (param k))) j * (thirdW w0 w3 k / 6) := by
  have e0 : third n0 n3 0 = n0 := by funext j; simp [third]
  have e1 : third n0 n3 1 = fun j => (n3 j - n0 j) / 3 + n0 j := by funext j; simp [third]; ring
  have e2 : third n0 n3 2 = fun j => (n3 j - n0 j) / 3 * 2 + n0 j := by funext j; simp [third]; ring
  have e3 : third n0 n3 3 = n3 := by funext j; simp [third]
  have f0 : thirdW w0 w3 0 = w0 := by simp [thirdW]
  have f1 : thirdW w0 w3 1 = (w3 - w0) / 3 + w0 := by simp [thirdW]; ring
  have f2 : thirdW w0 w3 2 = (w3 - w0) / 3 * 2 + w0 := by simp [thirdW]; ring
  have f3 : thirdW w0 w3 3 = w3 := by simp [thirdW]
  fin_cases k
  · show sixth P n0 n3 w0 w3 0 = fun j => unit (cross (third n0 n3 0) (tangent P 0)) j * (thirdW w0 w3 0 / 6)
    rw [e0, f0]; rfl
  · show sixth P n0 n3 w0 w3 1 = fun j => unit (cross (third n0 n3 1) (tangent P (333 / 1000))) j * (thirdW w0 w3 1 / 6)
    rw [e1, f1]; rfl
  · show sixth P n0 n3 w0 w3 2 = fun j => unit (cross (third n0 n3 2) (tangent P (666 / 1000))) j * (thirdW w0 w3 2 / 6)
    rw [e2, f2]; rfl
  · show sixth P n0 n3 w0 w3 3 = fun j => unit (cross (third n0 n3 3) (tangent P 1)) j * (thirdW w0 w3 3 / 6)
    rw [e3, f3]; rfl

theorem ribbon_surf (P : Fin 4 → V3) (n0 n3 : V3) (w0 w3 u v : ℝ) (j : Fin 3) :
    surf (fun k l => ribbon P n0 n3 w0 w3 k l j) u v =
      bez (fun k => P k j + (1 - 2 * u) * (sixth P n0 n3 w0 w3 k j * 3)) v := by
  unfold surf
  congr 1
  funext k
  simp only [ribbon, bez, Matrix.cons_val]
  ring

theorem ribbon_exists (P : Fin 4 → V3) (n0 n3 : V3) (w0 w3 : ℝ) : ∃ O : Fin 4 → V3,
    (∀ j u v, surf (fun k l => ribbon P n0 n3 w0 w3 k l j) u v = bez (fun k => P k j) v + (1 - 2 * u) * bez (fun k => O k j) v) ∧
    ∀ k, Across (third n0 n3 k) (tangent P (param k)) (thirdW w0 w3 k) (O k) := by
  refine ⟨fun k j => sixth P n0 n3 w0 w3 k j * 3, fun j u v => ?_, fun k => ?_⟩
  · rw [ribbon_surf]; unfold bez; ring
  · obtain ⟨c, h1, h2⟩ := unit_cross (third n0 n3 k) (tangent P (param k)) (thirdW w0 w3 k)
    refine across_of _ _ _ c _ ?_ h2
    funext j
    show sixth P n0 n3 w0 w3 k j * 3 = _
    rw [sixth_eq]
    exact h1 j

/-! ## Bounds -/

theorem foldl_wide (l : List ℝ) : ∀ m : ℝ, (m ≤ l.foldl (fun m w => if w > m then w else m) m) ∧
    ∀ w ∈ l, w ≤ l.foldl (fun m w => if w > m then w else m) m := by
  induction l with
  | nil => intro m; simp
  | cons a l ih =>
    intro m
    rw [List.foldl_cons]
    obtain ⟨h1, h2⟩ := ih (if a > m then a else m)
    have h3 : m ≤ (if a > m then a else m) ∧ a ≤ (if a > m then a else m) := by split_ifs <;> constructor <;> linarith
    refine ⟨le_trans h3.1 h1, fun w hw => ?_⟩
    rcases List.mem_cons.mp hw with rfl | hw
    · exact le_trans h3.2 h1
    · exact h2 w hw

theorem foldl_max (l : List ℝ) : ∀ m : ℝ, (m ≤ l.foldl max m) ∧ ∀ w ∈ l, w ≤ l.foldl max m := by
  induction l with
  | nil => intro m; simp
  | cons a l ih =>
    intro m
    rw [List.foldl_cons]
    obtain ⟨h1, h2⟩ := ih (max m a)
    refine ⟨le_trans (le_max_left _ _) h1, fun w hw => ?_⟩
    rcases List.mem_cons.mp hw with rfl | hw
    · exact le_trans (le_max_right _ _) h1
    · exact h2 w hw

theorem foldl_min (l : List ℝ) : ∀ m : ℝ, (l.foldl min m ≤ m) ∧ ∀ w ∈ l, l.foldl min m ≤ w := by
  induction l with
  | nil => intro m; simp
  | cons a l ih =>
    intro m
    rw [List.foldl_cons]
    obtain ⟨h1, h2⟩ := ih (min m a)
    refine ⟨le_trans h1 (min_le_left _ _), fun w hw => ?_⟩
    rcases List.mem_cons.mp hw with rfl | hw
    · exact le_trans h1 (min_le_right _ _)
    · exact h2 w hw

theorem foldl_bound (l : List ℝ) : ∀ b : ℝ × ℝ, ∀ x ∈ l,
    (l.foldl (fun b v => (if v < b.1 then v else b.1, if v > b.2 then v else b.2)) b).1 ≤ x ∧
    x ≤ (l.foldl (fun b v => (if v < b.1 then v else b.1, if v > b.2 then v else b.2)) b).2 := by
  have mono : ∀ (l : List ℝ) (b : ℝ × ℝ),
      (l.foldl (fun b v => (if v < b.1 then v else b.1, if v > b.2 then v else b.2)) b).1 ≤ b.1 ∧
      b.2 ≤ (l.foldl (fun b v => (if v < b.1 then v else b.1, if v > b.2 then v else b.2)) b).2 := by
    intro l
    induction l with
    | nil => intro b; simp
    | cons a l ih =>
      intro b
      rw [List.foldl_cons]
      obtain ⟨h1, h2⟩ := ih (if a < b.1 then a else b.1, if a > b.2 then a else b.2)
      have h3 : (if a < b.1 then a else b.1) ≤ b.1 := by split_ifs <;> linarith
      have h4 : b.2 ≤ (if a > b.2 then a else b.2) := by split_ifs <;> linarith
      exact ⟨le_trans h1 h3, le_trans h4 h2⟩
  induction l with
  | nil => intro b x hx; simp at hx
  | cons a l ih =>
    intro b x hx
    rw [List.foldl_cons]
    rcases List.mem_cons.mp hx with rfl | hx
    · obtain ⟨h1, h2⟩ := mono l (if x < b.1 then x else b.1, if x > b.2 then x else b.2)
      have h3 : (if x < b.1 then x else b.1) ≤ x := by split_ifs <;> linarith
      have h4 : x ≤ (if x > b.2 then x else b.2) := by split_ifs <;> linarith
      exact ⟨le_trans h1 h3, le_trans h4 h2⟩
    · exact ih _ x hx

theorem coord_le (a : V3) (c : ℝ) (hc : 0 ≤ c) (h : dot a a ≤ c * c) (j : Fin 3) : |a j| ≤ c := by
  have h0 := mul_self_nonneg (a 0)
  have h1 := mul_self_nonneg (a 1)
  have h2 := mul_self_nonneg (a 2)
  unfold dot at h
  apply abs_le_of_sq_le_sq _ hc
  fin_cases j
  · show a 0 ^ 2 ≤ _; nlinarith
  · show a 1 ^ 2 ≤ _; nlinarith
  · show a 2 ^ 2 ≤ _; nlinarith

theorem across_le (n t : V3) (w : ℝ) (o : V3) (hw : 0 ≤ w) (h : Across n t w o) (j : Fin 3) : |o j| ≤ w / 2 := by
  apply coord_le o (w / 2) (by linarith)
  by_cases hd : (∃ c, c ≠ 0 ∧ ∀ j, n j = c * t j) ∨ n = 0 ∨ t = 0
  · rw [h.2.2.1 hd]
    have : dot 0 0 = 0 := by simp [dot]
    rw [this]; nlinarith
  · have := (h.2.2.2 hd).1
    rw [inner_eq] at this
    rw [this]; nlinarith

theorem ribbon_inside (P : Fin 4 → V3) (n0 n3 : V3) (w0 w3 lo hi m : ℝ) (h0 : 0 ≤ w0) (h3 : 0 ≤ w3) (m0 : w0 ≤ m) (m3 : w3 ≤ m)
    (j : Fin 3) (hlo : ∀ k, lo ≤ P k j) (hhi : ∀ k, P k j ≤ hi) (u v : ℝ) (hu : 0 ≤ u ∧ u ≤ 1) (hv : 0 ≤ v ∧ v ≤ 1) :
    lo - m / 2 ≤ surf (fun k l => ribbon P n0 n3 w0 w3 k l j) u v ∧ surf (fun k l => ribbon P n0 n3 w0 w3 k l j) u v ≤ hi + m / 2 := by
  obtain ⟨O, hO, hA⟩ := ribbon_exists P n0 n3 w0 w3
  have hk : ∀ k, 0 ≤ thirdW w0 w3 k ∧ thirdW w0 w3 k ≤ m := by
    intro k
    unfold thirdW
    fin_cases k <;> simp <;> constructor <;> linarith
  have ho : ∀ k, |O k j| ≤ m / 2 := fun k => le_trans (across_le _ _ _ _ (hk k).1 (hA k) j) (by linarith [(hk k).2])
  have e : surf (fun k l => ribbon P n0 n3 w0 w3 k l j) u v = bez (fun k => P k j + (1 - 2 * u) * O k j) v := by
    rw [hO]; unfold bez; ring
  have hin : ∀ k, |(1 - 2 * u) * O k j| ≤ m / 2 := by
    intro k
    rw [abs_mul]
    have a1 : |1 - 2 * u| ≤ 1 := by rw [abs_le]; constructor <;> linarith [hu.1, hu.2]
    have := mul_le_mul a1 (ho k) (abs_nonneg _) (by norm_num)
    linarith
  rw [e]
  constructor
  · rw [← bez_const (lo - m / 2) v]
    exact bez_mono _ _ v hv.1 hv.2 fun k => by have := (abs_le.mp (hin k)).1; linarith [hlo k]
  · rw [← bez_const (hi + m / 2) v]
    exact bez_mono _ _ v hv.1 hv.2 fun k => by have := (abs_le.mp (hin k)).2; linarith [hhi k]

/-! ## Ribbons of linear pieces -/

theorem cross_unit (n d : V3) (hn : n ≠ 0) : cross (unit n) d = fun j => 1 / len n * cross n d j := by
  have hl : len n ≠ 0 := fun e => hn ((len_zero _).mp e)
  funext j
  fin_cases j <;> simp [cross, unit, hl] <;> field_simp

theorem len_smul (c : ℝ) (hc : 0 ≤ c) (a : V3) : len (fun j => c * a j) = c * len a := by
  unfold len
  rw [dot_smul_smul, Real.sqrt_mul (by positivity), Real.sqrt_mul_self hc]

theorem across_some (d n : V3) (w : ℝ) (o : V3) (h : across d n w = some o) : cross n d ≠ 0 ∧ Across n d w o := by
  unfold across at h
  by_cases c : len (cross (unit n) d) = 0
  · rw [if_pos c] at h; exact absurd h (by simp)
  · rw [if_neg c, Option.some.injEq] at h
    have hn : n ≠ 0 := by
      rintro rfl
      apply c
      rw [len_zero, cross_zero]
      right; left
      funext j; simp [unit]
    have hl : len n ≠ 0 := fun e => hn ((len_zero _).mp e)
    have hlp : 0 < len n := lt_of_le_of_ne (len_nonneg _) (Ne.symm hl)
    have hc : cross n d ≠ 0 := by
      intro e
      apply c
      rw [cross_unit n d hn, e, len_zero]
      funext j; simp
    refine ⟨hc, across_of n d w (w / 2 / len (cross n d)) o ?_ fun _ => rfl⟩
    rw [← h, cross_unit n d hn, len_smul _ (by positivity)]
    have hl2 : len (cross n d) ≠ 0 := fun e => hc ((len_zero _).mp e)
    funext j
    field_simp

theorem across_none (d n : V3) (w : ℝ) : across d n w = none ↔ cross n d = 0 := by
  constructor
  · intro h
    unfold across at h
    by_cases c : len (cross (unit n) d) = 0
    · by_cases hn : n = 0
      · rw [cross_zero]; right; left; exact hn
      · have hl : len n ≠ 0 := fun e => hn ((len_zero _).mp e)
        rw [cross_unit n d hn, len_zero] at c
        funext j
        have := congrFun c j
        simp only [Pi.zero_apply, mul_eq_zero, div_eq_zero_iff] at this
        rcases this with (h | h) | h
        · exact absurd h (by norm_num)
        · exact absurd h hl
        · exact h
    · rw [if_neg c] at h; exact absurd h (by simp)
  · intro h
    unfold across
    rw [if_pos]
    rw [len_zero]
    by_cases hn : n = 0
    · rw [cross_zero]; right; left
      funext j; simp [unit, hn]
    · rw [cross_unit n d hn, h]; funext j; simp

end Verif.Geom.Curves
