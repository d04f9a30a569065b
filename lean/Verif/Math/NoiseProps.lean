import Verif.Math.NoiseLemmas
import Mathlib.Topology.Order.OrderClosed
import Mathlib.Topology.Algebra.Monoid
import Mathlib.Topology.Algebra.Order.Field
import Mathlib.Topology.Instances.Real.Lemmas
import Mathlib.Algebra.Order.Archimedean.Real.Basic
import Mathlib.Tactic.FunProp
import Mathlib.Tactic.IntervalCases

/-!
C90: gradient noise.
-/

namespace Verif.Math.Noise

open Spec

set_option linter.unusedSectionVars false

/-! ### The table -/

/-- C90: the table is a permutation of 0 to 255 written twice, and no look-up is outside of it. -/
theorem C90_table : table.length = 512 ∧ (∀ i < 256, table[i]? = table[i + 256]?) ∧
    (∀ n < 256, n ∈ table.take 256) ∧ (∀ i j, i < 256 → i + perm j < table.length) := by
  have hp : ∀ j, perm j < 256 := by
    have h : ∀ x ∈ table, x < 256 := by decide +kernel
    intro j
    unfold perm
    rw [List.getD_eq_getElem?_getD]
    cases hj : table[j]? with
    | none => simp
    | some v => exact h v (List.mem_of_getElem? hj)
  have hl : table.length = 512 := by decide +kernel
  refine ⟨hl, by decide +kernel, by decide +kernel, ?_⟩
  intro i j hi
  have := hp j
  omega

section

variable {K : Type} [Field K] [LinearOrder K] [FloorRing K] [IsStrictOrderedRing K]

omit [IsStrictOrderedRing K] in
/-- C90: the indices of both functions are below 256. -/
theorem C90_indices (x : K) (p : ℤ) : (axis x).i0 < 256 ∧ (axis x).i1 < 256 ∧
    (paxis x p).i0 < 256 ∧ (paxis x p).i1 < 256 := by
  unfold axis paxis
  simp only
  refine ⟨?_, ?_, ?_, ?_⟩ <;> omega

/-! ### Gradients -/

/-- C90: the slopes in one dimension are the numbers from 1 to 8 and their negatives. -/
theorem C90_gradients1 :
    (∀ h, ∃ g : ℤ, g ≠ 0 ∧ -8 ≤ g ∧ g ≤ 8 ∧ ∀ x : K, grad1 h x = g * x) ∧
    (∀ g : ℤ, g ≠ 0 → -8 ≤ g → g ≤ 8 → ∃ h < 16, ∀ x : K, grad1 h x = g * x) := by
  have e : ∀ h (x : K), grad1 h x =
      ((if (h % 16).testBit 3 then -(1 + ((h % 16 % 8 : Nat) : ℤ)) else 1 + ((h % 16 % 8 : Nat) : ℤ) : ℤ) : K) * x := by
    intro h x
    unfold grad1
    simp only
    split_ifs
    · rw [Int.cast_neg, Int.cast_add, Int.cast_natCast, Int.cast_one]
    · rw [Int.cast_add, Int.cast_natCast, Int.cast_one]
  refine ⟨fun h => ⟨_, ?_, ?_, ?_, e h⟩, ?_⟩
  · split_ifs <;> omega
  · split_ifs <;> omega
  · split_ifs <;> omega
  · intro g h0 h1 h2
    have : ∀ g : ℤ, -8 ≤ g ∧ g ≤ 8 → g ≠ 0 → ∃ h < 16,
        (if (h % 16).testBit 3 then -(1 + ((h % 16 % 8 : Nat) : ℤ)) else 1 + ((h % 16 % 8 : Nat) : ℤ) : ℤ) = g := by
      have key : ∀ g ∈ Finset.Icc (-8 : ℤ) 8, g ≠ 0 → ∃ h < 16,
        (if (h % 16).testBit 3 then -(1 + ((h % 16 % 8 : Nat) : ℤ)) else 1 + ((h % 16 % 8 : Nat) : ℤ) : ℤ) = g := by
        decide +kernel
      intro g hg
      exact key g (Finset.mem_Icc.mpr hg)
    obtain ⟨h, hh, he⟩ := this g ⟨h1, h2⟩ h0
    exact ⟨h, hh, fun x => by rw [e, he]⟩

/-- The gradients by hash, for the proofs below. -/
def table2 : List (ℤ × ℤ) :=
  [(1, 2), (-1, 2), (1, -2), (-1, -2), (2, 1), (2, -1), (-2, 1), (-2, -1)]

theorem grad2_table (h : Nat) (x y : K) :
    let g := table2.getD (h % 8) (0, 0)
    grad2 h x y = g.1 * x + g.2 * y := by
  have e : grad2 h x y = grad2 (h % 8) x y := by unfold grad2; rw [Nat.mod_mod]
  have hr : h % 8 < 8 := Nat.mod_lt _ (by norm_num)
  rw [e]
  generalize h % 8 = r at hr
  interval_cases r <;> simp [grad2, table2, Nat.testBit] <;> ring

/-- C90: the gradients in two dimensions are the moves of a knight, and
each of them is used. -/
theorem C90_gradients2 :
    (∀ h, ∃ g ∈ knight, ∀ x y : K, grad2 h x y = g.1 * x + g.2 * y) ∧
    (∀ g ∈ knight, ∃ h < 8, ∀ x y : K, grad2 h x y = g.1 * x + g.2 * y) := by
  have h1 : ∀ r < 8, table2.getD r (0, 0) ∈ knight := by decide +kernel
  have h2 : ∀ g ∈ knight, ∃ r < 8, table2.getD (r % 8) (0, 0) = g := by decide +kernel
  refine ⟨fun h => ⟨_, h1 _ (Nat.mod_lt h (by norm_num)), grad2_table h⟩, ?_⟩
  intro g hg
  obtain ⟨r, hr, he⟩ := h2 g hg
  subst he
  exact ⟨r, hr, grad2_table r⟩

/-- The gradients by hash, for the proofs below. -/
def table3 : List (ℤ × ℤ × ℤ) :=
  [(1, 1, 0), (-1, 1, 0), (1, -1, 0), (-1, -1, 0), (1, 0, 1), (-1, 0, 1), (1, 0, -1), (-1, 0,
   -1), (0, 1, 1), (0, -1, 1), (0, 1, -1), (0, -1, -1), (1, 1, 0), (0, -1, 1), (-1, 1, 0), (0,
   -1, -1)]

theorem grad3_table (h : Nat) (x y z : K) :
    let g := table3.getD (h % 16) (0, 0, 0)
    grad3 h x y z = g.1 * x + g.2.1 * y + g.2.2 * z := by
  have e : grad3 h x y z = grad3 (h % 16) x y z := by unfold grad3; rw [Nat.mod_mod]
  have hr : h % 16 < 16 := Nat.mod_lt _ (by norm_num)
  rw [e]
  generalize h % 16 = r at hr
  interval_cases r <;> simp [grad3, table3, Nat.testBit] <;> ring

/-- C90: the gradients in three dimensions point to the middles of the edges of a cube, and
each of them is used. -/
theorem C90_gradients3 :
    (∀ h, ∃ g ∈ edges3, ∀ x y z : K, grad3 h x y z = g.1 * x + g.2.1 * y + g.2.2 * z) ∧
    (∀ g ∈ edges3, ∃ h < 16, ∀ x y z : K, grad3 h x y z = g.1 * x + g.2.1 * y + g.2.2 * z) := by
  have h1 : ∀ r < 16, table3.getD r (0, 0, 0) ∈ edges3 := by decide +kernel
  have h2 : ∀ g ∈ edges3, ∃ r < 16, table3.getD (r % 16) (0, 0, 0) = g := by decide +kernel
  refine ⟨fun h => ⟨_, h1 _ (Nat.mod_lt h (by norm_num)), grad3_table h⟩, ?_⟩
  intro g hg
  obtain ⟨r, hr, he⟩ := h2 g hg
  subst he
  exact ⟨r, hr, grad3_table r⟩

/-- The gradients by hash, for the proofs below. -/
def table4 : List (ℤ × ℤ × ℤ × ℤ) :=
  [(1, 1, 1, 0), (-1, 1, 1, 0), (1, -1, 1, 0), (-1, -1, 1, 0), (1, 1, -1, 0), (-1, 1, -1, 0),
   (1, -1, -1, 0), (-1, -1, -1, 0), (1, 1, 0, 1), (-1, 1, 0, 1), (1, -1, 0, 1), (-1, -1, 0, 1),
   (1, 1, 0, -1), (-1, 1, 0, -1), (1, -1, 0, -1), (-1, -1, 0, -1), (1, 0, 1, 1), (-1, 0, 1, 1),
   (1, 0, -1, 1), (-1, 0, -1, 1), (1, 0, 1, -1), (-1, 0, 1, -1), (1, 0, -1, -1), (-1, 0, -1,
   -1), (0, 1, 1, 1), (0, -1, 1, 1), (0, 1, -1, 1), (0, -1, -1, 1), (0, 1, 1, -1), (0, -1, 1,
   -1), (0, 1, -1, -1), (0, -1, -1, -1)]

theorem grad4_table (h : Nat) (x y z w : K) :
    let g := table4.getD (h % 32) (0, 0, 0, 0)
    grad4 h x y z w = g.1 * x + g.2.1 * y + g.2.2.1 * z + g.2.2.2 * w := by
  have e : grad4 h x y z w = grad4 (h % 32) x y z w := by unfold grad4; rw [Nat.mod_mod]
  have hr : h % 32 < 32 := Nat.mod_lt _ (by norm_num)
  rw [e]
  generalize h % 32 = r at hr
  interval_cases r <;> simp [grad4, table4, Nat.testBit]

/-- C90: the gradients in four dimensions have one coordinate 0 and the others 1 or -1, and
each of them is used. -/
theorem C90_gradients4 :
    (∀ h, ∃ g ∈ edges4, ∀ x y z w : K, grad4 h x y z w = g.1 * x + g.2.1 * y + g.2.2.1 * z + g.2.2.2 * w) ∧
    (∀ g ∈ edges4, ∃ h < 32, ∀ x y z w : K, grad4 h x y z w = g.1 * x + g.2.1 * y + g.2.2.1 * z + g.2.2.2 * w) := by
  have h1 : ∀ r < 32, table4.getD r (0, 0, 0, 0) ∈ edges4 := by decide +kernel
  have h2 : ∀ g ∈ edges4, ∃ r < 32, table4.getD (r % 32) (0, 0, 0, 0) = g := by decide +kernel
  refine ⟨fun h => ⟨_, h1 _ (Nat.mod_lt h (by norm_num)), grad4_table h⟩, ?_⟩
  intro g hg
  obtain ⟨r, hr, he⟩ := h2 g hg
  subst he
  exact ⟨r, hr, grad4_table r⟩

/-! ### Sums of bumps -/

/-- C90: noise is a sum over lattice points of linear functions, each times a bump that is gone at the
next lattice points. -/
theorem C90_sum1 (x : K) (S : Finset ℤ) (hS : Near x S) :
    noise1 x = 188 / 1000 * ∑ i ∈ S, bump (x - i) * grad1 (perm (wrap i)) (x - i) := by
  unfold noise1
  rw [body1_interp, axis_eq, interp_sum _ _ _ S hS]
  rfl

/-- C90 in two dimensions. -/
theorem C90_sum2 (x y : K) (S T : Finset ℤ) (hS : Near x S) (hT : Near y T) :
    noise2 x y = 507 / 1000 * ∑ i ∈ S, bump (x - i) * ∑ j ∈ T, bump (y - j) *
      grad2 (perm (wrap i + perm (wrap j))) (x - i) (y - j) := by
  unfold noise2
  rw [body2_interp, axis_eq, axis_eq, interp_sum _ _ _ S hS]
  simp only [sum1, interp_sum _ _ _ T hT]

/-- C90 in three dimensions. -/
theorem C90_sum3 (x y z : K) (S T U : Finset ℤ) (hS : Near x S) (hT : Near y T) (hU : Near z U) :
    noise3 x y z = 936 / 1000 * ∑ i ∈ S, bump (x - i) * ∑ j ∈ T, bump (y - j) *
      ∑ k ∈ U, bump (z - k) *
        grad3 (perm (wrap i + perm (wrap j + perm (wrap k)))) (x - i) (y - j) (z - k) := by
  unfold noise3
  rw [body3_interp, axis_eq, axis_eq, axis_eq, interp_sum _ _ _ S hS]
  simp only [sum1, interp_sum _ _ _ T hT, interp_sum _ _ _ U hU]

/-- C90 in four dimensions. -/
theorem C90_sum4 (x y z w : K) (S T U V : Finset ℤ) (hS : Near x S) (hT : Near y T) (hU : Near z U)
    (hV : Near w V) :
    noise4 x y z w = 87 / 100 * ∑ i ∈ S, bump (x - i) * ∑ j ∈ T, bump (y - j) *
      ∑ k ∈ U, bump (z - k) * ∑ l ∈ V, bump (w - l) *
        grad4 (perm (wrap i + perm (wrap j + perm (wrap k + perm (wrap l)))))
          (x - i) (y - j) (z - k) (w - l) := by
  unfold noise4
  rw [body4_interp, axis_eq, axis_eq, axis_eq, axis_eq, interp_sum _ _ _ S hS]
  simp only [sum1, interp_sum _ _ _ T hT, interp_sum _ _ _ U hU, interp_sum _ _ _ V hV]

/-- C90: periodic noise is the same sum with the indices of the period. -/
theorem C90_psum (x y z w : K) (px py pz pw : ℤ) (S T U V : Finset ℤ) (hS : Near x S) (hT : Near y T)
    (hU : Near z U) (hV : Near w V) :
    pnoise1 x px = 188 / 1000 * ∑ i ∈ S, bump (x - i) * grad1 (perm (pwrap px i)) (x - i) ∧
    pnoise2 x y px py = 507 / 1000 * ∑ i ∈ S, bump (x - i) * ∑ j ∈ T, bump (y - j) *
      grad2 (perm (pwrap px i + perm (pwrap py j))) (x - i) (y - j) ∧
    pnoise3 x y z px py pz = 936 / 1000 * ∑ i ∈ S, bump (x - i) * ∑ j ∈ T, bump (y - j) *
      ∑ k ∈ U, bump (z - k) *
        grad3 (perm (pwrap px i + perm (pwrap py j + perm (pwrap pz k)))) (x - i) (y - j) (z - k) ∧
    pnoise4 x y z w px py pz pw = 87 / 100 * ∑ i ∈ S, bump (x - i) * ∑ j ∈ T, bump (y - j) *
      ∑ k ∈ U, bump (z - k) * ∑ l ∈ V, bump (w - l) *
        grad4 (perm (pwrap px i + perm (pwrap py j + perm (pwrap pz k + perm (pwrap pw l)))))
          (x - i) (y - j) (z - k) (w - l) := by
  refine ⟨?_, ?_, ?_, ?_⟩
  · unfold pnoise1
    rw [body1_interp, paxis_eq, interp_sum _ _ _ S hS]
    rfl
  · unfold pnoise2
    rw [body2_interp, paxis_eq, paxis_eq, interp_sum _ _ _ S hS]
    simp only [sum1, interp_sum _ _ _ T hT]
  · unfold pnoise3
    rw [body3_interp, paxis_eq, paxis_eq, paxis_eq, interp_sum _ _ _ S hS]
    simp only [sum1, interp_sum _ _ _ T hT, interp_sum _ _ _ U hU]
  · unfold pnoise4
    rw [body4_interp, paxis_eq, paxis_eq, paxis_eq, paxis_eq, interp_sum _ _ _ S hS]
    simp only [sum1, interp_sum _ _ _ T hT, interp_sum _ _ _ U hU, interp_sum _ _ _ V hV]

/-! ### Sizes -/

/-- C90: in one to three dimensions the values of the shading language are between 0 and 1. -/
theorem C90_range_partial (x y z : K) (px py pz : ℤ) :
    ∀ n ∈ [noise1 x, noise2 x y, noise3 x y z, pnoise1 x px, pnoise2 x y px py, pnoise3 x y z px py pz],
      0 ≤ unsigned n ∧ unsigned n ≤ 1 := by
  have hu : ∀ n : K, |n| ≤ 1 → 0 ≤ unsigned n ∧ unsigned n ≤ 1 := by
    intro n hn
    rw [abs_le] at hn
    unfold unsigned
    constructor <;> linarith [hn.1, hn.2]
  have h1 : ∀ w, |body1 (axisW w x)| ≤ 1 := by
    intro w
    obtain ⟨p, d, hg, hb⟩ := interp_le w x
    have := hb (fun i x => grad1 (perm i) x) (fun t => 8 * t) (fun i t _ => grad1_le _ _)
    rw [body1_interp, abs_mul, abs_of_pos (by norm_num : (0 : K) < 188 / 1000)]
    have e : mean p d (fun t => 8 * t) = 4 - 8 * d * (1 - 2 * p) := by unfold mean; ring
    rw [e] at this
    have : 0 ≤ d * (1 - 2 * p) := mul_nonneg hg.d0 (by linarith [hg.p1])
    linarith
  have hm : ∀ p d : K, Good p d → 0 ≤ mean p d (fun t => t) ∧ mean p d (fun t => t) ≤ 1 / 2 := by
    intro p d hg
    have e : mean p d (fun t => t) = 1 / 2 - d * (1 - 2 * p) := by unfold mean; ring
    rw [e]
    have h1 : 0 ≤ d * (1 - 2 * p) := mul_nonneg hg.d0 (by linarith [hg.p1])
    have h2 : d * (1 - 2 * p) ≤ 1 / 2 * 1 :=
      mul_le_mul hg.d1 (by linarith [hg.p0]) (by linarith [hg.p1]) (by norm_num)
    constructor <;> linarith
  have h2 : ∀ w v, |body2 (axisW w x) (axisW v y)| ≤ 1 := by
    intro w v
    obtain ⟨p1, d1, hg1, hb1⟩ := interp_le w x
    obtain ⟨p2, d2, hg2, hb2⟩ := interp_le v y
    have := hb1 (fun i x => interp (axisW v y) (fun j y => grad2 (perm (i + perm j)) x y))
      (fun X => mean p2 d2 fun Y => 2 * X + 2 * Y - X * Y)
      (fun i t ht => hb2 _ (fun Y => 2 * |t| + 2 * Y - |t| * Y) (fun j s hs => grad2_le _ _ _ ht hs))
    rw [body2_interp, abs_mul, abs_of_pos (by norm_num : (0 : K) < 507 / 1000)]
    have e : mean p1 d1 (fun X => mean p2 d2 fun Y => 2 * X + 2 * Y - X * Y) =
        2 * mean p1 d1 (fun t => t) + 2 * mean p2 d2 (fun t => t) -
          mean p1 d1 (fun t => t) * mean p2 d2 (fun t => t) := by unfold mean; ring
    rw [e] at this
    obtain ⟨a0, a1⟩ := hm _ _ hg1
    obtain ⟨b0, b1⟩ := hm _ _ hg2
    generalize mean p1 d1 (fun t => t) = m1 at *
    generalize mean p2 d2 (fun t => t) = m2 at *
    nlinarith
  have h3 : ∀ w v u, |body3 (axisW w x) (axisW v y) (axisW u z)| ≤ 1 := by
    intro w v u
    obtain ⟨p1, d1, hg1, hb1⟩ := interp_le w x
    obtain ⟨p2, d2, hg2, hb2⟩ := interp_le v y
    obtain ⟨p3, d3, hg3, hb3⟩ := interp_le u z
    have := hb1 (fun i x => interp (axisW v y) (fun j y => interp (axisW u z) (fun k z =>
        grad3 (perm (i + perm (j + perm k))) x y z)))
      (fun X => mean p2 d2 fun Y => mean p3 d3 fun Z => top2 X Y Z)
      (fun i t _ => hb2 _ (fun Y => mean p3 d3 fun Z => top2 |t| Y Z)
        (fun j s _ => hb3 _ (fun Z => top2 |t| |s| Z) (fun k r _ => grad3_le _ _ _ _)))
    have hM := M_le _ _ _ _ _ _ hg1 hg2 hg3
    unfold M at hM
    rw [body3_interp, abs_mul, abs_of_pos (by norm_num : (0 : K) < 936 / 1000)]
    have := this.trans hM
    linarith
  intro n hn
  simp only [List.mem_cons, List.not_mem_nil, or_false] at hn
  rcases hn with rfl | rfl | rfl | rfl | rfl | rfl
  · exact hu _ (by unfold noise1; rw [axis_eq]; exact h1 _)
  · exact hu _ (by unfold noise2; rw [axis_eq, axis_eq]; exact h2 _ _)
  · exact hu _ (by unfold noise3; rw [axis_eq, axis_eq, axis_eq]; exact h3 _ _ _)
  · exact hu _ (by unfold pnoise1; rw [paxis_eq]; exact h1 _)
  · exact hu _ (by unfold pnoise2; rw [paxis_eq, paxis_eq]; exact h2 _ _)
  · exact hu _ (by unfold pnoise3; rw [paxis_eq, paxis_eq, paxis_eq]; exact h3 _ _ _)

/-- C90: in four dimensions the values of the shading language are at most 3/8 out of 0 to 1. -/
theorem C90_range4_partial (x y z w : K) (px py pz pw : ℤ) :
    ∀ n ∈ [noise4 x y z w, pnoise4 x y z w px py pz pw],
      -(3 / 8) ≤ unsigned n ∧ unsigned n ≤ 1 + 3 / 8 := by
  have hu : ∀ n : K, |n| ≤ 174 / 100 → -(3 / 8) ≤ unsigned n ∧ unsigned n ≤ 1 + 3 / 8 := by
    intro n hn
    rw [abs_le] at hn
    unfold unsigned
    constructor <;> linarith [hn.1, hn.2]
  have hm : ∀ p d : K, Good p d → mean p d (fun t => t) ≤ 1 / 2 := by
    intro p d hg
    have e : mean p d (fun t => t) = 1 / 2 - d * (1 - 2 * p) := by unfold mean; ring
    rw [e]
    have h1 : 0 ≤ d * (1 - 2 * p) := mul_nonneg hg.d0 (by linarith [hg.p1])
    linarith
  have h4 : ∀ wx wy wz ww, |body4 (axisW wx x) (axisW wy y) (axisW wz z) (axisW ww w)| ≤ 174 / 100 := by
    intro wx wy wz ww
    obtain ⟨p1, d1, hg1, hb1⟩ := interp_le wx x
    obtain ⟨p2, d2, hg2, hb2⟩ := interp_le wy y
    obtain ⟨p3, d3, hg3, hb3⟩ := interp_le wz z
    obtain ⟨p4, d4, hg4, hb4⟩ := interp_le ww w
    have := hb1 (fun i x => interp (axisW wy y) (fun j y => interp (axisW wz z) (fun k z =>
        interp (axisW ww w) (fun l w => grad4 (perm (i + perm (j + perm (k + perm l)))) x y z w))))
      (fun X => mean p2 d2 fun Y => mean p3 d3 fun Z => mean p4 d4 fun W => X + Y + Z + W)
      (fun i t _ => hb2 _ (fun Y => mean p3 d3 fun Z => mean p4 d4 fun W => |t| + Y + Z + W)
        (fun j s _ => hb3 _ (fun Z => mean p4 d4 fun W => |t| + |s| + Z + W)
          (fun k r _ => hb4 _ (fun W => |t| + |s| + |r| + W) (fun l q _ => grad4_le _ _ _ _ _))))
    rw [body4_interp, abs_mul, abs_of_pos (by norm_num : (0 : K) < 87 / 100)]
    have e : mean p1 d1 (fun X => mean p2 d2 fun Y => mean p3 d3 fun Z => mean p4 d4 fun W => X + Y + Z + W) =
        mean p1 d1 (fun t => t) + mean p2 d2 (fun t => t) + mean p3 d3 (fun t => t) +
          mean p4 d4 (fun t => t) := by unfold mean; ring
    rw [e] at this
    linarith [hm _ _ hg1, hm _ _ hg2, hm _ _ hg3, hm _ _ hg4]
  intro n hn
  simp only [List.mem_cons, List.not_mem_nil, or_false] at hn
  rcases hn with rfl | rfl
  · exact hu _ (by unfold noise4; rw [axis_eq, axis_eq, axis_eq, axis_eq]; exact h4 _ _ _ _)
  · exact hu _ (by unfold pnoise4; rw [paxis_eq, paxis_eq, paxis_eq, paxis_eq]; exact h4 _ _ _ _)

/-! ### Lattice points and periods -/

/-- C90: noise is 0 at lattice points, 1/2 in the shading language. -/
theorem C90_lattice (i j k l : ℤ) : noise1 (i : K) = 0 ∧ noise2 (i : K) j = 0 ∧
    noise3 (i : K) j k = 0 ∧ noise4 (i : K) j k l = 0 ∧ unsigned (0 : K) = 1 / 2 := by
  have hn : ∀ i : ℤ, Near (i : K) {i} := by
    intro i m hm
    rw [← Int.cast_sub, ← Int.cast_abs] at hm
    have : |i - m| < 1 := by exact_mod_cast hm
    rw [abs_lt] at this
    simp only [Finset.mem_singleton]
    omega
  refine ⟨?_, ?_, ?_, ?_, by unfold unsigned; ring⟩
  · rw [C90_sum1 _ _ (hn i)]
    simp [grad1]
  · rw [C90_sum2 _ _ _ _ (hn i) (hn j)]
    simp [grad2]
  · rw [C90_sum3 _ _ _ _ _ _ (hn i) (hn j) (hn k)]
    simp [grad3]
  · rw [C90_sum4 _ _ _ _ _ _ _ _ (hn i) (hn j) (hn k) (hn l)]
    simp [grad4]

/-- C90: noise repeats after 256 lattice points along each axis. -/
theorem C90_period (x y z w : K) (a b c d : ℤ) :
    noise1 (x + (256 * a : ℤ)) = noise1 x ∧
    noise2 (x + (256 * a : ℤ)) (y + (256 * b : ℤ)) = noise2 x y ∧
    noise3 (x + (256 * a : ℤ)) (y + (256 * b : ℤ)) (z + (256 * c : ℤ)) = noise3 x y z ∧
    noise4 (x + (256 * a : ℤ)) (y + (256 * b : ℤ)) (z + (256 * c : ℤ)) (w + (256 * d : ℤ)) =
      noise4 x y z w := by
  have e : ∀ (t : K) (m : ℤ) (φ : Nat → K → K),
      interp (axisW wrap (t + (256 * m : ℤ))) φ = interp (axisW wrap t) φ := fun t m φ =>
    interp_shift wrap t (256 * m) φ (wrap_shift _ _) (wrap_shift _ _)
  refine ⟨?_, ?_, ?_, ?_⟩
  · simp only [noise1, body1_interp, axis_eq, e]
  · simp only [noise2, body2_interp, axis_eq, e]
  · simp only [noise3, body3_interp, axis_eq, e]
  · simp only [noise4, body4_interp, axis_eq, e]

/-- `x'` is `x` or one period on, on the same side of 0. -/
def Shift (p : ℤ) (x x' : K) : Prop :=
  x' = x ∨ (1 ≤ p ∧ x' = x + p ∧ (0 ≤ x ∨ x' < 0 ∨ (256 : ℤ) ∣ p))

omit [FloorRing K] [IsStrictOrderedRing K] in
theorem C90_shift_nonvacuous : Shift 4 (0 : K) (0 + (4 : ℤ)) :=
  Or.inr ⟨by norm_num, rfl, Or.inl (le_refl _)⟩

/-- C90: periodic noise repeats with its periods as long as 0 is not crossed. -/
theorem C90_pperiod_partial (x y z w x' y' z' w' : K) (px py pz pw : ℤ) (hx : Shift px x x')
    (hy : Shift py y y') (hz : Shift pz z z') (hw : Shift pw w w') :
    pnoise1 x' px = pnoise1 x px ∧ pnoise2 x' y' px py = pnoise2 x y px py ∧
    pnoise3 x' y' z' px py pz = pnoise3 x y z px py pz ∧
    pnoise4 x' y' z' w' px py pz pw = pnoise4 x y z w px py pz pw := by
  have e : ∀ (p : ℤ) (t t' : K) (φ : Nat → K → K), Shift p t t' →
      interp (axisW (pwrap p) t') φ = interp (axisW (pwrap p) t) φ := by
    intro p t t' φ h
    rcases h with rfl | ⟨hp, rfl, h⟩
    · rfl
    · apply interp_shift
      · apply pwrap_shift _ _ hp
        rcases h with h | h | h
        · exact Or.inl (Int.floor_nonneg.mpr h)
        · refine Or.inr (Or.inl ?_)
          have : ⌊t⌋ + p < 0 := by
            rw [← Int.floor_add_intCast, Int.floor_lt]; exact_mod_cast h
          omega
        · exact Or.inr (Or.inr h)
      · apply pwrap_shift _ _ hp
        rcases h with h | h | h
        · have := Int.floor_nonneg.mpr h
          exact Or.inl (by omega)
        · refine Or.inr (Or.inl ?_)
          have : ⌊t⌋ + p < 0 := by
            rw [← Int.floor_add_intCast, Int.floor_lt]; exact_mod_cast h
          omega
        · exact Or.inr (Or.inr h)
  refine ⟨?_, ?_, ?_, ?_⟩
  · simp only [pnoise1, body1_interp, paxis_eq, e _ _ _ _ hx]
  · simp only [pnoise2, body2_interp, paxis_eq, e _ _ _ _ hx, e _ _ _ _ hy]
  · simp only [pnoise3, body3_interp, paxis_eq, e _ _ _ _ hx, e _ _ _ _ hy, e _ _ _ _ hz]
  · simp only [pnoise4, body4_interp, paxis_eq, e _ _ _ _ hx, e _ _ _ _ hy, e _ _ _ _ hz, e _ _ _ _ hw]

/-- C90: the period of the shading language is rounded to the nearest whole number. -/
theorem C90_round (pf : K) : |(period pf : K) - pf| ≤ 1 / 2 := by
  unfold period
  have h1 := Int.floor_le (pf + 1 / 2)
  have h2 := Int.lt_floor_add_one (pf + 1 / 2)
  rcases fastFloor_cases (pf + 1 / 2) with h | ⟨h, hi⟩
  · rw [h, abs_le]; constructor <;> linarith
  · rw [h, Int.cast_sub, Int.cast_one, hi, abs_le]; constructor <;> linarith

end

/-- C90 fails for periods across 0: in one dimension with period 4, 1/2 before 0 is not as 1/2 before
4. -/
theorem C90_pperiod_violated : ∃ (x : ℚ) (p : ℤ), 1 ≤ p ∧ pnoise1 (x + p) p ≠ pnoise1 x p :=
  ⟨-1 / 2, 4, by decide, by decide +kernel⟩

/-- C90 fails for the range in four dimensions: values of the shading language above 1 and below 0. -/
theorem C90_range_violated :
    (∃ x y z w : ℚ, unsigned (noise4 x y z w) > 1) ∧ (∃ x y z w : ℚ, unsigned (noise4 x y z w) < 0) :=
  ⟨⟨331 / 2, 73 / 2, 479 / 2, 65 / 2, by decide +kernel⟩, ⟨293 / 2, 133 / 2, 433 / 2, 1 / 2, by decide +kernel⟩⟩

/-! ### Continuity -/

theorem bump_continuous : Continuous (bump : ℝ → ℝ) := by
  have e : (bump : ℝ → ℝ) = fun t => 1 - 10 * (min |t| 1) ^ 3 + 15 * (min |t| 1) ^ 4 - 6 * (min |t| 1) ^ 5 := by
    funext t
    unfold bump
    by_cases h : |t| < 1
    · rw [if_pos h, min_eq_left h.le]
    · rw [if_neg h, min_eq_right (not_lt.mp h)]; norm_num
  rw [e]
  fun_prop

theorem near_eventually (x0 : ℝ) : ∀ᶠ x in nhds x0, Near x (Finset.Icc (⌊x0⌋ - 1) (⌊x0⌋ + 2)) := by
  have h1 : Set.Ioo (x0 - 1 / 2) (x0 + 1 / 2) ∈ nhds x0 := Ioo_mem_nhds (by linarith) (by linarith)
  filter_upwards [h1] with x hx
  intro i hi
  rw [abs_lt] at hi
  have h2 := Int.floor_le x0
  have h3 := Int.lt_floor_add_one x0
  have h4 : (⌊x0⌋ : ℝ) < i + 2 := by linarith [hi.1, hi.2, hx.1, hx.2]
  have h5 : (i : ℝ) < ⌊x0⌋ + 3 := by linarith [hi.1, hi.2, hx.1, hx.2]
  have h6 : ⌊x0⌋ < i + 2 := by exact_mod_cast h4
  have h7 : i < ⌊x0⌋ + 3 := by exact_mod_cast h5
  rw [Finset.mem_Icc]
  omega

theorem grad1_continuous (h : Nat) : Continuous fun x : ℝ => grad1 h x := by
  unfold grad1; simp only; fun_prop

theorem grad2_continuous (h : Nat) : Continuous fun v : ℝ × ℝ => grad2 h v.1 v.2 := by
  unfold grad2; simp only; split_ifs <;> fun_prop

theorem grad3_continuous (h : Nat) : Continuous fun v : ℝ × ℝ × ℝ => grad3 h v.1 v.2.1 v.2.2 := by
  unfold grad3; simp only; split_ifs <;> fun_prop

theorem grad4_continuous (h : Nat) :
    Continuous fun v : ℝ × ℝ × ℝ × ℝ => grad4 h v.1 v.2.1 v.2.2.1 v.2.2.2 := by
  unfold grad4; simp only; split_ifs <;> fun_prop

theorem continuous1 (f : ℝ → ℝ) (c : ℝ) (wx : ℤ → Nat)
    (hf : ∀ (x : ℝ) (S : Finset ℤ), Near x S →
      f x = c * ∑ i ∈ S, bump (x - i) * grad1 (perm (wx i)) (x - i)) :
    Continuous (fun x : ℝ => f x) := by
  have hb := bump_continuous
  rw [continuous_iff_continuousAt]
  intro x0
  have he : (fun x : ℝ => f x) =ᶠ[nhds x0] fun x => c *
      ∑ i ∈ Finset.Icc (⌊x0⌋ - 1) (⌊x0⌋ + 2), bump (x - i) * grad1 (perm (wx i)) (x - i) := by
    filter_upwards [near_eventually x0] with x hx
    exact hf x _ hx
  refine ContinuousAt.congr ?_ he.symm
  apply Continuous.continuousAt
  apply Continuous.mul continuous_const
  apply continuous_finsetSum
  intro i _
  apply Continuous.mul
  · exact hb.comp (by fun_prop)
  · exact (grad1_continuous _).comp (continuous_id.sub continuous_const)

theorem continuous2 (f : ℝ → ℝ → ℝ) (c : ℝ) (wx wy : ℤ → Nat)
    (hf : ∀ (x y : ℝ) (S T : Finset ℤ), Near x S → Near y T →
      f x y = c * ∑ i ∈ S, bump (x - i) * ∑ j ∈ T, bump (y - j) * grad2 (perm (wx i + perm (wy j))) (x - i) (y - j)) :
    Continuous (fun v : ℝ × ℝ => f v.1 v.2) := by
  have hb := bump_continuous
  rw [continuous_iff_continuousAt]
  intro v0
  have he : (fun v : ℝ × ℝ => f v.1 v.2) =ᶠ[nhds v0] fun v => c *
      ∑ i ∈ Finset.Icc (⌊v0.1⌋ - 1) (⌊v0.1⌋ + 2), bump (v.1 - i) *
      ∑ j ∈ Finset.Icc (⌊v0.2⌋ - 1) (⌊v0.2⌋ + 2), bump (v.2 - j) *
        grad2 (perm (wx i + perm (wy j))) (v.1 - i) (v.2 - j) := by
    filter_upwards [(continuous_fst.tendsto v0).eventually (near_eventually v0.1),
      (continuous_snd.tendsto v0).eventually (near_eventually v0.2)] with v hx hy
    exact hf _ _ _ _ hx hy
  refine ContinuousAt.congr ?_ he.symm
  apply Continuous.continuousAt
  apply Continuous.mul continuous_const
  apply continuous_finsetSum
  intro i _
  apply Continuous.mul (hb.comp (by fun_prop))
  apply continuous_finsetSum
  intro j _
  apply Continuous.mul (hb.comp (by fun_prop))
  exact (grad2_continuous _).comp (by fun_prop : Continuous fun v : ℝ × ℝ => (v.1 - (i : ℝ), v.2 - (j : ℝ)))

theorem continuous3 (f : ℝ → ℝ → ℝ → ℝ) (c : ℝ) (wx wy wz : ℤ → Nat)
    (hf : ∀ (x y z : ℝ) (S T U : Finset ℤ), Near x S → Near y T → Near z U →
      f x y z = c * ∑ i ∈ S, bump (x - i) * ∑ j ∈ T, bump (y - j) * ∑ k ∈ U, bump (z - k) * grad3 (perm (wx i + perm (wy j + perm (wz k)))) (x - i) (y - j) (z - k)) :
    Continuous (fun v : ℝ × ℝ × ℝ => f v.1 v.2.1 v.2.2) := by
  have hb := bump_continuous
  rw [continuous_iff_continuousAt]
  intro v0
  have he : (fun v : ℝ × ℝ × ℝ => f v.1 v.2.1 v.2.2) =ᶠ[nhds v0] fun v => c *
      ∑ i ∈ Finset.Icc (⌊v0.1⌋ - 1) (⌊v0.1⌋ + 2), bump (v.1 - i) *
      ∑ j ∈ Finset.Icc (⌊v0.2.1⌋ - 1) (⌊v0.2.1⌋ + 2), bump (v.2.1 - j) *
      ∑ k ∈ Finset.Icc (⌊v0.2.2⌋ - 1) (⌊v0.2.2⌋ + 2), bump (v.2.2 - k) *
        grad3 (perm (wx i + perm (wy j + perm (wz k)))) (v.1 - i) (v.2.1 - j) (v.2.2 - k) := by
    filter_upwards [(continuous_fst.tendsto v0).eventually (near_eventually v0.1),
      ((continuous_fst.comp continuous_snd).tendsto v0).eventually (near_eventually v0.2.1),
      ((continuous_snd.comp continuous_snd).tendsto v0).eventually (near_eventually v0.2.2)]
      with v hx hy hz
    exact hf _ _ _ _ _ _ hx hy hz
  refine ContinuousAt.congr ?_ he.symm
  apply Continuous.continuousAt
  apply Continuous.mul continuous_const
  apply continuous_finsetSum
  intro i _
  apply Continuous.mul (hb.comp (by fun_prop))
  apply continuous_finsetSum
  intro j _
  apply Continuous.mul (hb.comp (by fun_prop))
  apply continuous_finsetSum
  intro k _
  apply Continuous.mul (hb.comp (by fun_prop))
  exact (grad3_continuous _).comp
    (by fun_prop : Continuous fun v : ℝ × ℝ × ℝ => (v.1 - (i : ℝ), v.2.1 - (j : ℝ), v.2.2 - (k : ℝ)))

theorem continuous4 (f : ℝ → ℝ → ℝ → ℝ → ℝ) (c : ℝ) (wx wy wz ww : ℤ → Nat)
    (hf : ∀ (x y z w : ℝ) (S T U V : Finset ℤ), Near x S → Near y T → Near z U → Near w V →
      f x y z w = c * ∑ i ∈ S, bump (x - i) * ∑ j ∈ T, bump (y - j) * ∑ k ∈ U, bump (z - k) * ∑ l ∈ V, bump (w - l) * grad4 (perm (wx i + perm (wy j + perm (wz k + perm (ww l))))) (x - i) (y - j) (z - k) (w - l)) :
    Continuous (fun v : ℝ × ℝ × ℝ × ℝ => f v.1 v.2.1 v.2.2.1 v.2.2.2) := by
  have hb := bump_continuous
  rw [continuous_iff_continuousAt]
  intro v0
  have he : (fun v : ℝ × ℝ × ℝ × ℝ => f v.1 v.2.1 v.2.2.1 v.2.2.2) =ᶠ[nhds v0] fun v => c *
      ∑ i ∈ Finset.Icc (⌊v0.1⌋ - 1) (⌊v0.1⌋ + 2), bump (v.1 - i) *
      ∑ j ∈ Finset.Icc (⌊v0.2.1⌋ - 1) (⌊v0.2.1⌋ + 2), bump (v.2.1 - j) *
      ∑ k ∈ Finset.Icc (⌊v0.2.2.1⌋ - 1) (⌊v0.2.2.1⌋ + 2), bump (v.2.2.1 - k) *
      ∑ l ∈ Finset.Icc (⌊v0.2.2.2⌋ - 1) (⌊v0.2.2.2⌋ + 2), bump (v.2.2.2 - l) *
        grad4 (perm (wx i + perm (wy j + perm (wz k + perm (ww l)))))
          (v.1 - i) (v.2.1 - j) (v.2.2.1 - k) (v.2.2.2 - l) := by
    filter_upwards [(continuous_fst.tendsto v0).eventually (near_eventually v0.1),
      ((continuous_fst.comp continuous_snd).tendsto v0).eventually (near_eventually v0.2.1),
      ((continuous_fst.comp (continuous_snd.comp continuous_snd)).tendsto v0).eventually
        (near_eventually v0.2.2.1),
      ((continuous_snd.comp (continuous_snd.comp continuous_snd)).tendsto v0).eventually
        (near_eventually v0.2.2.2)]
      with v hx hy hz hw
    exact hf _ _ _ _ _ _ _ _ hx hy hz hw
  refine ContinuousAt.congr ?_ he.symm
  apply Continuous.continuousAt
  apply Continuous.mul continuous_const
  apply continuous_finsetSum
  intro i _
  apply Continuous.mul (hb.comp (by fun_prop))
  apply continuous_finsetSum
  intro j _
  apply Continuous.mul (hb.comp (by fun_prop))
  apply continuous_finsetSum
  intro k _
  apply Continuous.mul (hb.comp (by fun_prop))
  apply continuous_finsetSum
  intro l _
  apply Continuous.mul (hb.comp (by fun_prop))
  exact (grad4_continuous _).comp (by fun_prop :
    Continuous fun v : ℝ × ℝ × ℝ × ℝ => (v.1 - (i : ℝ), v.2.1 - (j : ℝ), v.2.2.1 - (k : ℝ), v.2.2.2 - (l : ℝ)))

/-- C90: noise has no seams. -/
theorem C90_continuous : Continuous (fun x : ℝ => noise1 x) ∧
    Continuous (fun v : ℝ × ℝ => noise2 v.1 v.2) ∧
    Continuous (fun v : ℝ × ℝ × ℝ => noise3 v.1 v.2.1 v.2.2) ∧
    Continuous (fun v : ℝ × ℝ × ℝ × ℝ => noise4 v.1 v.2.1 v.2.2.1 v.2.2.2) ∧
    (∀ px : ℤ, Continuous (fun x : ℝ => pnoise1 x px)) ∧
    (∀ px py : ℤ, Continuous (fun v : ℝ × ℝ => pnoise2 v.1 v.2 px py)) ∧
    (∀ px py pz : ℤ, Continuous (fun v : ℝ × ℝ × ℝ => pnoise3 v.1 v.2.1 v.2.2 px py pz)) ∧
    (∀ px py pz pw : ℤ, Continuous (fun v : ℝ × ℝ × ℝ × ℝ => pnoise4 v.1 v.2.1 v.2.2.1 v.2.2.2 px py pz pw)) := by
  have hn : Near (0 : ℝ) {0} := by
    intro m hm
    have : |m| < 1 := by
      have h : |(m : ℝ)| < 1 := by simpa using hm
      exact_mod_cast h
    rw [abs_lt] at this
    simp only [Finset.mem_singleton]
    omega
  refine ⟨continuous1 _ _ _ C90_sum1, continuous2 _ _ _ _ C90_sum2, continuous3 _ _ _ _ _ C90_sum3,
    continuous4 _ _ _ _ _ _ C90_sum4, ?_, ?_, ?_, ?_⟩
  · intro px
    exact continuous1 (fun x => pnoise1 x px) _ (pwrap px) fun x S hS =>
      (C90_psum x 0 0 0 px 0 0 0 S {0} {0} {0} hS hn hn hn).1
  · intro px py
    exact continuous2 (fun x y => pnoise2 x y px py) _ (pwrap px) (pwrap py) fun x y S T hS hT =>
      (C90_psum x y 0 0 px py 0 0 S T {0} {0} hS hT hn hn).2.1
  · intro px py pz
    exact continuous3 (fun x y z => pnoise3 x y z px py pz) _ (pwrap px) (pwrap py) (pwrap pz)
      fun x y z S T U hS hT hU => (C90_psum x y z 0 px py pz 0 S T U {0} hS hT hU hn).2.2.1
  · intro px py pz pw
    exact continuous4 (fun x y z w => pnoise4 x y z w px py pz pw) _ (pwrap px) (pwrap py) (pwrap pz)
      (pwrap pw) fun x y z w S T U V hS hT hU hV =>
        (C90_psum x y z w px py pz pw S T U V hS hT hU hV).2.2.2

/-- Non-vacuity: noise is not constant. -/
example : noise1 (1 / 2 : ℚ) ≠ 0 ∧ noise2 (1 / 2 : ℚ) (1 / 3) ≠ 0 ∧ noise3 (1 / 2 : ℚ) (1 / 3) (1 / 4) ≠ 0 := by
  decide +kernel

end Verif.Math.Noise
