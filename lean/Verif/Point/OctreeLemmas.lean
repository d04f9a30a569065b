import Verif.Point.Octree
import Mathlib.Tactic.Linarith
import Mathlib.Tactic.FieldSimp
import Mathlib.Tactic.FinCases

/-!
Lemmas about The tree of surfels
-/

namespace Verif.Point.Octree

namespace Spec

/-- A place is in a box. -/
def Inside (b : Box) (p : V3) : Prop := ∀ k, b.lo k ≤ p k ∧ p k ≤ b.hi k

/-- All points in the leaves of a tree. -/
def points : Tree → List Surfel
  | .empty => []
  | .leaf _ _ l => l
  | .node _ _ c => (List.finRange 8).flatMap fun i => points (c i)

/-- Every node has its points in its box. -/
def Fits : Tree → Prop
  | .empty => True
  | .leaf b _ l => ∀ x ∈ l, Inside b x.p
  | .node b _ c => ∀ i, Fits (c i) ∧ ∀ x ∈ points (c i), Inside b x.p

/-- Leaves have at most eight points, but for those at the greatest depth; a node has more. -/
def Split : Nat → Tree → Prop
  | _, .empty => True
  | left, .leaf _ _ l => l.length ≤ 8 ∨ left = 0
  | 0, .node _ _ _ => False
  | left + 1, .node b a c => 8 < (points (.node b a c)).length ∧ ∀ i, Split left (c i)

/-- The sum of the squares of the radii. -/
def area (l : List Surfel) : ℝ := (l.map fun x => x.r ^ 2).sum

/-- The sum of something with the squares of the radii as weights. -/
def moment (f : Surfel → ℝ) (l : List Surfel) : ℝ := (l.map fun x => x.r ^ 2 * f x).sum

end Spec

open Spec

/-! ## Points -/

theorem cell_lt (c p : V3) : cellIndex c p < 8 := by
  unfold cellIndex
  split_ifs <;> omega

theorem flat_one {A : Type} (x : A) (g : Fin 8 → List A) (j : Fin 8) (l : List (Fin 8)) (hn : l.Nodup) (hj : j ∈ l) :
    (l.flatMap fun i => if i = j then x :: g i else g i).Perm (x :: l.flatMap g) := by
  induction l with
  | nil => simp at hj
  | cons i l ih =>
    rw [List.nodup_cons] at hn
    rw [List.flatMap_cons, List.flatMap_cons]
    by_cases h : i = j
    · subst h
      rw [if_pos rfl]
      have : (l.flatMap fun k => if k = i then x :: g k else g k) = l.flatMap g := by
        apply List.flatMap_congr
        intro k hk
        rw [if_neg (fun e : k = i => hn.1 (e ▸ hk))]
      rw [this]
      exact List.Perm.refl _
    · rw [if_neg h]
      have hj' : j ∈ l := by
        rcases List.mem_cons.mp hj with e | e
        · exact absurd e.symm h
        · exact e
      exact ((ih hn.2 hj').append_left _).trans List.perm_middle

theorem parts (c : V3) (l : List Surfel) : ((List.finRange 8).flatMap (part c l)).Perm l := by
  induction l with
  | nil => simp [part]
  | cons x l ih =>
    have : part c (x :: l) = fun i => if i = ⟨cellIndex c x.p, cell_lt c x.p⟩ then x :: part c l i else part c l i := by
      funext i
      unfold part
      rw [List.filter_cons]
      by_cases h : cellIndex c x.p = i.val
      · rw [if_pos (by simpa using h), if_pos (Fin.ext h.symm)]
      · rw [if_neg (by simpa using h), if_neg fun e => h (by rw [e])]
    rw [this]
    exact (flat_one x (part c l) _ _ (List.nodup_finRange 8) (List.mem_finRange _)).trans (ih.cons x)

theorem part_inside (b : Box) (l : List Surfel) (h : ∀ x ∈ l, Inside b x.p) (i : Fin 8) (x : Surfel) (hx : x ∈ part b.center l i) :
    Inside (childBound b i.val) x.p := by
  unfold part at hx
  rw [List.mem_filter, decide_eq_true_eq] at hx
  obtain ⟨hm, hc⟩ := hx
  have hb := h x hm
  rw [← hc]
  unfold cellIndex
  have h0 := hb 0
  have h1 := hb 1
  have h2 := hb 2
  intro k
  unfold childBound
  by_cases a0 : x.p 0 > b.center 0 <;> by_cases a1 : x.p 1 > b.center 1 <;> by_cases a2 : x.p 2 > b.center 2 <;>
    simp only [a0, a1, a2, if_true, if_false] <;> fin_cases k <;> norm_num <;> constructor <;> first | exact h0.1 | exact h0.2 | exact h1.1 | exact h1.2 | exact h2.1 | exact h2.2 | exact le_of_lt a0 | exact le_of_lt a1 | exact le_of_lt a2 | exact not_lt.mp a0 | exact not_lt.mp a1 | exact not_lt.mp a2

theorem fitted_inside (l : List Surfel) (b : Box) :
    let b' := l.foldl (fun b y => (⟨fun k => min (b.lo k) (y.p k), fun k => max (b.hi k) (y.p k)⟩ : Box)) b
    (∀ k, b'.lo k ≤ b.lo k ∧ b.hi k ≤ b'.hi k) ∧ ∀ x ∈ l, Inside b' x.p := by
  induction l generalizing b with
  | nil => exact ⟨fun k => ⟨le_refl _, le_refl _⟩, by simp⟩
  | cons y l ih =>
    obtain ⟨h1, h2⟩ := ih ⟨fun k => min (b.lo k) (y.p k), fun k => max (b.hi k) (y.p k)⟩
    refine ⟨fun k => ⟨(h1 k).1.trans (min_le_left _ _), (le_max_left _ _).trans (h1 k).2⟩, ?_⟩
    intro x hx
    rcases List.mem_cons.mp hx with rfl | hx
    · exact fun k => ⟨(h1 k).1.trans (min_le_right _ _), (le_max_right _ _).trans (h1 k).2⟩
    · exact h2 x hx

theorem cubic_inside (b : Box) (p : V3) (h : Inside b p) : Inside (cubic b) p := by
  have m0 : b.size 0 ≤ max (max (b.size 0) (b.size 1)) (b.size 2) := (le_max_left _ _).trans (le_max_left _ _)
  have m1 : b.size 1 ≤ max (max (b.size 0) (b.size 1)) (b.size 2) := (le_max_right _ _).trans (le_max_left _ _)
  have m2 : b.size 2 ≤ max (max (b.size 0) (b.size 1)) (b.size 2) := le_max_right _ _
  have hk : ∀ k, b.size k ≤ max (max (b.size 0) (b.size 1)) (b.size 2) := by
    intro k
    fin_cases k
    · exact m0
    · exact m1
    · exact m2
  intro k
  have := hk k
  have hp := h k
  unfold cubic Box.center
  simp only
  generalize max (max (b.size 0) (b.size 1)) (b.size 2) = m at *
  unfold Box.size at this
  constructor <;> linarith

/-! ## Crude values -/

theorem fold_sums {A : Type} (a : A → ℝ) (p n c : A → V3) (l : List A) (s : Sums) :
    let r := l.foldl (fun s x => s.add (a x) (p x) (n x) (c x)) s
    r.a = s.a + (l.map a).sum ∧ (∀ k, r.p k = s.p k + (l.map fun x => a x * p x k).sum) ∧
    ∀ k, r.col k = s.col k + (l.map fun x => a x * c x k).sum := by
  induction l generalizing s with
  | nil => simp
  | cons x l ih =>
    obtain ⟨h1, h2, h3⟩ := ih (s.add (a x) (p x) (n x) (c x))
    refine ⟨?_, fun k => ?_, fun k => ?_⟩
    · rw [List.foldl_cons, h1]; simp [Sums.add]; ring
    · rw [List.foldl_cons, h2]; simp [Sums.add]; ring
    · rw [List.foldl_cons, h3]; simp [Sums.add]; ring

theorem area_pos (l : List Surfel) (hl : l ≠ []) (h : ∀ x ∈ l, 0 < x.r) : 0 < area l := by
  unfold area
  cases l with
  | nil => exact absurd rfl hl
  | cons x l =>
    rw [List.map_cons, List.sum_cons]
    have h1 : 0 < x.r ^ 2 := by have := h x (by simp); positivity
    have h2 : 0 ≤ (l.map fun x => x.r ^ 2).sum := List.sum_nonneg (by
      intro y hy
      obtain ⟨z, _, rfl⟩ := List.mem_map.mp hy
      exact sq_nonneg _)
    linarith

theorem sum_scale {A : Type} (f : A → ℝ) (m : ℝ) (l : List A) : (l.map fun x => m * f x).sum = m * (l.map f).sum := by
  induction l with
  | nil => simp
  | cons x l ih => simp [ih]; ring

theorem agg_of (s : Sums) (T : ℝ) (hT : 0 < T) (ha : s.a = Real.pi * T) (m : Fin 3 → ℝ) (hp : ∀ k, s.p k = Real.pi * m k)
    (q : Fin 3 → ℝ) (hc : ∀ k, s.col k = Real.pi * q k) :
    s.agg.r ^ 2 = T ∧ (∀ k, s.agg.p k = m k / T) ∧ ∀ k, s.agg.col k = q k / T := by
  have hpi := Real.pi_pos
  unfold Sums.agg
  refine ⟨?_, fun k => ?_, fun k => ?_⟩
  · simp only
    rw [ha, mul_div_cancel_left₀ _ hpi.ne', Real.sq_sqrt hT.le]
  · simp only
    rw [ha, hp]
    field_simp
  · simp only
    rw [ha, hc]
    field_simp

theorem leaf_agg (l : List Surfel) (hl : l ≠ []) (h : ∀ x ∈ l, 0 < x.r) :
    (leafSums l).agg.r ^ 2 = area l ∧ (∀ k, (leafSums l).agg.p k = moment (fun x => x.p k) l / area l) ∧
    ∀ k, (leafSums l).agg.col k = moment (fun x => x.col k) l / area l := by
  obtain ⟨h1, h2, h3⟩ := fold_sums (fun x : Surfel => x.r * x.r * Real.pi) Surfel.p Surfel.n Surfel.col l Sums.zero
  apply agg_of _ _ (area_pos l hl h)
  · show (leafSums l).a = _
    unfold leafSums
    rw [h1]
    unfold area
    rw [← sum_scale]
    simp only [Sums.zero, zero_add]
    congr 1
    apply List.map_congr_left
    intro x _
    ring
  · intro k
    unfold leafSums
    rw [h2]
    unfold moment
    rw [← sum_scale]
    simp only [Sums.zero, zero_add]
    congr 1
    apply List.map_congr_left
    intro x _
    ring
  · intro k
    unfold leafSums
    rw [h3]
    unfold moment
    rw [← sum_scale]
    simp only [Sums.zero, zero_add]
    congr 1
    apply List.map_congr_left
    intro x _
    ring

theorem sum_flat {A : Type} (f : A → ℝ) (g : Fin 8 → List A) (l : List (Fin 8)) :
    ((l.flatMap g).map f).sum = (l.map fun i => ((g i).map f).sum).sum := by
  induction l with
  | nil => simp
  | cons i l ih => simp [ih]

theorem parts_sum (f : Surfel → ℝ) (c : V3) (l : List Surfel) :
    ((List.finRange 8).map fun i => ((part c l i).map f).sum).sum = (l.map f).sum := by
  rw [← sum_flat]
  exact ((parts c l).map f).sum_eq

theorem normalized_len (v : V3) : (∀ k, normalized v k = 0) ∨ normalized v 0 ^ 2 + normalized v 1 ^ 2 + normalized v 2 ^ 2 = 1 := by
  unfold normalized
  by_cases h : Real.sqrt (v 0 * v 0 + v 1 * v 1 + v 2 * v 2) = 0
  · left
    intro k
    simp only [h, if_true]
  · right
    simp only [if_neg h]
    have h0 : 0 ≤ v 0 * v 0 + v 1 * v 1 + v 2 * v 2 := by nlinarith [mul_self_nonneg (v 0), mul_self_nonneg (v 1), mul_self_nonneg (v 2)]
    have h1 := Real.sq_sqrt h0
    generalize Real.sqrt (v 0 * v 0 + v 1 * v 1 + v 2 * v 2) = s at *
    field_simp
    linarith

end Verif.Point.Octree
