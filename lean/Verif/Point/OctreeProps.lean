import Verif.Point.OctreeLemmas

/-!
C108: The tree of surfels
-/

namespace Verif.Point.Octree

open Spec

/-- Every point is in just one leaf. -/
theorem C108_points (left : Nat) (l : List Surfel) (b : Box) : (points (makeTree left l b)).Perm l := by
  induction left generalizing l b with
  | zero => exact List.Perm.refl _
  | succ n ih =>
    unfold makeTree
    split_ifs with h
    · exact List.Perm.refl _
    · simp only [points]
      refine List.Perm.trans ?_ (parts b.center l)
      apply List.Perm.flatMap_left
      intro i _
      split_ifs with he
      · rw [List.length_eq_zero_iff.mp he]
        exact List.Perm.refl _
      · exact ih _ _

/-- If the points are in the box, those of every node are in the box of the node. -/
theorem C108_boxes (left : Nat) (l : List Surfel) (b : Box) (h : ∀ x ∈ l, Inside b x.p) : Fits (makeTree left l b) := by
  induction left generalizing l b with
  | zero => exact h
  | succ n ih =>
    unfold makeTree
    split_ifs with hl
    · exact h
    · intro i
      simp only
      split_ifs with he
      · exact ⟨trivial, by simp [points]⟩
      · refine ⟨ih _ _ (part_inside b l h i), ?_⟩
        intro x hx
        have := (C108_points n _ _).mem_iff.mp hx
        exact h x (List.mem_filter.mp this).1

/-- A tree is split just where there are more than eight points, and at most as deep as allowed. -/
theorem C108_split (left : Nat) (l : List Surfel) (b : Box) : Split left (makeTree left l b) := by
  induction left generalizing l b with
  | zero => exact Or.inr rfl
  | succ n ih =>
    have hp := (C108_points (n + 1) l b).length_eq
    unfold makeTree at hp ⊢
    split_ifs at hp ⊢ with hl
    · exact Or.inl hl
    · refine ⟨by rw [hp]; omega, ?_⟩
      intro i
      simp only
      split_ifs with he
      · unfold Split; trivial
      · exact ih _ _

/-- The tree of a cloud has all points, each node has its points in its box, and the box of the root is a cube. -/
theorem C108_build (l : List Surfel) :
    (l = [] ∧ build l = none) ∨ (l ≠ [] ∧ ∃ b, build l = some (makeTree 24 l b) ∧ (points (makeTree 24 l b)).Perm l ∧
      Fits (makeTree 24 l b) ∧ b.hi 0 - b.lo 0 = b.hi 1 - b.lo 1 ∧ b.hi 0 - b.lo 0 = b.hi 2 - b.lo 2) := by
  cases l with
  | nil => exact Or.inl ⟨rfl, rfl⟩
  | cons x l =>
    right
    refine ⟨by simp, cubic (fitted x l), rfl, C108_points _ _ _, C108_boxes _ _ _ ?_, ?_, ?_⟩
    · obtain ⟨h1, h2⟩ := fitted_inside l ⟨x.p, x.p⟩
      intro y hy
      apply cubic_inside
      rcases List.mem_cons.mp hy with rfl | hy
      · exact fun k => h1 k
      · exact h2 y hy
    · unfold cubic; simp only; ring
    · unfold cubic; simp only; ring

/-- A point in a box is in the sphere around the middle of the box. -/
theorem C108_sphere (b : Box) (p : V3) (h : Inside b p) :
    Real.sqrt ((p 0 - b.center 0) ^ 2 + (p 1 - b.center 1) ^ 2 + (p 2 - b.center 2) ^ 2) ≤ boundRadius b := by
  unfold boundRadius
  have key : ∀ k, (p k - b.center k) ^ 2 ≤ (b.size k / 2) ^ 2 := by
    intro k
    obtain ⟨h1, h2⟩ := h k
    unfold Box.center Box.size
    apply sq_le_sq'
    · linarith
    · linarith
  have e : Real.sqrt (b.size 0 * b.size 0 + b.size 1 * b.size 1 + b.size 2 * b.size 2) / 2
      = Real.sqrt ((b.size 0 / 2) ^ 2 + (b.size 1 / 2) ^ 2 + (b.size 2 / 2) ^ 2) := by
    rw [show (b.size 0 / 2) ^ 2 + (b.size 1 / 2) ^ 2 + (b.size 2 / 2) ^ 2
      = (b.size 0 * b.size 0 + b.size 1 * b.size 1 + b.size 2 * b.size 2) / 2 ^ 2 by ring, Real.sqrt_div' _ (by positivity),
      Real.sqrt_sq (by norm_num)]
  simp only
  rw [e]
  apply Real.sqrt_le_sqrt
  linarith [key 0, key 1, key 2]

/-- The crude values of every tree are those of all its points: the area is the sum of the areas, the position and the colour are the
means with the areas as weights. -/
theorem C108_agg (left : Nat) (l : List Surfel) (b : Box) (hl : l ≠ []) (h : ∀ x ∈ l, 0 < x.r) :
    (makeTree left l b).agg.r ^ 2 = area l ∧
    (∀ k, (makeTree left l b).agg.p k = moment (fun x => x.p k) l / area l) ∧
    ∀ k, (makeTree left l b).agg.col k = moment (fun x => x.col k) l / area l := by
  induction left generalizing l b with
  | zero => exact leaf_agg l hl h
  | succ n ih =>
    unfold makeTree
    split_ifs with hn
    · exact leaf_agg l hl h
    · simp only [Tree.agg]
      set child : Fin 8 → Tree := fun i =>
        if (part b.center l i).length = 0 then Tree.empty else makeTree n (part b.center l i) (childBound b i.val) with hchild
      have hq : ∀ i, ∀ x ∈ part b.center l i, 0 < x.r := fun i x hx => h x (List.mem_filter.mp hx).1
      have hc : ∀ i, (part b.center l i).length ≠ 0 →
          (child i).agg.r ^ 2 = area (part b.center l i) ∧
          (∀ k, (child i).agg.p k = moment (fun x => x.p k) (part b.center l i) / area (part b.center l i)) ∧
          ∀ k, (child i).agg.col k = moment (fun x => x.col k) (part b.center l i) / area (part b.center l i) := by
        intro i hi
        simp only [hchild]
        rw [if_neg hi]
        exact ih _ _ (fun e => hi (by rw [e]; rfl)) (hq i)
      have hfun : (fun (s : Sums) (i : Fin 8) => if (part b.center l i).length = 0 then s
            else s.add ((child i).agg.r * (child i).agg.r * Real.pi) (child i).agg.p (child i).agg.n (child i).agg.col)
          = fun s i => s.add (Real.pi * area (part b.center l i)) (child i).agg.p (child i).agg.n (child i).agg.col := by
        funext s i
        by_cases hi : (part b.center l i).length = 0
        · rw [if_pos hi]
          have : area (part b.center l i) = 0 := by
            rw [List.length_eq_zero_iff.mp hi]; simp [area]
          rw [this]
          simp [Sums.add]
        · rw [if_neg hi, ← (hc i hi).1]
          congr 1
          ring
      have hP : ∀ (f : Surfel → ℝ) (z : Fin 8 → ℝ), (∀ i, (part b.center l i).length ≠ 0 →
            z i = moment f (part b.center l i) / area (part b.center l i)) →
          ((List.finRange 8).map fun i => Real.pi * area (part b.center l i) * z i).sum = Real.pi * moment f l := by
        intro f z hz
        have e : ∀ i, Real.pi * area (part b.center l i) * z i = Real.pi * moment f (part b.center l i) := by
          intro i
          by_cases hi : (part b.center l i).length = 0
          · rw [List.length_eq_zero_iff.mp hi]; simp [area, moment]
          · rw [hz i hi]
            have := area_pos _ (fun e => hi (by rw [e]; rfl)) (hq i)
            field_simp
        rw [show (fun i => Real.pi * area (part b.center l i) * z i) = fun i => Real.pi * moment f (part b.center l i) from funext e,
          sum_scale]
        congr 1
        exact parts_sum (fun x => x.r ^ 2 * f x) b.center l
      obtain ⟨h1, h2, h3⟩ := fold_sums (fun i => Real.pi * area (part b.center l i)) (fun i => (child i).agg.p)
        (fun i => (child i).agg.n) (fun i => (child i).agg.col) (List.finRange 8) Sums.zero
      apply agg_of _ _ (area_pos l hl h)
      · unfold nodeSums
        rw [hfun, h1, sum_scale]
        simp only [Sums.zero, zero_add]
        congr 1
        exact parts_sum (fun x => x.r ^ 2) b.center l
      · intro k
        unfold nodeSums
        rw [hfun, h2]
        simp only [Sums.zero, zero_add]
        exact hP (fun x => x.p k) (fun i => (child i).agg.p k) fun i hi => (hc i hi).2.1 k
      · intro k
        unfold nodeSums
        rw [hfun, h3]
        simp only [Sums.zero, zero_add]
        exact hP (fun x => x.col k) (fun i => (child i).agg.col k) fun i hi => (hc i hi).2.2 k

/-- The crude normal is one unit long, or nothing. -/
theorem C108_normal (left : Nat) (l : List Surfel) (b : Box) :
    let n := (makeTree left l b).agg.n
    (∀ k, n k = 0) ∨ n 0 ^ 2 + n 1 ^ 2 + n 2 ^ 2 = 1 := by
  cases left with
  | zero => exact normalized_len _
  | succ m =>
    unfold makeTree
    split_ifs
    · exact normalized_len _
    · exact normalized_len _

/-- Non-vacuity: two surfels of the same size. -/
example : (makeTree 24 [⟨fun _ => 0, fun _ => 1, 1, fun _ => 0⟩, ⟨fun _ => 2, fun _ => 1, 1, fun _ => 0⟩]
    ⟨fun _ => 0, fun _ => 2⟩).agg.p 0 = 1 := by
  rw [(C108_agg 24 _ _ (by simp) (by simp)).2.1]
  norm_num [moment, area]

end Verif.Point.Octree
