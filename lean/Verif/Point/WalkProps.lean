import Verif.Point.WalkLemmas

/-!
C109: The walk over the tree of surfels
-/

namespace Verif.Point.Walk

open Verif.Point.Octree Verif.Point.Octree.Spec Verif.Point.Walk.Spec

/-- The walk over the tree of a cloud comes to an end within the stack; the assertion fails only if a leaf has more than eight points. -/
theorem C109_stack (v : View) (l : List Surfel) (t : Tree) (h : build l = some t) (n : Nat) (hn : size t ≤ n) :
    (∃ items, walk v n [t] = .done items) ∨ (walk v n [t] = .assertion ∧ Big t) := by
  rcases C108_build l with ⟨_, e⟩ | ⟨_, b, e, _⟩
  · rw [e] at h; cases h
  · rw [e, Option.some.injEq] at h
    subst h
    rcases walk_one v n _ (low_make 24 l b) hn with r | r
    · exact Or.inl ⟨_, r⟩
    · exact Or.inr r

/-- Every surfel is shown at most once, by itself or in a crude disk; those not shown are outside the cone, or at the place itself. -/
theorem C109_shown (v : View) (hN : Verif.Point.Spec.inner v.N v.N = 1) (hs : 0 ≤ v.s) (hcs : v.c * v.c + v.s * v.s = 1) (l : List Surfel) (t : Tree)
    (h : build l = some t) (n : Nat) (hn : size t ≤ n) (items : List Item) (hw : walk v n [t] = .done items) :
    ∃ hid : List Surfel, (items.flatMap shown ++ hid).Perm l ∧
      ∀ x ∈ hid, x.p ≠ v.P → Verif.Point.Spec.inner (fun k => x.p k - v.P k) v.N < v.c * Verif.Point.Spec.len (fun k => x.p k - v.P k) := by
  rcases C108_build l with ⟨_, e⟩ | ⟨_, b, e, hp, hf, _⟩
  · rw [e] at h; cases h
  · rw [e, Option.some.injEq] at h
    subst h
    rcases walk_one v n _ (low_make 24 l b) hn with r | ⟨r, _⟩
    · rw [r, Out.done.injEq] at hw
      subst hw
      obtain ⟨hid, h1, h2⟩ := draw_shown v _ hf
      exact ⟨hid, h1.trans hp, fun x hx => away_cone v hN hs hcs x (h2 x hx)⟩
    · rw [r] at hw; cases hw

/-- A node is drawn as a crude disk only if the disk is seen under less than the greatest solid angle. -/
theorem C109_crude (v : View) (t s : Tree) (hl : Low 24 t) (n : Nat) (hn : size t ≤ n) (items : List Item)
    (hw : walk v n [t] = .done items) (h : .crude s ∈ items) :
    0 < gap s.agg.p v.P ∧ Real.pi * s.agg.r ^ 2 < v.max * gap s.agg.p v.P := by
  rcases walk_one v n t hl hn with r | ⟨r, _⟩
  · rw [r, Out.done.injEq] at hw
    subst hw
    have hf := draw_crude v t s h
    unfold far at hf
    rw [decide_eq_true_eq, dist_gap] at hf
    have h0 : 0 ≤ gap s.agg.p v.P := by unfold gap; positivity
    have hpos : 0 < gap s.agg.p v.P := lt_of_le_of_ne h0 (Ne.symm hf.1)
    refine ⟨hpos, ?_⟩
    have := (div_lt_iff₀ hpos).mp hf.2
    linarith [this, show Real.pi * s.agg.r * s.agg.r = Real.pi * s.agg.r ^ 2 by ring]
  · rw [r] at hw; cases hw

/-- Without a greatest solid angle only surfels are drawn. -/
theorem C109_fine (v : View) (hv : v.max ≤ 0) (t : Tree) (hl : Low 24 t) (n : Nat) (hn : size t ≤ n) (items : List Item)
    (hw : walk v n [t] = .done items) (i : Item) (hi : i ∈ items) : ∃ x, i = .surfel x := by
  cases i with
  | surfel x => exact ⟨x, rfl⟩
  | crude s =>
    obtain ⟨h1, h2⟩ := C109_crude v t s hl n hn items hw hi
    have : 0 ≤ Real.pi * s.agg.r ^ 2 := by have := Real.pi_pos; positivity
    nlinarith

/-- The surfels of a leaf are drawn from front to back, all of them or none, or the leaf is drawn as a crude disk. -/
theorem C109_leaf (v : View) (b : Box) (a : Agg) (l : List Surfel) (hl : l.length ≤ 8) (n : Nat) (hn : 1 ≤ n) :
    walk v n [.leaf b a l] = .done [] ∨ walk v n [.leaf b a l] = .done [.crude (.leaf b a l)] ∨
    ∃ m : List Surfel, m.Perm l ∧ m.Pairwise (fun x y => gap x.p v.P ≤ gap y.p v.P) ∧ walk v n [.leaf b a l] = .done (m.map .surfel) := by
  have := walk_one v n (.leaf b a l) trivial hn
  rcases this with r | ⟨_, hb⟩
  · rw [r]
    unfold draw
    split_ifs
    · exact Or.inl rfl
    · exact Or.inr (Or.inl rfl)
    · refine Or.inr (Or.inr ⟨sorted v l, List.mergeSort_perm _ _, ?_, rfl⟩)
      have := List.pairwise_mergeSort (le := fun x y : Surfel => @decide (v.dist x.p ≤ v.dist y.p) (Classical.propDecidable _))
        (by intro x y z h1 h2; simp only [decide_eq_true_eq] at *; exact h1.trans h2)
        (by intro x y; simp only [Bool.or_eq_true, decide_eq_true_eq]; exact le_total _ _) l
      refine List.Pairwise.imp ?_ this
      intro x y hxy
      simpa only [decide_eq_true_eq, dist_gap] using hxy
  · exact absurd hb (by simp [Big, hl])

/-- The children of an inner node are drawn one after the other, the nearest first, or the node is left out or drawn as a crude disk. -/
theorem C109_node (v : View) (b : Box) (a : Agg) (c : Fin 8 → Tree) (hl : Low 24 (.node b a c)) (hb : ¬ Big (.node b a c)) (n : Nat)
    (hn : size (.node b a c) ≤ n) :
    walk v n [.node b a c] = .done [] ∨ walk v n [.node b a c] = .done [.crude (.node b a c)] ∨
    ∃ o : List (Fin 8), o.Nodup ∧ (∀ i, i ∈ o ↔ c i ≠ .empty) ∧ o.Pairwise (fun i j => gap (middle (c i)) v.P ≤ gap (middle (c j)) v.P) ∧
      ∃ items : Fin 8 → List Item, (∀ i, walk v n [c i] = .done (items i)) ∧ walk v n [.node b a c] = .done (o.flatMap items) := by
  have hsz : ∀ i, size (c i) ≤ n := by
    intro i
    have h1 : size (c i) ≤ ((List.finRange 8).map fun i => size (c i)).sum :=
      List.le_sum_of_mem (List.mem_map.mpr ⟨i, List.mem_finRange i, rfl⟩)
    simp only [size] at hn
    omega
  have hlc : ∀ i, walk v n [c i] = .done (draw v (c i)) := by
    intro i
    have hd : walk v n [c i] = .done (draw v (c i)) ∨ (walk v n [c i] = .assertion ∧ Big (c i)) := by
      have := walk_draw v n [c i] ⟨⟨23, hl i, by simp⟩, trivial⟩ (by simpa using hsz i)
      simpa using this
    rcases hd with r | ⟨_, hbi⟩
    · exact r
    · exact absurd ⟨i, hbi⟩ hb
  rcases walk_one v n (.node b a c) hl hn with r | ⟨_, hbb⟩
  · rw [r]
    unfold draw
    split_ifs
    · exact Or.inl rfl
    · exact Or.inr (Or.inl rfl)
    · refine Or.inr (Or.inr ⟨order v c, ?_, ?_, ?_, fun i => draw v (c i), hlc, rfl⟩)
      · rw [(order_perm v c).nodup_iff]
        exact (List.nodup_finRange 8).filter _
      · intro i
        rw [(order_perm v c).mem_iff, List.mem_filter]
        cases hci : c i <;> simp [there]
      · have := List.pairwise_mergeSort
          (le := fun i j : Fin 8 => @decide (v.dist (center (c i)) ≤ v.dist (center (c j))) (Classical.propDecidable _))
          (by intro x y z h1 h2; simp only [decide_eq_true_eq] at *; exact h1.trans h2)
          (by intro x y; simp only [Bool.or_eq_true, decide_eq_true_eq]; exact le_total _ _)
          ((List.finRange 8).filter fun i => there (c i))
        refine List.Pairwise.imp ?_ this
        intro x y hxy
        simpa only [decide_eq_true_eq, dist_gap, center_middle] using hxy
  · exact absurd hbb hb

/-- Nine surfels at the same place make a leaf with nine points, and the assertion fails (without it, an array is overrun). -/
theorem C109_deep_violated (n : Nat) (hn : 25 ≤ n) :
    ∃ t, build (List.replicate 9 still) = some t ∧ walk view0 n [t] = .assertion := by
  have hb : cubic (fitted still (List.replicate 8 still)) = dotBox := by
    have : fitted still (List.replicate 8 still) = dotBox := by
      simp [fitted, List.replicate, still, dotBox]
    rw [this]
    simp [cubic, dotBox, Box.size, Box.center]
  refine ⟨_, rfl, ?_⟩
  have := deep 24 n hn
  rw [← hb] at this
  exact this

/-- Non-vacuity: a cloud of one surfel is drawn. -/
example (t : Tree) (h : build [still] = some t) (v : View) (n : Nat) (hn : size t ≤ n) :
    (∃ items, walk v n [t] = .done items) ∨ (walk v n [t] = .assertion ∧ Big t) := C109_stack v _ t h n hn

end Verif.Point.Walk
