import Verif.Geom.HPointLemmas

/-!
C61: patches of points with weights
-/

namespace Verif.Geom.Bicubic

variable {K : Type} [Field K] [LinearOrder K] [IsStrictOrderedRing K]

/-- **C61 (partial).** Points are split and diced as if their weights were one: what comes out are the halves, and the values, of the
surface of the points after division by their weights. Missing: the surface with the weights, see `C61_weights_violated`. -/
theorem C61_points_partial (p : Net (HP K)) (hp : ∀ i j, (p i j).h ≠ 0) :
    (∀ u v : K, surf (fun i j => ((natSubdivH true p).1 i j).proj) u v = surf (fun i j => (p i j).proj) (u / 2) v ∧
      surf (fun i j => ((natSubdivH true p).2 i j).proj) u v = surf (fun i j => (p i j).proj) ((1 + u) / 2) v ∧
      surf (fun i j => ((natSubdivH false p).1 i j).proj) u v = surf (fun i j => (p i j).proj) u (v / 2) ∧
      surf (fun i j => ((natSubdivH false p).2 i j).proj) u v = surf (fun i j => (p i j).proj) u ((1 + v) / 2)) ∧
    ∀ uSize vSize iu iv : ℕ, iu ≤ uSize → iv ≤ vSize → ∃ q, (dice hOps uSize vSize p)[iv * (uSize + 1) + iu]? = some q ∧
      q.proj = surf (fun i j => (p i j).proj) (iu / (uSize : K)) (iv / (vSize : K)) := by
  refine ⟨fun u v => ?_, fun uSize vSize iu iv hu hv => ?_⟩
  · have e : ∀ b, (fun i j => ((natSubdivH b p).1 i j).proj) = (natSubdiv id b fun i j => (p i j).proj).1 ∧
        (fun i j => ((natSubdivH b p).2 i j).proj) = (natSubdiv id b fun i j => (p i j).proj).2 := fun b =>
      ⟨funext fun i => funext fun j => (natSubdivH_proj b p hp i j).1, funext fun i => funext fun j => (natSubdivH_proj b p hp i j).2.1⟩
    rw [(e true).1, (e true).2, (e false).1, (e false).2]
    unfold natSubdiv surf bez halve
    simp only [if_true, Bool.false_eq_true, if_false, id, Matrix.cons_val]
    refine ⟨?_, ?_, ?_, ?_⟩ <;> field_simp <;> ring
  · have hm := map_dice (hOps : Ops K (HP K)) floatOps HP.proj (fun a => a.h ≠ 0) (fun a b ha => proj_add a b ha) (fun a b ha => ha)
      (fun a c => proj_scale a c) (fun a c ha => ha) rfl rfl uSize vSize p hp
    have hd := (C61_dice_partial uSize vSize fun i j => (p i j).proj).2 iu iv hu hv
    rw [← hm, List.getElem?_map, Option.map_eq_some_iff] at hd
    obtain ⟨q, e1, e2⟩ := hd
    exact ⟨q, e1, e2⟩

-- Not vacuous: weights other than one.
example : ((dice hOps 2 2 fun i j => ⟨(i.val : ℚ) * j.val, 1 + j.val⟩)[4]?).map HP.proj =
    some (surf (fun i j : Fin 4 => (i.val : ℚ) * j.val / (1 + j.val)) (1 / 2) (1 / 2)) := by decide +kernel

/-- **C61 is violated** for points with weights: the middle of a patch, diced or split, is not the point of the surface with the
weights. -/
theorem C61_weights_violated : ∃ p : Net (HP ℚ), (∀ i j, 0 < (p i j).h) ∧
    (∃ q, (dice hOps 2 2 p)[4]? = some q ∧ q.proj ≠ surf (fun i j => (p i j).x) (1 / 2) (1 / 2) / surf (fun i j => (p i j).h) (1 / 2) (1 / 2)) ∧
    ((natSubdivH true p).1 0 3).proj ≠ surf (fun i j => (p i j).x) (1 / 2) 0 / surf (fun i j => (p i j).h) (1 / 2) 0 := by
  refine ⟨fun i j => ⟨if j = 3 then 3 else 0, if j = 3 then 3 else 1⟩, by decide +kernel, ⟨⟨1 / 8, 1⟩, by decide +kernel, by decide +kernel⟩, by decide +kernel⟩

/-- **C61.** The bounds of the halves are inside the bound of the patch: splitting never makes a patch visible in a place its parent
was not. -/
theorem C61_split_bound (big : K) (p : Net (HP K)) (hp : ∀ i j, (p i j).h ≠ 0) (u : Bool) :
    (boundH big p).1 ≤ (boundH big (natSubdivH u p).1).1 ∧ (boundH big (natSubdivH u p).1).2 ≤ (boundH big p).2 ∧
    (boundH big p).1 ≤ (boundH big (natSubdivH u p).2).1 ∧ (boundH big (natSubdivH u p).2).2 ≤ (boundH big p).2 := by
  have e1 : (fun i j => ((natSubdivH u p).1 i j).proj) = (natSubdiv id u fun i j => (p i j).proj).1 :=
    funext fun i => funext fun j => (natSubdivH_proj u p hp i j).1
  have e2 : (fun i j => ((natSubdivH u p).2 i j).proj) = (natSubdiv id u fun i j => (p i j).proj).2 :=
    funext fun i => funext fun j => (natSubdivH_proj u p hp i j).2.1
  have one : (natSubdiv id u fun _ _ => (1 : K)) = (fun _ _ => 1, fun _ _ => 1) := by
    unfold natSubdiv halve
    cases u
    · ext i j <;> fin_cases i <;> simp <;> norm_num
    · ext i j <;> fin_cases j <;> simp <;> norm_num
  have h := split_bound_components big (fun i j => (p i j).proj) (fun _ _ => 1) (fun _ _ => one_pos) u
  unfold subdivide at h
  simp only [Bool.false_eq_true, if_false, one] at h
  rw [boundH_proj, boundH_proj, boundH_proj, e1, e2]
  exact h.2

/-- **C61.** The bound contains what is made of the points. -/
theorem C61_points_bound (big : K) (p : Net (HP K)) (u v : K) (hu : 0 ≤ u ∧ u ≤ 1) (hv : 0 ≤ v ∧ v ≤ 1) :
    (boundH big p).1 ≤ surf (fun i j => (p i j).proj) u v ∧ surf (fun i j => (p i j).proj) u v ≤ (boundH big p).2 := by
  have h := (C61_bound big (fun i j => (p i j).proj) (fun _ _ => 1) fun _ _ => one_pos).1 u v hu hv
  have e : surf (fun _ _ => (1 : K)) u v = 1 := by
    unfold surf bez
    ring
  rw [e, div_one] at h
  rw [boundH_proj]
  exact h.2

-- Not vacuous: a half with a smaller bound.
example : let p : Net (HP ℚ) := fun i j => ⟨(i.val : ℚ) * j.val, 2⟩
    boundH 1000 p = (0, 9 / 2) ∧ boundH 1000 (natSubdivH true p).1 = (0, 9 / 4) := by decide +kernel

end Verif.Geom.Bicubic
