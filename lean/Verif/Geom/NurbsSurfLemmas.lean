import Verif.Geom.NurbsSegLemmas
/-!
# Lemmas on NURBS: surfaces
-/
namespace Verif.Geom.Nurbs
open Verif.Geom.BSpline Verif.Geom.Trim

set_option linter.unusedSectionVars false

variable {K : Type} [Field K] [LinearOrder K] [IsStrictOrderedRing K] {V : Type} [AddCommGroup V] [Module K V]

/-! ## The shape of a curve: everything but the points -/

/-- Order, number of points, knots. -/
def shape (c : Curve K V) : Nat × Nat × (Nat → K) := (c.order, c.n, c.knots)

theorem shape_iff (c d : Curve K V) : shape c = shape d ↔ c.order = d.order ∧ c.n = d.n ∧ c.knots = d.knots := by
  unfold shape
  rw [Prod.mk.injEq, Prod.mk.injEq]

theorem Legal.of_shape (c d : Curve K V) (e : shape c = shape d) (h : Legal c) : Legal d := by
  obtain ⟨o, n, k, P⟩ := c
  obtain ⟨o', n', k', Q⟩ := d
  obtain ⟨e1, e2, e3⟩ := (shape_iff _ _).1 e
  simp only at e1 e2 e3
  subst e1 e2 e3
  exact ⟨⟨h.wf.order, h.wf.pts, h.wf.mono⟩, h.simple, h.first, h.last⟩

theorem refine_shape (o n : Nat) (k : Nat → K) (P Q : Nat → V) (X : List K) :
    (refine ⟨o, n, k, P⟩ X).map shape = (refine ⟨o, n, k, Q⟩ X).map shape := by
  unfold refine
  cases X.head? with
  | none => rfl
  | some x0 =>
    cases X.getLast? with
    | none => rfl
    | some xr =>
      simp only
      have e1 : Curve.findSpan (⟨o, n, k, Q⟩ : Curve K V) x0 = Curve.findSpan (⟨o, n, k, P⟩ : Curve K V) x0 := rfl
      have e2 : Curve.findSpan (⟨o, n, k, Q⟩ : Curve K V) xr = Curve.findSpan (⟨o, n, k, P⟩ : Curve K V) xr := rfl
      rw [e1, e2]
      cases Curve.findSpan (⟨o, n, k, P⟩ : Curve K V) x0 with
      | none => rfl
      | some a =>
        cases Curve.findSpan (⟨o, n, k, P⟩ : Curve K V) xr with
        | none => rfl
        | some b => rfl

theorem bind_map_congr {α β γ : Type} (R : Option α) (f g : α → Option β) (h : β → γ) (e : ∀ a, (f a).map h = (g a).map h) :
    (R.bind f).map h = (R.bind g).map h := by
  cases R with
  | none => rfl
  | some a => exact e a

theorem cut_shape (c d : Curve K V) (e : shape c = shape d) (x : K) :
    (cut c x).map (fun r => (r.1, shape r.2)) = (cut d x).map (fun r => (r.1, shape r.2)) := by
  obtain ⟨o, n, k, P⟩ := c
  obtain ⟨o', n', k', Q⟩ := d
  obtain ⟨e1, e2, e3⟩ := (shape_iff _ _).1 e
  simp only at e1 e2 e3
  subst e1 e2 e3
  have e1 : Curve.findSpan (⟨o, n, k, Q⟩ : Curve K V) x = Curve.findSpan (⟨o, n, k, P⟩ : Curve K V) x := rfl
  have e2 : ∀ P : Nat → V, Curve.cKnots (⟨o, n, k, P⟩ : Curve K V) = n + o := fun _ => rfl
  unfold cut
  rw [e1]
  generalize Curve.findSpan (⟨o, n, k, P⟩ : Curve K V) x = F
  simp only [e2]
  refine bind_map_congr _ _ _ _ (fun m => ?_)
  refine bind_map_congr _ _ _ _ (fun ⟨i, m, same⟩ => ?_)
  refine bind_map_congr _ _ _ _ (fun ⟨m, same⟩ => ?_)
  simp only
  by_cases hs : o < same
  · rw [if_pos hs, if_pos hs]
  · rw [if_neg hs, if_neg hs]
    have := refine_shape o n k P Q (List.replicate (o - same) x)
    generalize refine (⟨o, n, k, P⟩ : Curve K V) (List.replicate (o - same) x) = R1 at *
    generalize refine (⟨o, n, k, Q⟩ : Curve K V) (List.replicate (o - same) x) = R2 at *
    cases R1 with
    | none => cases R2 with
      | none => rfl
      | some _ => simp at this
    | some r1 => cases R2 with
      | none => simp at this
      | some r2 =>
        simp only [Option.map_some, Option.some.injEq] at this ⊢
        rw [this]

/-- Two curves of the same shape are cut at the same place, and the results have the same shape. -/
theorem cut_shape' (c d : Curve K V) (e : shape c = shape d) (x : K) (i : Nat) (c' : Curve K V) (h : cut c x = some (i, c')) :
    ∃ d', cut d x = some (i, d') ∧ shape c' = shape d' := by
  have := cut_shape c d e x
  rw [h] at this
  generalize cut d x = R at *
  cases R with
  | none => simp at this
  | some r =>
    obtain ⟨j, d'⟩ := r
    simp only [Option.map_some, Option.some.injEq, Prod.mk.injEq] at this
    exact ⟨d', by rw [this.1], this.2⟩

theorem part_shape (c d : Curve K V) (e : shape c = shape d) (a b : Nat) : shape (part c a b) = shape (part d a b) := by
  obtain ⟨e1, e2, e3⟩ := (shape_iff _ _).1 e
  unfold shape part
  simp only [e1, e3]

theorem split_shape (c d : Curve K V) (e : shape c = shape d) (A B : Curve K V) (h : split c = some (A, B)) :
    ∃ A' B', split d = some (A', B') ∧ shape A = shape A' ∧ shape B = shape B' := by
  obtain ⟨e1, e2, e3⟩ := (shape_iff _ _).1 e
  unfold split at *
  rw [← e1, ← e2, ← e3]
  generalize (c.knots 0 + c.knots (c.n + c.order - 1)) / 2 = x at *
  cases hc : cut c x with
  | none => rw [hc] at h; simp at h
  | some r =>
    obtain ⟨i, c'⟩ := r
    obtain ⟨d', hd, hs⟩ := cut_shape' c d e x i c' hc
    rw [hc] at h
    simp only [Option.map_some, Option.some.injEq, Prod.mk.injEq] at h
    rw [hd]
    refine ⟨_, _, rfl, ?_, ?_⟩
    · rw [← h.1]
      exact part_shape _ _ hs _ _
    · rw [← h.2, ((shape_iff _ _).1 hs).2.1]
      exact part_shape _ _ hs _ _

theorem cuts_shape (num m : Nat) (c d : Curve K V) (e : shape c = shape d) (l : List Nat) (c' : Curve K V) (h : cuts num m c = some (l, c')) :
    ∃ d', cuts num m d = some (l, d') ∧ shape c' = shape d' := by
  induction m generalizing l c' with
  | zero =>
    simp only [cuts, Option.some.injEq, Prod.mk.injEq] at h
    refine ⟨d, ?_, by rw [← h.2]; exact e⟩
    rw [← h.1]
    rfl
  | succ m ih =>
    unfold cuts at h ⊢
    cases hc : cuts num m c with
    | none => rw [hc] at h; simp at h
    | some r =>
      obtain ⟨l1, c1⟩ := r
      obtain ⟨d1, hd1, hs1⟩ := ih l1 c1 hc
      obtain ⟨s1, s2, s3⟩ := (shape_iff _ _).1 hs1
      rw [hc, Option.bind_some] at h
      rw [hd1, Option.bind_some]
      simp only at h ⊢
      rw [← s1, ← s2, ← s3]
      generalize ((m + 1 : Nat) : K) / (num : K) * (c1.knots c1.n - c1.knots (c1.order - 1)) + c1.knots (c1.order - 1) = x at *
      cases hcc : cut c1 x with
      | none => rw [hcc] at h; simp at h
      | some r =>
        obtain ⟨i, c2⟩ := r
        obtain ⟨d2, hd2, hs2⟩ := cut_shape' c1 d1 hs1 x i c2 hcc
        rw [hcc] at h
        simp only [Option.map_some, Option.some.injEq, Prod.mk.injEq] at h
        rw [hd2]
        refine ⟨d2, ?_, by rw [← h.2]; exact hs2⟩
        rw [← h.1]
        rfl

theorem insertKnot_shape (c d : Curve K V) (e : shape c = shape d) (u : K) (r : Nat) :
    (insertKnot c u r).1 = (insertKnot d u r).1 ∧ shape (insertKnot c u r).2 = shape (insertKnot d u r).2 := by
  obtain ⟨o, n, k, P⟩ := c
  obtain ⟨o', n', k', Q⟩ := d
  obtain ⟨e1, e2, e3⟩ := (shape_iff _ _).1 e
  simp only at e1 e2 e3
  subst e1 e2 e3
  unfold insertKnot
  have e1 : Curve.degree (⟨o, n, k, Q⟩ : Curve K V) = Curve.degree (⟨o, n, k, P⟩ : Curve K V) := rfl
  have e2 : Curve.cKnots (⟨o, n, k, Q⟩ : Curve K V) = Curve.cKnots (⟨o, n, k, P⟩ : Curve K V) := rfl
  simp only [e1, e2]
  by_cases h1 : u < k (Curve.degree (⟨o, n, k, P⟩ : Curve K V)) ∨ k n < u
  · rw [if_pos h1, if_pos h1]
    exact ⟨rfl, rfl⟩
  · rw [if_neg h1, if_neg h1]
    generalize multiplicity k (Curve.degree (⟨o, n, k, P⟩ : Curve K V)) u
      (findK k (Curve.cKnots (⟨o, n, k, P⟩ : Curve K V)) u (Curve.cKnots (⟨o, n, k, P⟩ : Curve K V) + 1) 0).toNat = s
    generalize (if Curve.degree (⟨o, n, k, P⟩ : Curve K V) + 1 < r + s then Curve.degree (⟨o, n, k, P⟩ : Curve K V) + 1 - s else r) = rr
    by_cases h2 : rr = 0
    · rw [if_pos h2, if_pos h2]
      exact ⟨rfl, rfl⟩
    · rw [if_neg h2, if_neg h2]
      exact ⟨rfl, rfl⟩

theorem clamp_shape (c d : Curve K V) (e : shape c = shape d) : shape (clamp c) = shape (clamp d) := by
  obtain ⟨e1, e2, e3⟩ := (shape_iff _ _).1 e
  have ed : c.degree = d.degree := by unfold Curve.degree; rw [e1]
  unfold clamp
  simp only
  obtain ⟨i1, i2⟩ := insertKnot_shape c d e (c.knots c.degree) c.degree
  rw [← ed, ← e3, ← e2]
  generalize insertKnot c (c.knots c.degree) c.degree = X1 at *
  generalize insertKnot d (c.knots c.degree) c.degree = Y1 at *
  obtain ⟨a1, b1⟩ := X1
  obtain ⟨a1', b1'⟩ := Y1
  simp only at *
  obtain ⟨f1, f2, f3⟩ := (shape_iff _ _).1 i2
  have ed' : b1.degree = b1'.degree := by unfold Curve.degree; rw [f1]
  obtain ⟨j1, j2⟩ := insertKnot_shape b1 b1' i2 (c.knots c.n) b1.degree
  rw [← ed']
  generalize insertKnot b1 (c.knots c.n) b1.degree = X2 at *
  generalize insertKnot b1' (c.knots c.n) b1.degree = Y2 at *
  obtain ⟨a2, b2⟩ := X2
  obtain ⟨a2', b2'⟩ := Y2
  simp only at *
  obtain ⟨g1, g2, g3⟩ := (shape_iff _ _).1 j2
  subst i1 j1
  by_cases hc : a1 ≠ 0 ∨ a2 ≠ 0
  · rw [if_pos hc, if_pos hc]
    unfold shape
    simp only [g1, g2, g3]
  · rw [if_neg hc, if_neg hc]
    exact j2

/-! ## Values -/

/-- The weights of the points. -/
def wgt (o n : Nat) (k : Nat → K) (u : K) (i : Nat) : K :=
  if u < k n then cox (ext k (n + (o - 1))) (o - 1) i u else if i = n - 1 then 1 else 0

theorem value_sum (c : Curve K V) (hn : 1 ≤ c.n) (u : K) : value c u = ∑ i ∈ Finset.range c.n, wgt c.order c.n c.knots u i • c.pts i := by
  unfold value wgt
  by_cases h : u < c.knots c.n
  · rw [if_pos h]
    simp only [if_pos h]
    rfl
  · rw [if_neg h]
    simp only [if_neg h]
    rw [Finset.sum_eq_single (c.n - 1)]
    · rw [if_pos rfl, one_smul]
    · intro i _ hi
      rw [if_neg hi, zero_smul]
    · intro h
      exact absurd (Finset.mem_range.2 (by omega)) h

theorem value_congr (c d : Curve K V) (e : shape c = shape d) (hn : 1 ≤ c.n) (h : ∀ i, i < c.n → c.pts i = d.pts i) (u : K) : value c u = value d u := by
  obtain ⟨e1, e2, e3⟩ := (shape_iff _ _).1 e
  rw [value_sum c hn, value_sum d (by omega), ← e1, ← e2, ← e3]
  apply Finset.sum_congr rfl
  intro i hi
  rw [h i (Finset.mem_range.1 hi)]

/-- The surface, first along the rows. Specification. -/
def Surf.value (s : Surf K V) (u v : K) : V := Nurbs.value ⟨s.vOrder, s.nv, s.vKnots, fun j => Nurbs.value (s.row j) u⟩ v

/-- The tensor product of B-splines. Specification. -/
def Surf.spline (s : Surf K V) (u v : K) : V :=
  ∑ j ∈ Finset.range s.nv, ∑ i ∈ Finset.range s.nu,
    (cox (ext s.uKnots (s.nu + (s.uOrder - 1))) (s.uOrder - 1) i u * cox (ext s.vKnots (s.nv + (s.vOrder - 1))) (s.vOrder - 1) j v) • s.pts (j * s.nu + i)

theorem Surf.value_spline (s : Surf K V) (u v : K) (hu : u < s.uKnots s.nu) (hv : v < s.vKnots s.nv) : s.value u v = s.spline u v := by
  unfold Surf.value Nurbs.value Surf.spline
  rw [if_pos hv]
  unfold Curve.spline
  apply Finset.sum_congr rfl
  intro j _
  simp only
  rw [if_pos (show u < (s.row j).knots (s.row j).n from hu), Finset.smul_sum]
  apply Finset.sum_congr rfl
  intro i _
  rw [smul_smul, mul_comm]
  rfl

theorem Surf.value_cols (s : Surf K V) (hu : 1 ≤ s.nu) (hv : 1 ≤ s.nv) (u v : K) :
    s.value u v = Nurbs.value ⟨s.uOrder, s.nu, s.uKnots, fun i => Nurbs.value (s.col i) v⟩ u := by
  unfold Surf.value
  rw [value_sum _ hv, value_sum _ hu]
  simp only
  have e1 : ∀ j, Nurbs.value (s.row j) u = ∑ i ∈ Finset.range s.nu, wgt s.uOrder s.nu s.uKnots u i • s.pts (j * s.nu + i) := fun j => value_sum (s.row j) hu u
  have e2 : ∀ i, Nurbs.value (s.col i) v = ∑ j ∈ Finset.range s.nv, wgt s.vOrder s.nv s.vKnots v j • s.pts (j * s.nu + i) := fun i => value_sum (s.col i) hv v
  simp only [e1, e2, Finset.smul_sum]
  rw [Finset.sum_comm]
  apply Finset.sum_congr rfl
  intro i _
  apply Finset.sum_congr rfl
  intro j _
  rw [smul_smul, smul_smul, mul_comm]

/-! ## Operations on all rows or columns -/

theorem Surf.mapU_value (s : Surf K V) (f : Curve K V → Curve K V) (hf : ∀ j, shape (f (s.row j)) = shape (f (s.row 0))) (ho : (f (s.row 0)).order = s.uOrder)
    (hn : 1 ≤ (f (s.row 0)).n) (u v : K) :
    (s.mapU f).value u v = Nurbs.value ⟨s.vOrder, s.nv, s.vKnots, fun j => Nurbs.value (f (s.row j)) u⟩ v := by
  unfold Surf.value
  have : ∀ j, Nurbs.value ((s.mapU f).row j) u = Nurbs.value (f (s.row j)) u := by
    intro j
    apply value_congr
    · rw [hf j]
      unfold shape
      rw [ho]
      rfl
    · exact hn
    · intro i hi
      have hi' : i < (f (s.row 0)).n := hi
      show (f (s.row ((j * (f (s.row 0)).n + i) / (f (s.row 0)).n))).pts ((j * (f (s.row 0)).n + i) % (f (s.row 0)).n) = _
      have d1 : (j * (f (s.row 0)).n + i) / (f (s.row 0)).n = j := by
        rw [Nat.mul_comm, Nat.mul_add_div (by omega), Nat.div_eq_of_lt hi', Nat.add_zero]
      have d2 : (j * (f (s.row 0)).n + i) % (f (s.row 0)).n = i := by
        rw [Nat.mul_comm, Nat.mul_add_mod, Nat.mod_eq_of_lt hi']
      rw [d1, d2]
  simp only [this]
  rfl

theorem Surf.mapU_same (s : Surf K V) (f : Curve K V → Curve K V) (hf : ∀ j, shape (f (s.row j)) = shape (f (s.row 0))) (ho : (f (s.row 0)).order = s.uOrder)
    (hn : 1 ≤ (f (s.row 0)).n) (u v : K) (h : ∀ j, Nurbs.value (f (s.row j)) u = Nurbs.value (s.row j) u) : (s.mapU f).value u v = s.value u v := by
  rw [Surf.mapU_value s f hf ho hn]
  simp only [h]
  rfl

theorem Surf.mapV_same (s : Surf K V) (f : Curve K V → Curve K V) (hf : ∀ i, shape (f (s.col i)) = shape (f (s.col 0))) (ho : (f (s.col 0)).order = s.vOrder)
    (hn : 1 ≤ (f (s.col 0)).n) (hu : 1 ≤ s.nu) (hv : 1 ≤ s.nv) (u v : K) (h : ∀ i, Nurbs.value (f (s.col i)) v = Nurbs.value (s.col i) v) :
    (s.mapV f).value u v = s.value u v := by
  rw [Surf.value_cols (s.mapV f) hu hn, Surf.value_cols s hu hv]
  apply value_congr
  · rfl
  · exact hu
  · intro i hi
    have hi' : i < s.nu := hi
    show Nurbs.value ((s.mapV f).col i) v = Nurbs.value (s.col i) v
    rw [← h i]
    apply value_congr
    · rw [hf i]
      unfold shape
      rw [ho]
      rfl
    · exact hn
    · intro j hj
      show (f (s.col ((j * s.nu + i) % s.nu))).pts ((j * s.nu + i) / s.nu) = _
      have d1 : (j * s.nu + i) / s.nu = j := by
        rw [Nat.mul_comm, Nat.mul_add_div (by omega), Nat.div_eq_of_lt hi', Nat.add_zero]
      have d2 : (j * s.nu + i) % s.nu = i := by
        rw [Nat.mul_comm, Nat.mul_add_mod, Nat.mod_eq_of_lt hi']
      rw [d1, d2]

/-! ## Evaluation -/

theorem span_weights (c : Curve K V) (h : Legal c) (u : K) (h1 : c.knots c.degree ≤ u) (h2 : u ≤ c.knots c.n) :
    ∃ j N, c.findSpan u = some j ∧ c.degree ≤ j ∧ j < c.n ∧ basis c.knots u j c.degree = some N ∧
      ∀ P : Nat → V, ∑ r ∈ Finset.range (c.degree + 1), N r • P (j - c.degree + r) = value ⟨c.order, c.n, c.knots, P⟩ u := by
  have ho := h.wf.order
  have hp := h.wf.pts
  have hd : c.order = c.degree + 1 := by unfold Curve.degree; omega
  obtain ⟨l1, l2, l3⟩ := h.lt c
  obtain ⟨j, e, j1, j2, j3, j4⟩ : ∃ j, c.findSpan u = some j ∧ c.degree ≤ j ∧ j < c.n ∧ c.knots j < c.knots (j + 1) ∧
      (u < c.knots c.n → c.knots j ≤ u ∧ u < c.knots (j + 1)) ∧ (¬ u < c.knots c.n → j = c.n - 1) := by
    by_cases hu : u < c.knots c.n
    · obtain ⟨j, e, a, b, d, g⟩ := findSpan_spec c h.wf u h1 hu l1
      exact ⟨j, e, a, b, lt_of_le_of_lt d g, fun _ => ⟨d, g⟩, fun hh => absurd hu hh⟩
    · refine ⟨c.n - 1, ?_, by omega, by omega, ?_, fun hh => absurd hh hu, fun _ => rfl⟩
      · unfold Curve.findSpan
        rw [if_pos (not_lt.1 hu)]
      · rw [show c.n - 1 + 1 = c.n by omega]
        exact l2
  obtain ⟨N, eN, hN⟩ := basis_sum (V := V) c.knots c.t (t_mono c h.wf) u j c.degree j1 (fun x _ _ => (t_nat c x x rfl (by omega)).symm)
    (by rw [t_nat c j j rfl (by omega), t_nat c _ (j + 1) (by push_cast; rfl) (by omega)]; exact j3) c.degree (le_refl _)
  refine ⟨j, N, e, j1, j2, eN, fun P => ?_⟩
  have hs := hN (fun i => P i.toNat)
  have e1 : ∑ r ∈ Finset.range (c.degree + 1), N r • P (j - c.degree + r) = deBoor c.t j u c.degree (fun i => P i.toNat) := by
    rw [← hs]
    apply Finset.sum_congr rfl
    intro r _
    congr 2
    omega
  rw [e1]
  unfold value
  simp only
  by_cases hu : u < c.knots c.n
  · rw [if_pos hu]
    obtain ⟨g1, g2⟩ := j4.1 hu
    exact (spline_deBoor ⟨c.order, c.n, c.knots, P⟩ ⟨h.wf.order, h.wf.pts, h.wf.mono⟩ u j j1 j2 g1 g2).symm
  · rw [if_neg hu]
    have hj := j4.2 hu
    have hu' : u = c.knots c.n := le_antisymm h2 (not_lt.1 hu)
    rw [deBoor_end]
    · show P ((j : ℤ)).toNat = _
      rw [hj]
      rfl
    · rw [t_nat c j j rfl (by omega), hj, hu']
      exact l2
    · intro i i1 i2
      rw [t_nat c i i.toNat (by omega) (by omega), hu']
      apply le_antisymm
      · rw [h.last]
        exact h.wf.mono _ _ (by omega) (by omega)
      · exact h.wf.mono _ _ (by omega) (by omega)

/-- Legal in both directions. -/
structure Surf.Legal (s : Surf K V) : Prop where
  u : Nurbs.Legal (s.row 0)
  v : Nurbs.Legal (s.col 0)

theorem Surf.Legal.pos (s : Surf K V) (h : s.Legal) : 1 ≤ s.nu ∧ 1 ≤ s.nv ∧ 1 ≤ s.uOrder ∧ 1 ≤ s.vOrder := by
  have a1 : 1 ≤ s.uOrder := h.u.wf.order
  have a2 : s.uOrder ≤ s.nu := h.u.wf.pts
  have b1 : 1 ≤ s.vOrder := h.v.wf.order
  have b2 : s.vOrder ≤ s.nv := h.v.wf.pts
  omega

theorem Surf.evaluate_value (s : Surf K V) (h : s.Legal) (u v : K) (hu : s.uKnots (s.uOrder - 1) ≤ u) (hu' : u ≤ s.uKnots s.nu)
    (hv : s.vKnots (s.vOrder - 1) ≤ v) (hv' : v ≤ s.vKnots s.nv) : s.evaluate u v = some (s.value u v) := by
  obtain ⟨p1, p2, p3, p4⟩ := h.pos s
  obtain ⟨ju, Nu, e1, a1, a2, b1, w1⟩ := span_weights (s.row 0) h.u u hu hu'
  obtain ⟨jv, Nv, e2, c1, c2, b2, w2⟩ := span_weights (s.col 0) h.v v hv hv'
  have du : (s.row 0).degree = s.uOrder - 1 := rfl
  have dv : (s.col 0).degree = s.vOrder - 1 := rfl
  unfold Surf.evaluate
  rw [e1, Option.bind_some, show basis s.uKnots u ju (s.uOrder - 1) = some Nu from b1, Option.bind_some, e2, Option.bind_some,
    show basis s.vKnots v jv (s.vOrder - 1) = some Nv from b2, Option.map_some]
  congr 1
  unfold Surf.value
  rw [show Nurbs.value ⟨s.vOrder, s.nv, s.vKnots, fun j => Nurbs.value (s.row j) u⟩ v = _ from (w2 (fun j => Nurbs.value (s.row j) u)).symm]
  rw [foldl_sum, zero_add, dv, show s.vOrder - 1 + 1 = s.vOrder by omega]
  apply Finset.sum_congr rfl
  intro l _
  rw [foldl_sum, zero_add]
  congr 1
  rw [show Nurbs.value (s.row (jv - (s.vOrder - 1) + l)) u = _ from (w1 (fun i => s.pts ((jv - (s.vOrder - 1) + l) * s.nu + i))).symm,
    du, show s.uOrder - 1 + 1 = s.uOrder by omega]
  apply Finset.sum_congr rfl
  intro k _
  rw [Nat.add_assoc]

end Verif.Geom.Nurbs
