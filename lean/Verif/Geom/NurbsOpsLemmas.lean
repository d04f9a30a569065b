import Verif.Geom.NurbsSurfLemmas
/-!
# Lemmas on NURBS: operations on surfaces
-/
namespace Verif.Geom.Nurbs
open Verif.Geom.BSpline Verif.Geom.Trim

set_option linter.unusedSectionVars false

variable {K : Type} [Field K] [LinearOrder K] [IsStrictOrderedRing K] {V : Type} [AddCommGroup V] [Module K V]

theorem Surf.mapU_row (s : Surf K V) (f : Curve K V → Curve K V) (ho : (f (s.row 0)).order = s.uOrder) : shape ((s.mapU f).row 0) = shape (f (s.row 0)) := by
  unfold shape
  rw [ho]
  rfl

theorem Surf.mapV_col (s : Surf K V) (f : Curve K V → Curve K V) (ho : (f (s.col 0)).order = s.vOrder) : shape ((s.mapV f).col 0) = shape (f (s.col 0)) := by
  unfold shape
  rw [ho]
  rfl

theorem Surf.mapU_col (s : Surf K V) (f : Curve K V → Curve K V) : shape (s.col 0) = shape ((s.mapU f).col 0) := by
  unfold shape
  rfl

theorem Surf.mapV_row (s : Surf K V) (f : Curve K V → Curve K V) : shape (s.row 0) = shape ((s.mapV f).row 0) := by
  unfold shape
  rfl

theorem Surf.legalU (s : Surf K V) (h : s.Legal) (j : Nat) : Nurbs.Legal (s.row j) := Legal.of_shape (s.row 0) (s.row j) rfl h.u

theorem Surf.legalV (s : Surf K V) (h : s.Legal) (i : Nat) : Nurbs.Legal (s.col i) := Legal.of_shape (s.col 0) (s.col i) rfl h.v

/-- The middle of the domain in the u direction. -/
def Surf.midU (s : Surf K V) : K := (s.uKnots (s.uOrder - 1) + s.uKnots s.nu) / 2

theorem Surf.splitU_spec (s : Surf K V) (h : s.Legal) (hp : 2 ≤ s.uOrder) :
    ∃ A B, s.split true = some (A, B) ∧ A.Legal ∧ B.Legal ∧
      (A.uOrder = s.uOrder ∧ A.vOrder = s.vOrder ∧ A.nv = s.nv ∧ A.vKnots = s.vKnots) ∧
      (B.uOrder = s.uOrder ∧ B.vOrder = s.vOrder ∧ B.nv = s.nv ∧ B.vKnots = s.vKnots) ∧
      A.uKnots (s.uOrder - 1) = s.uKnots (s.uOrder - 1) ∧ A.uKnots A.nu = s.midU ∧ B.uKnots (s.uOrder - 1) = s.midU ∧ B.uKnots B.nu = s.uKnots s.nu ∧
      (∀ u v, s.uKnots (s.uOrder - 1) ≤ u → u < s.midU → A.value u v = s.value u v) ∧
      (∀ u v, s.midU ≤ u → u ≤ s.uKnots s.nu → B.value u v = s.value u v) ∧
      ((∀ i, i ≤ s.nu → ¬ (s.uKnots i = s.midU ∧ s.uKnots (i + (s.uOrder - 1)) = s.midU)) → ∀ v, A.value s.midU v = s.value s.midU v) := by
  obtain ⟨A0, B0, e0, lA, lB, oA, oB, a1, a2, b1, b2, -, -, -⟩ := split_spec (s.row 0) h.u (show 1 ≤ s.uOrder - 1 by omega)
  have dA : A0.degree = s.uOrder - 1 := by unfold Curve.degree; rw [oA]; rfl
  have dB : B0.degree = s.uOrder - 1 := by unfold Curve.degree; rw [oB]; rfl
  have key : ∀ j, ∃ A B, Nurbs.split (s.row j) = some (A, B) ∧ shape A = shape A0 ∧ shape B = shape B0 ∧
      (∀ u, s.uKnots (s.uOrder - 1) ≤ u → u < s.midU → Nurbs.value A u = Nurbs.value (s.row j) u) ∧
      (∀ u, s.midU ≤ u → u ≤ s.uKnots s.nu → Nurbs.value B u = Nurbs.value (s.row j) u) ∧
      ((∀ i, i ≤ s.nu → ¬ (s.uKnots i = s.midU ∧ s.uKnots (i + (s.uOrder - 1)) = s.midU)) → Nurbs.value A s.midU = Nurbs.value (s.row j) s.midU) := by
    intro j
    obtain ⟨A, B, e, -, -, -, -, -, -, -, -, v1, v2, v3⟩ := split_spec (s.row j) (s.legalU h j) (show 1 ≤ s.uOrder - 1 by omega)
    obtain ⟨A', B', e', q1, q2⟩ := split_shape (s.row 0) (s.row j) rfl A0 B0 e0
    rw [e] at e'
    simp only [Option.some.injEq, Prod.mk.injEq] at e'
    rw [← e'.1] at q1
    rw [← e'.2] at q2
    exact ⟨A, B, e, q1.symm, q2.symm, v1, v2, fun hm => v3 (fun i hi => hm i (Nat.le_of_add_le_add_right hi))⟩
  have fA : ∀ j, ∃ A, ((Nurbs.split (s.row j)).map Prod.fst).getD (s.row j) = A ∧ shape A = shape A0 ∧
      (∀ u, s.uKnots (s.uOrder - 1) ≤ u → u < s.midU → Nurbs.value A u = Nurbs.value (s.row j) u) ∧
      ((∀ i, i ≤ s.nu → ¬ (s.uKnots i = s.midU ∧ s.uKnots (i + (s.uOrder - 1)) = s.midU)) → Nurbs.value A s.midU = Nurbs.value (s.row j) s.midU) := by
    intro j
    obtain ⟨A, B, e, q1, q2, v1, v2, v3⟩ := key j
    exact ⟨A, by rw [e]; rfl, q1, v1, v3⟩
  have fB : ∀ j, ∃ B, ((Nurbs.split (s.row j)).map Prod.snd).getD (s.row j) = B ∧ shape B = shape B0 ∧
      (∀ u, s.midU ≤ u → u ≤ s.uKnots s.nu → Nurbs.value B u = Nurbs.value (s.row j) u) := by
    intro j
    obtain ⟨A, B, e, q1, q2, v1, v2, v3⟩ := key j
    exact ⟨B, by rw [e]; rfl, q2, v2⟩
  have hsA : ∀ j, shape (((Nurbs.split (s.row j)).map Prod.fst).getD (s.row j)) = shape (((Nurbs.split (s.row 0)).map Prod.fst).getD (s.row 0)) := by
    intro j
    obtain ⟨A, e, q, -⟩ := fA j
    obtain ⟨A', e', q', -⟩ := fA 0
    rw [e, e', q, q']
  have hsB : ∀ j, shape (((Nurbs.split (s.row j)).map Prod.snd).getD (s.row j)) = shape (((Nurbs.split (s.row 0)).map Prod.snd).getD (s.row 0)) := by
    intro j
    obtain ⟨A, e, q, -⟩ := fB j
    obtain ⟨A', e', q', -⟩ := fB 0
    rw [e, e', q, q']
  have gA : ((Nurbs.split (s.row 0)).map Prod.fst).getD (s.row 0) = A0 := by rw [e0]; rfl
  have gB : ((Nurbs.split (s.row 0)).map Prod.snd).getD (s.row 0) = B0 := by rw [e0]; rfl
  have oA' : (((Nurbs.split (s.row 0)).map Prod.fst).getD (s.row 0)).order = s.uOrder := by rw [gA, oA]; rfl
  have oB' : (((Nurbs.split (s.row 0)).map Prod.snd).getD (s.row 0)).order = s.uOrder := by rw [gB, oB]; rfl
  have nA : 1 ≤ (((Nurbs.split (s.row 0)).map Prod.fst).getD (s.row 0)).n := by rw [gA]; have := lA.wf.pts; have := lA.wf.order; omega
  have nB : 1 ≤ (((Nurbs.split (s.row 0)).map Prod.snd).getD (s.row 0)).n := by rw [gB]; have := lB.wf.pts; have := lB.wf.order; omega
  have es : s.split true = some (s.tryU fun c => (Nurbs.split c).map Prod.fst, s.tryU fun c => (Nurbs.split c).map Prod.snd) := by
    unfold Surf.split
    rw [if_pos rfl, e0]
    rfl
  have kA : (s.tryU fun c => (Nurbs.split c).map Prod.fst).uKnots = A0.knots := by show (((Nurbs.split (s.row 0)).map Prod.fst).getD (s.row 0)).knots = _; rw [gA]
  have mA : (s.tryU fun c => (Nurbs.split c).map Prod.fst).nu = A0.n := by show (((Nurbs.split (s.row 0)).map Prod.fst).getD (s.row 0)).n = _; rw [gA]
  have kB : (s.tryU fun c => (Nurbs.split c).map Prod.snd).uKnots = B0.knots := by show (((Nurbs.split (s.row 0)).map Prod.snd).getD (s.row 0)).knots = _; rw [gB]
  have mB : (s.tryU fun c => (Nurbs.split c).map Prod.snd).nu = B0.n := by show (((Nurbs.split (s.row 0)).map Prod.snd).getD (s.row 0)).n = _; rw [gB]
  refine ⟨_, _, es, ⟨?_, Legal.of_shape (s.col 0) _ (s.mapU_col _) h.v⟩, ⟨?_, Legal.of_shape (s.col 0) _ (s.mapU_col _) h.v⟩, ⟨rfl, rfl, rfl, rfl⟩, ⟨rfl, rfl, rfl, rfl⟩, ?_, ?_, ?_, ?_,
    fun u v h1 h2 => ?_, fun u v h1 h2 => ?_, fun hm v => ?_⟩
  · refine Legal.of_shape A0 _ ?_ lA
    have hh := s.mapU_row (fun c => ((Nurbs.split c).map Prod.fst).getD c) oA'
    simp only [gA] at hh
    exact hh.symm
  · refine Legal.of_shape B0 _ ?_ lB
    have hh := s.mapU_row (fun c => ((Nurbs.split c).map Prod.snd).getD c) oB'
    simp only [gB] at hh
    exact hh.symm
  · rw [kA]; rw [dA] at a1; exact a1
  · rw [kA, mA]; exact a2
  · rw [kB]; rw [dB] at b1; exact b1
  · rw [kB, mB]; exact b2
  · refine Surf.mapU_same s (fun c => ((Nurbs.split c).map Prod.fst).getD c) hsA oA' nA _ _ fun j => ?_
    obtain ⟨A, e, -, w, -⟩ := fA j
    rw [e]
    exact w u h1 h2
  · refine Surf.mapU_same s (fun c => ((Nurbs.split c).map Prod.snd).getD c) hsB oB' nB _ _ fun j => ?_
    obtain ⟨A, e, -, w⟩ := fB j
    rw [e]
    exact w u h1 h2
  · refine Surf.mapU_same s (fun c => ((Nurbs.split c).map Prod.fst).getD c) hsA oA' nA _ _ fun j => ?_
    obtain ⟨A, e, -, -, w⟩ := fA j
    rw [e]
    exact w hm

/-- The middle of the domain in the v direction. -/
def Surf.midV (s : Surf K V) : K := (s.vKnots (s.vOrder - 1) + s.vKnots s.nv) / 2

theorem Surf.splitV_spec (s : Surf K V) (h : s.Legal) (hp : 2 ≤ s.vOrder) :
    ∃ A B, s.split false = some (A, B) ∧ A.Legal ∧ B.Legal ∧
      (A.vOrder = s.vOrder ∧ A.uOrder = s.uOrder ∧ A.nu = s.nu ∧ A.uKnots = s.uKnots) ∧
      (B.vOrder = s.vOrder ∧ B.uOrder = s.uOrder ∧ B.nu = s.nu ∧ B.uKnots = s.uKnots) ∧
      A.vKnots (s.vOrder - 1) = s.vKnots (s.vOrder - 1) ∧ A.vKnots A.nv = s.midV ∧ B.vKnots (s.vOrder - 1) = s.midV ∧ B.vKnots B.nv = s.vKnots s.nv ∧
      (∀ u v, s.vKnots (s.vOrder - 1) ≤ v → v < s.midV → A.value u v = s.value u v) ∧
      (∀ u v, s.midV ≤ v → v ≤ s.vKnots s.nv → B.value u v = s.value u v) ∧
      ((∀ i, i ≤ s.nv → ¬ (s.vKnots i = s.midV ∧ s.vKnots (i + (s.vOrder - 1)) = s.midV)) → ∀ u, A.value u s.midV = s.value u s.midV) := by
  obtain ⟨p1, p2, -, -⟩ := h.pos s
  obtain ⟨A0, B0, e0, lA, lB, oA, oB, a1, a2, b1, b2, -, -, -⟩ := split_spec (s.col 0) h.v (show 1 ≤ s.vOrder - 1 by omega)
  have dA : A0.degree = s.vOrder - 1 := by unfold Curve.degree; rw [oA]; rfl
  have dB : B0.degree = s.vOrder - 1 := by unfold Curve.degree; rw [oB]; rfl
  have key : ∀ j, ∃ A B, Nurbs.split (s.col j) = some (A, B) ∧ shape A = shape A0 ∧ shape B = shape B0 ∧
      (∀ u, s.vKnots (s.vOrder - 1) ≤ u → u < s.midV → Nurbs.value A u = Nurbs.value (s.col j) u) ∧
      (∀ u, s.midV ≤ u → u ≤ s.vKnots s.nv → Nurbs.value B u = Nurbs.value (s.col j) u) ∧
      ((∀ i, i ≤ s.nv → ¬ (s.vKnots i = s.midV ∧ s.vKnots (i + (s.vOrder - 1)) = s.midV)) → Nurbs.value A s.midV = Nurbs.value (s.col j) s.midV) := by
    intro j
    obtain ⟨A, B, e, -, -, -, -, -, -, -, -, v1, v2, v3⟩ := split_spec (s.col j) (s.legalV h j) (show 1 ≤ s.vOrder - 1 by omega)
    obtain ⟨A', B', e', q1, q2⟩ := split_shape (s.col 0) (s.col j) rfl A0 B0 e0
    rw [e] at e'
    simp only [Option.some.injEq, Prod.mk.injEq] at e'
    rw [← e'.1] at q1
    rw [← e'.2] at q2
    exact ⟨A, B, e, q1.symm, q2.symm, v1, v2, fun hm => v3 (fun i hi => hm i (Nat.le_of_add_le_add_right hi))⟩
  have fA : ∀ j, ∃ A, ((Nurbs.split (s.col j)).map Prod.fst).getD (s.col j) = A ∧ shape A = shape A0 ∧
      (∀ u, s.vKnots (s.vOrder - 1) ≤ u → u < s.midV → Nurbs.value A u = Nurbs.value (s.col j) u) ∧
      ((∀ i, i ≤ s.nv → ¬ (s.vKnots i = s.midV ∧ s.vKnots (i + (s.vOrder - 1)) = s.midV)) → Nurbs.value A s.midV = Nurbs.value (s.col j) s.midV) := by
    intro j
    obtain ⟨A, B, e, q1, q2, v1, v2, v3⟩ := key j
    exact ⟨A, by rw [e]; rfl, q1, v1, v3⟩
  have fB : ∀ j, ∃ B, ((Nurbs.split (s.col j)).map Prod.snd).getD (s.col j) = B ∧ shape B = shape B0 ∧
      (∀ u, s.midV ≤ u → u ≤ s.vKnots s.nv → Nurbs.value B u = Nurbs.value (s.col j) u) := by
    intro j
    obtain ⟨A, B, e, q1, q2, v1, v2, v3⟩ := key j
    exact ⟨B, by rw [e]; rfl, q2, v2⟩
  have hsA : ∀ j, shape (((Nurbs.split (s.col j)).map Prod.fst).getD (s.col j)) = shape (((Nurbs.split (s.col 0)).map Prod.fst).getD (s.col 0)) := by
    intro j
    obtain ⟨A, e, q, -⟩ := fA j
    obtain ⟨A', e', q', -⟩ := fA 0
    rw [e, e', q, q']
  have hsB : ∀ j, shape (((Nurbs.split (s.col j)).map Prod.snd).getD (s.col j)) = shape (((Nurbs.split (s.col 0)).map Prod.snd).getD (s.col 0)) := by
    intro j
    obtain ⟨A, e, q, -⟩ := fB j
    obtain ⟨A', e', q', -⟩ := fB 0
    rw [e, e', q, q']
  have gA : ((Nurbs.split (s.col 0)).map Prod.fst).getD (s.col 0) = A0 := by rw [e0]; rfl
  have gB : ((Nurbs.split (s.col 0)).map Prod.snd).getD (s.col 0) = B0 := by rw [e0]; rfl
  have oA' : (((Nurbs.split (s.col 0)).map Prod.fst).getD (s.col 0)).order = s.vOrder := by rw [gA, oA]; rfl
  have oB' : (((Nurbs.split (s.col 0)).map Prod.snd).getD (s.col 0)).order = s.vOrder := by rw [gB, oB]; rfl
  have nA : 1 ≤ (((Nurbs.split (s.col 0)).map Prod.fst).getD (s.col 0)).n := by rw [gA]; have := lA.wf.pts; have := lA.wf.order; omega
  have nB : 1 ≤ (((Nurbs.split (s.col 0)).map Prod.snd).getD (s.col 0)).n := by rw [gB]; have := lB.wf.pts; have := lB.wf.order; omega
  have es : s.split false = some (s.tryV fun c => (Nurbs.split c).map Prod.fst, s.tryV fun c => (Nurbs.split c).map Prod.snd) := by
    unfold Surf.split
    rw [if_neg (by simp), e0]
    rfl
  have kA : (s.tryV fun c => (Nurbs.split c).map Prod.fst).vKnots = A0.knots := by show (((Nurbs.split (s.col 0)).map Prod.fst).getD (s.col 0)).knots = _; rw [gA]
  have mA : (s.tryV fun c => (Nurbs.split c).map Prod.fst).nv = A0.n := by show (((Nurbs.split (s.col 0)).map Prod.fst).getD (s.col 0)).n = _; rw [gA]
  have kB : (s.tryV fun c => (Nurbs.split c).map Prod.snd).vKnots = B0.knots := by show (((Nurbs.split (s.col 0)).map Prod.snd).getD (s.col 0)).knots = _; rw [gB]
  have mB : (s.tryV fun c => (Nurbs.split c).map Prod.snd).nv = B0.n := by show (((Nurbs.split (s.col 0)).map Prod.snd).getD (s.col 0)).n = _; rw [gB]
  refine ⟨_, _, es, ⟨Legal.of_shape (s.row 0) _ (s.mapV_row _) h.u, ?_⟩, ⟨Legal.of_shape (s.row 0) _ (s.mapV_row _) h.u, ?_⟩, ⟨rfl, rfl, rfl, rfl⟩, ⟨rfl, rfl, rfl, rfl⟩, ?_, ?_, ?_, ?_,
    fun u v h1 h2 => ?_, fun u v h1 h2 => ?_, fun hm u => ?_⟩
  · refine Legal.of_shape A0 _ ?_ lA
    have hh := s.mapV_col (fun c => ((Nurbs.split c).map Prod.fst).getD c) oA'
    simp only [gA] at hh
    exact hh.symm
  · refine Legal.of_shape B0 _ ?_ lB
    have hh := s.mapV_col (fun c => ((Nurbs.split c).map Prod.snd).getD c) oB'
    simp only [gB] at hh
    exact hh.symm
  · rw [kA]; rw [dA] at a1; exact a1
  · rw [kA, mA]; exact a2
  · rw [kB]; rw [dB] at b1; exact b1
  · rw [kB, mB]; exact b2
  · refine Surf.mapV_same s (fun c => ((Nurbs.split c).map Prod.fst).getD c) hsA oA' nA p1 p2 _ _ fun j => ?_
    obtain ⟨A, e, -, w, -⟩ := fA j
    rw [e]
    exact w v h1 h2
  · refine Surf.mapV_same s (fun c => ((Nurbs.split c).map Prod.snd).getD c) hsB oB' nB p1 p2 _ _ fun j => ?_
    obtain ⟨A, e, -, w⟩ := fB j
    rw [e]
    exact w v h1 h2
  · refine Surf.mapV_same s (fun c => ((Nurbs.split c).map Prod.fst).getD c) hsA oA' nA p1 p2 _ _ fun j => ?_
    obtain ⟨A, e, -, -, w⟩ := fA j
    rw [e]
    exact w hm

/-! ## Clamping -/

/-- The ends of the domain are simple towards its inside, and no knot occurs too often. -/
structure Ends (c : Curve K V) : Prop where
  wf : Wf c
  simple : Simple c
  left : c.knots c.degree < c.knots (c.degree + 1)
  right : c.knots (c.n - 1) < c.knots c.n

theorem clamp_legal (c : Curve K V) (h : Ends c) : Legal (clamp c) := by
  have ho := h.wf.order
  have hp := h.wf.pts
  have hd : c.order = c.degree + 1 := by unfold Curve.degree; omega
  obtain ⟨w, o, n, k, -⟩ := clamp_spec c h.wf h.left h.right
  have hd' : (clamp c).degree = c.degree := by unfold Curve.degree; rw [o]
  refine ⟨w, fun i hi => ?_, ?_, ?_⟩
  · rw [o, n, hd'] at *
    rw [k i (by omega), k (i + c.order) (by omega), if_neg (show ¬ i + c.order ≤ c.degree by omega)]
    have hl : ∀ j, c.degree < j → j ≤ c.n + c.degree → c.knots c.degree < c.knots j := fun j h1 h2 => lt_of_lt_of_le h.left (h.wf.mono _ _ (by omega) h2)
    by_cases h1 : i ≤ c.degree
    · rw [if_pos h1]
      by_cases h2 : i + c.order < c.n
      · rw [if_pos h2]; exact hl _ (by omega) (by omega)
      · rw [if_neg h2]; exact hl _ (by omega) (by omega)
    · rw [if_neg h1, if_pos (by omega)]
      by_cases h2 : i + c.order < c.n
      · rw [if_pos h2]; exact h.simple i (by omega)
      · rw [if_neg h2]
        exact lt_of_le_of_lt (h.wf.mono i (c.n - 1) (by omega) (by omega)) h.right
  · rw [hd', k 0 (by omega), k c.degree (by omega), if_pos (by omega), if_pos (by omega)]
  · rw [hd', n, k c.n (by omega), k (c.n + c.degree) (by omega), if_neg (by omega), if_neg (by omega), if_neg (by omega), if_neg (by omega)]

theorem Ends.of_shape (c d : Curve K V) (e : shape c = shape d) (h : Ends c) : Ends d := by
  obtain ⟨o, n, k, P⟩ := c
  obtain ⟨o', n', k', Q⟩ := d
  obtain ⟨e1, e2, e3⟩ := (shape_iff _ _).1 e
  simp only at e1 e2 e3
  subst e1 e2 e3
  exact ⟨⟨h.wf.order, h.wf.pts, h.wf.mono⟩, h.simple, h.left, h.right⟩

theorem clamp_value (c : Curve K V) (h : Ends c) (u : K) (h1 : c.knots c.degree ≤ u) (h2 : u < c.knots c.n) : value (clamp c) u = value c u := by
  have ho := h.wf.order
  have hp := h.wf.pts
  have hd : c.order = c.degree + 1 := by unfold Curve.degree; omega
  obtain ⟨w, o, n, k, sp⟩ := clamp_spec c h.wf h.left h.right
  unfold value
  rw [n, k c.n (by omega), if_neg (show ¬ c.n ≤ c.degree by omega), if_neg (lt_irrefl c.n), if_pos h2, if_pos h2, sp u h1 h2]

theorem Surf.row_shape (s : Surf K V) (i j : Nat) : shape (s.row i) = shape (s.row j) := by
  unfold shape
  rfl

theorem Surf.col_shape (s : Surf K V) (i j : Nat) : shape (s.col i) = shape (s.col j) := by
  unfold shape
  rfl

theorem Surf.clamp_spec (s : Surf K V) (hu : Ends (s.row 0)) (hv : Ends (s.col 0)) :
    s.clamp.Legal ∧ s.clamp.uOrder = s.uOrder ∧ s.clamp.vOrder = s.vOrder ∧ s.clamp.nu = s.nu ∧ s.clamp.nv = s.nv ∧
      (∀ i, i ≤ s.nu + (s.uOrder - 1) → s.clamp.uKnots i =
        if i ≤ s.uOrder - 1 then s.uKnots (s.uOrder - 1) else if i < s.nu then s.uKnots i else s.uKnots s.nu) ∧
      (∀ i, i ≤ s.nv + (s.vOrder - 1) → s.clamp.vKnots i =
        if i ≤ s.vOrder - 1 then s.vKnots (s.vOrder - 1) else if i < s.nv then s.vKnots i else s.vKnots s.nv) ∧
      ∀ u v, s.uKnots (s.uOrder - 1) ≤ u → u < s.uKnots s.nu → s.vKnots (s.vOrder - 1) ≤ v → v < s.vKnots s.nv → s.clamp.value u v = s.value u v := by
  have p1 : 1 ≤ s.nu := by
    have h1 : 1 ≤ s.uOrder := hu.wf.order
    have h2 : s.uOrder ≤ s.nu := hu.wf.pts
    omega
  have p2 : 1 ≤ s.nv := by
    have h1 : 1 ≤ s.vOrder := hv.wf.order
    have h2 : s.vOrder ≤ s.nv := hv.wf.pts
    omega
  obtain ⟨-, uo, un, uk, -⟩ := Nurbs.clamp_spec (s.row 0) hu.wf hu.left hu.right
  obtain ⟨s1, hs1⟩ : ∃ s1, s1 = s.mapU Nurbs.clamp := ⟨_, rfl⟩
  have q1 : s1.uOrder = s.uOrder := by rw [hs1]; rfl
  have q2 : s1.vOrder = s.vOrder := by rw [hs1]; rfl
  have q3 : s1.nu = s.nu := by rw [hs1]; exact un
  have q4 : s1.nv = s.nv := by rw [hs1]; rfl
  have q5 : s1.uKnots = (Nurbs.clamp (s.row 0)).knots := by rw [hs1]; rfl
  have q6 : s1.vKnots = s.vKnots := by rw [hs1]; rfl
  have hv' : Ends (s1.col 0) := by rw [hs1]; exact Ends.of_shape _ _ (s.mapU_col Nurbs.clamp) hv
  have l1 : Nurbs.Legal (s1.row 0) := by rw [hs1]; exact Legal.of_shape _ _ (s.mapU_row Nurbs.clamp uo).symm (clamp_legal _ hu)
  have e1 : ∀ u v, s.uKnots (s.uOrder - 1) ≤ u → u < s.uKnots s.nu → s1.value u v = s.value u v := by
    intro u v h1 h2
    rw [hs1]
    refine Surf.mapU_same s Nurbs.clamp (fun j => clamp_shape _ _ (s.row_shape j 0)) uo (by rw [un]; exact p1) u v fun j => ?_
    exact clamp_value (s.row j) (Ends.of_shape (s.row 0) (s.row j) (s.row_shape 0 j) hu) u h1 h2
  obtain ⟨-, vo, vn, vk, -⟩ := Nurbs.clamp_spec (s1.col 0) hv'.wf hv'.left hv'.right
  have hcl : s.clamp = s1.mapV Nurbs.clamp := by rw [hs1]; rfl
  obtain ⟨s2, hs2⟩ : ∃ s2, s2 = s1.mapV Nurbs.clamp := ⟨_, rfl⟩
  have r1 : s2.uOrder = s1.uOrder := by rw [hs2]; rfl
  have r2 : s2.vOrder = s1.vOrder := by rw [hs2]; rfl
  have r3 : s2.nu = s1.nu := by rw [hs2]; rfl
  have r4 : s2.nv = s1.nv := by rw [hs2]; exact vn
  have r5 : s2.uKnots = s1.uKnots := by rw [hs2]; rfl
  have r6 : s2.vKnots = (Nurbs.clamp (s1.col 0)).knots := by rw [hs2]; rfl
  have l2 : s2.Legal := by
    rw [hs2]
    exact ⟨Legal.of_shape _ _ (s1.mapV_row Nurbs.clamp) l1, Legal.of_shape _ _ (s1.mapV_col Nurbs.clamp vo).symm (clamp_legal _ hv')⟩
  have e2 : ∀ u v, s1.vKnots (s1.vOrder - 1) ≤ v → v < s1.vKnots s1.nv → s2.value u v = s1.value u v := by
    intro u v h3 h4
    rw [hs2]
    refine Surf.mapV_same s1 Nurbs.clamp (fun j => clamp_shape _ _ (s1.col_shape j 0)) vo (by rw [vn]; show 1 ≤ s1.nv; omega) (by omega) (by omega) u v fun i => ?_
    exact clamp_value (s1.col i) (Ends.of_shape (s1.col 0) (s1.col i) (s1.col_shape 0 i) hv') v h3 h4
  rw [hcl, ← hs2]
  refine ⟨l2, by rw [r1, q1], by rw [r2, q2], by rw [r3, q3], by rw [r4, q4], fun i hi => ?_, fun i hi => ?_, fun u v h1 h2 h3 h4 => ?_⟩
  · rw [r5, q5]
    exact uk i hi
  · rw [r6, ← q6, ← q4, ← q2]
    exact vk i (by rw [← q4, ← q2] at hi; exact hi)
  · rw [e2 u v (by rw [q6, q2]; exact h3) (by rw [q6, q4]; exact h4), e1 u v h1 h2]

/-! ## Segments -/

theorem cutted_value (c c' : Curve K V) (num m : Nat) (l : List Nat) (hc : Cutted c c' num m l) (u : K) (h1 : c.knots c.degree ≤ u) :
    value c' u = value c u := by
  unfold value
  rw [hc.fin]
  by_cases h : u < c.knots c.n
  · rw [if_pos h, if_pos h, hc.spline u h1 h]
  · rw [if_neg h, if_neg h, hc.lastPt]

/-- The parameters that belong to one of `num` parts: the last part has its end too. -/
def inCell (c : Curve K V) (num j : Nat) (u : K) : Prop := border c num j ≤ u ∧ (u < border c num (j + 1) ∨ j + 1 = num ∧ u = c.knots c.n)

theorem flatMap_get {α β : Type} (l : List α) (f : α → List β) (w : Nat) (hw : ∀ a ∈ l, (f a).length = w) (j i : Nat) (hi : i < w) (a : α) (ha : l[j]? = some a) :
    (l.flatMap f)[j * w + i]? = (f a)[i]? := by
  induction l generalizing j with
  | nil => simp at ha
  | cons b l ih =>
    rw [List.flatMap_cons]
    have hb := hw b (by simp)
    cases j with
    | zero =>
      simp at ha
      subst ha
      rw [Nat.zero_mul, Nat.zero_add, List.getElem?_append_left (by omega)]
    | succ j =>
      rw [List.getElem?_cons_succ] at ha
      have e : (j + 1) * w + i = w + (j * w + i) := by rw [Nat.succ_mul]; omega
      rw [e, List.getElem?_append_right (by omega), hb, Nat.add_sub_cancel_left, ih (fun a h => hw a (by simp [h])) j ha]

theorem flatMap_length {α β : Type} (l : List α) (f : α → List β) (w : Nat) (hw : ∀ a ∈ l, (f a).length = w) : (l.flatMap f).length = l.length * w := by
  induction l with
  | nil => simp
  | cons b l ih =>
    rw [List.flatMap_cons, List.length_append, hw b (by simp), ih (fun a h => hw a (by simp [h])), List.length_cons, Nat.succ_mul]
    omega

/-- All rows are refined. -/
theorem Surf.cutsU (s : Surf K V) (h : s.Legal) (hp : 2 ≤ s.uOrder) (num : Nat) (hn : 0 < num) :
    ∃ l c', cuts num (num - 1) (s.row 0) = some (l, c') ∧ Cutted (s.row 0) c' num (num - 1) l ∧
      shape c' = shape ((s.tryU fun c => (cuts num (num - 1) c).map Prod.snd).row 0) ∧
      ∀ u v, s.uKnots (s.uOrder - 1) ≤ u → (s.tryU fun c => (cuts num (num - 1) c).map Prod.snd).value u v = s.value u v := by
  obtain ⟨l, c', e, hc⟩ := cuts_spec (s.row 0) h.u (show 1 ≤ s.uOrder - 1 by omega) num (num - 1) (by omega)
  have key : ∀ j, ∃ d, cuts num (num - 1) (s.row j) = some (l, d) ∧ shape d = shape c' ∧ ∀ u, s.uKnots (s.uOrder - 1) ≤ u → Nurbs.value d u = Nurbs.value (s.row j) u := by
    intro j
    obtain ⟨l', d, ed, hd⟩ := cuts_spec (s.row j) (s.legalU h j) (show 1 ≤ s.uOrder - 1 by omega) num (num - 1) (by omega)
    obtain ⟨d', ed', hs⟩ := cuts_shape num (num - 1) (s.row 0) (s.row j) rfl l c' e
    rw [ed] at ed'
    simp only [Option.some.injEq, Prod.mk.injEq] at ed'
    rw [← ed'.2] at hs
    refine ⟨d, by rw [ed, ed'.1], hs.symm, fun u hu => ?_⟩
    exact cutted_value (s.row j) d num _ l' hd u hu
  have g0 : ((cuts num (num - 1) (s.row 0)).map Prod.snd).getD (s.row 0) = c' := by rw [e]; rfl
  have g1 : ∀ j, ∃ d, ((cuts num (num - 1) (s.row j)).map Prod.snd).getD (s.row j) = d ∧ shape d = shape c' ∧
      ∀ u, s.uKnots (s.uOrder - 1) ≤ u → Nurbs.value d u = Nurbs.value (s.row j) u := by
    intro j
    obtain ⟨d, ed, hs, hv⟩ := key j
    exact ⟨d, by rw [ed]; rfl, hs, hv⟩
  have o0 : (((cuts num (num - 1) (s.row 0)).map Prod.snd).getD (s.row 0)).order = s.uOrder := by rw [g0, hc.order]; rfl
  have n0 : 1 ≤ (((cuts num (num - 1) (s.row 0)).map Prod.snd).getD (s.row 0)).n := by rw [g0]; have := hc.wf.pts; have := hc.wf.order; omega
  refine ⟨l, c', e, hc, ?_, fun u v hu => ?_⟩
  · have hh := s.mapU_row (fun c => ((cuts num (num - 1) c).map Prod.snd).getD c) o0
    simp only [g0] at hh
    exact hh.symm
  · refine Surf.mapU_same s (fun c => ((cuts num (num - 1) c).map Prod.snd).getD c) (fun j => ?_) o0 n0 _ _ fun j => ?_
    · obtain ⟨d, ed, hs, -⟩ := g1 j
      rw [ed, g0, hs]
    · obtain ⟨d, ed, -, hv⟩ := g1 j
      rw [ed]
      exact hv u hu

/-- All columns are refined. -/
theorem Surf.cutsV (s : Surf K V) (h : s.Legal) (hp : 2 ≤ s.vOrder) (num : Nat) (hn : 0 < num) :
    ∃ l c', cuts num (num - 1) (s.col 0) = some (l, c') ∧ Cutted (s.col 0) c' num (num - 1) l ∧
      shape c' = shape ((s.tryV fun c => (cuts num (num - 1) c).map Prod.snd).col 0) ∧
      ∀ u v, s.vKnots (s.vOrder - 1) ≤ v → (s.tryV fun c => (cuts num (num - 1) c).map Prod.snd).value u v = s.value u v := by
  obtain ⟨p1, p2, -, -⟩ := h.pos s
  obtain ⟨l, c', e, hc⟩ := cuts_spec (s.col 0) h.v (show 1 ≤ s.vOrder - 1 by omega) num (num - 1) (by omega)
  have key : ∀ j, ∃ d, cuts num (num - 1) (s.col j) = some (l, d) ∧ shape d = shape c' ∧ ∀ u, s.vKnots (s.vOrder - 1) ≤ u → Nurbs.value d u = Nurbs.value (s.col j) u := by
    intro j
    obtain ⟨l', d, ed, hd⟩ := cuts_spec (s.col j) (s.legalV h j) (show 1 ≤ s.vOrder - 1 by omega) num (num - 1) (by omega)
    obtain ⟨d', ed', hs⟩ := cuts_shape num (num - 1) (s.col 0) (s.col j) rfl l c' e
    rw [ed] at ed'
    simp only [Option.some.injEq, Prod.mk.injEq] at ed'
    rw [← ed'.2] at hs
    refine ⟨d, by rw [ed, ed'.1], hs.symm, fun u hu => ?_⟩
    exact cutted_value (s.col j) d num _ l' hd u hu
  have g0 : ((cuts num (num - 1) (s.col 0)).map Prod.snd).getD (s.col 0) = c' := by rw [e]; rfl
  have g1 : ∀ j, ∃ d, ((cuts num (num - 1) (s.col j)).map Prod.snd).getD (s.col j) = d ∧ shape d = shape c' ∧
      ∀ u, s.vKnots (s.vOrder - 1) ≤ u → Nurbs.value d u = Nurbs.value (s.col j) u := by
    intro j
    obtain ⟨d, ed, hs, hv⟩ := key j
    exact ⟨d, by rw [ed]; rfl, hs, hv⟩
  have o0 : (((cuts num (num - 1) (s.col 0)).map Prod.snd).getD (s.col 0)).order = s.vOrder := by rw [g0, hc.order]; rfl
  have n0 : 1 ≤ (((cuts num (num - 1) (s.col 0)).map Prod.snd).getD (s.col 0)).n := by rw [g0]; have := hc.wf.pts; have := hc.wf.order; omega
  refine ⟨l, c', e, hc, ?_, fun u v hv => ?_⟩
  · have hh := s.mapV_col (fun c => ((cuts num (num - 1) c).map Prod.snd).getD c) o0
    simp only [g0] at hh
    exact hh.symm
  · refine Surf.mapV_same s (fun c => ((cuts num (num - 1) c).map Prod.snd).getD c) (fun j => ?_) o0 n0 p1 p2 _ _ fun j => ?_
    · obtain ⟨d, ed, hs, -⟩ := g1 j
      rw [ed, g0, hs]
    · obtain ⟨d, ed, -, hw⟩ := g1 j
      rw [ed]
      exact hw v hv

/-- A part on its domain; the last part has the end too. -/
theorem part_val (d : Curve K V) (h : Wf d) (off fin : Nat) (h1 : off + d.order ≤ fin + 1) (h2 : fin < d.n) (u : K)
    (hu : d.knots (off + d.degree) ≤ u) (hu' : u < d.knots (fin + 1) ∨ fin = d.n - 1 ∧ u = d.knots d.n) : value (part d off fin) u = value d u := by
  have ho := h.order
  obtain ⟨-, sp⟩ := part_spec d h off fin h1 h2
  have e0 : off + (fin + 1 - off) = fin + 1 := by omega
  have ke : (part d off fin).knots (part d off fin).n = d.knots (fin + 1) := by
    show d.knots (off + (fin + 1 - off)) = _
    rw [e0]
  unfold value
  rw [ke]
  rcases hu' with hl | ⟨hf, hl⟩
  · rw [if_pos hl, if_pos (lt_of_lt_of_le hl (h.mono _ _ (by omega) (by omega)))]
    exact sp u hu hl
  · rw [if_neg (by rw [hl, hf, show d.n - 1 + 1 = d.n by omega]; exact lt_irrefl _), if_neg (by rw [hl]; exact lt_irrefl _)]
    show d.pts (off + (fin + 1 - off - 1)) = _
    congr 1
    omega

theorem Wf.of_shape (c d : Curve K V) (e : shape c = shape d) (h : Wf c) : Wf d := by
  obtain ⟨o, n, k, P⟩ := c
  obtain ⟨o', n', k', Q⟩ := d
  obtain ⟨e1, e2, e3⟩ := (shape_iff _ _).1 e
  simp only at e1 e2 e3
  subst e1 e2 e3
  exact ⟨h.order, h.pts, h.mono⟩

theorem Cutted.legal (c c' : Curve K V) (num m : Nat) (l : List Nat) (hc : Cutted c c' num m l) : Legal c' := by
  have hd' : c'.degree = c.degree := by unfold Curve.degree; rw [hc.order]
  exact ⟨hc.wf, hc.simple, by rw [hd', hc.first, hc.start], by rw [hd', hc.fin, hc.last]⟩

/-- What is needed of a pair of points where a part begins and ends. -/
structure Range (k : Nat → K) (o n off fin : Nat) (lo hi : K) : Prop where
  room : off + o ≤ fin + 1
  inside : fin < n
  a : k off = lo
  b : k (off + (o - 1)) = lo
  c : k (fin + 1) = hi
  d : k (fin + 1 + (o - 1)) = hi

theorem cut_ranges (c c' : Curve K V) (h : Legal c) (hp : 1 ≤ c.degree) (num : Nat) (hn : 0 < num) (l : List Nat) (hc : Cutted c c' num (num - 1) l) (j : Nat)
    (hj : j < num) : ∃ off fin, (ranges 0 (l ++ [c'.n - 1]))[j]? = some (off, fin) ∧ Range c'.knots c.order c'.n off fin (border c num j) (border c num (j + 1)) ∧
      (j + 1 = num → fin = c'.n - 1) := by
  obtain ⟨off, fin, e, p1, p2, p3, p4, p5, p6⟩ := cuts_parts c c' h hp num hn l hc j hj
  refine ⟨off, fin, e, ⟨p1, p2, p3, p4, p5, p6⟩, fun hjn => ?_⟩
  have e1 : (l ++ [c'.n - 1])[j]? = some (c'.n - 1) := by
    rw [List.getElem?_append_right (by rw [hc.length]; omega), hc.length, show j - (num - 1) = 0 by omega]
    rfl
  rw [ranges_get _ 0 j _ e1] at e
  simp only [Option.some.injEq, Prod.mk.injEq] at e
  exact e.2.symm

/-- One piece of a surface. -/
def Surf.piece (s : Surf K V) (u0 u1 v0 v1 : Nat) : Surf K V := (s.mapU fun c => part c u0 u1).mapV fun c => part c v0 v1

theorem Surf.piece_spec (s : Surf K V) (h : s.Legal) (u0 u1 v0 v1 : Nat) (a b c d : K) (hu : Range s.uKnots s.uOrder s.nu u0 u1 a b)
    (hv : Range s.vKnots s.vOrder s.nv v0 v1 c d) :
    (s.piece u0 u1 v0 v1).Legal ∧ (s.piece u0 u1 v0 v1).uOrder = s.uOrder ∧ (s.piece u0 u1 v0 v1).vOrder = s.vOrder ∧
      (s.piece u0 u1 v0 v1).uKnots (s.uOrder - 1) = a ∧ (s.piece u0 u1 v0 v1).uKnots (s.piece u0 u1 v0 v1).nu = b ∧
      (s.piece u0 u1 v0 v1).vKnots (s.vOrder - 1) = c ∧ (s.piece u0 u1 v0 v1).vKnots (s.piece u0 u1 v0 v1).nv = d ∧
      ∀ u v, a ≤ u → (u < b ∨ u1 = s.nu - 1 ∧ u = s.uKnots s.nu) → c ≤ v → (v < d ∨ v1 = s.nv - 1 ∧ v = s.vKnots s.nv) →
        (s.piece u0 u1 v0 v1).value u v = s.value u v := by
  obtain ⟨p1, p2, p3, p4⟩ := h.pos s
  obtain ⟨s1, hs1⟩ : ∃ s1, s1 = s.mapU fun c => part c u0 u1 := ⟨_, rfl⟩
  have q1 : s1.uOrder = s.uOrder := by rw [hs1]; rfl
  have q2 : s1.vOrder = s.vOrder := by rw [hs1]; rfl
  have q3 : s1.nu = u1 + 1 - u0 := by rw [hs1]; rfl
  have q4 : s1.nv = s.nv := by rw [hs1]; rfl
  have q5 : s1.uKnots = fun i => s.uKnots (u0 + i) := by rw [hs1]; rfl
  have q6 : s1.vKnots = s.vKnots := by rw [hs1]; rfl
  have hur := hu.room
  have hvr := hv.room
  have l1 : Nurbs.Legal (s1.row 0) := by
    rw [hs1]
    exact Legal.of_shape (part (s.row 0) u0 u1) _ (s.mapU_row (fun c => part c u0 u1) rfl).symm
      (part_legal (s.row 0) h.u.wf h.u.simple u0 u1 hu.room hu.inside (hu.a.trans hu.b.symm) (hu.c.trans hu.d.symm))
  have c1 : Nurbs.Legal (s1.col 0) := by
    rw [hs1]
    exact Legal.of_shape (s.col 0) _ (s.mapU_col fun c => part c u0 u1) h.v
  have e1 : ∀ u v, a ≤ u → (u < b ∨ u1 = s.nu - 1 ∧ u = s.uKnots s.nu) → s1.value u v = s.value u v := by
    intro u v h1 h2
    rw [hs1]
    refine Surf.mapU_same s (fun c => part c u0 u1) (fun j => part_shape _ _ (s.row_shape j 0) _ _) rfl (show 1 ≤ u1 + 1 - u0 by omega) u v fun j => ?_
    exact part_val (s.row j) (s.legalU h j).wf u0 u1 hu.room hu.inside u (le_trans (le_of_eq hu.b) h1) (h2.imp_left (fun hh => lt_of_lt_of_eq hh hu.c.symm))
  obtain ⟨s2, hs2⟩ : ∃ s2, s2 = s1.mapV fun c => part c v0 v1 := ⟨_, rfl⟩
  have hp : s.piece u0 u1 v0 v1 = s2 := by rw [hs2, hs1]; rfl
  have r1 : s2.uOrder = s1.uOrder := by rw [hs2]; rfl
  have r2 : s2.vOrder = s1.vOrder := by rw [hs2]; rfl
  have r3 : s2.nu = s1.nu := by rw [hs2]; rfl
  have r4 : s2.nv = v1 + 1 - v0 := by rw [hs2]; rfl
  have r5 : s2.uKnots = s1.uKnots := by rw [hs2]; rfl
  have r6 : s2.vKnots = fun i => s1.vKnots (v0 + i) := by rw [hs2]; rfl
  have hv' : Range s1.vKnots s1.vOrder s1.nv v0 v1 c d := by rw [q6, q2, q4]; exact hv
  have l2 : s2.Legal := by
    rw [hs2]
    exact ⟨Legal.of_shape (s1.row 0) _ (s1.mapV_row fun c => part c v0 v1) l1,
      Legal.of_shape (part (s1.col 0) v0 v1) _ (s1.mapV_col (fun c => part c v0 v1) rfl).symm
      (part_legal (s1.col 0) c1.wf c1.simple v0 v1 hv'.room hv'.inside (hv'.a.trans hv'.b.symm) (hv'.c.trans hv'.d.symm))⟩
  have e2 : ∀ u v, c ≤ v → (v < d ∨ v1 = s1.nv - 1 ∧ v = s1.vKnots s1.nv) → s2.value u v = s1.value u v := by
    intro u v h1 h2
    rw [hs2]
    refine Surf.mapV_same s1 (fun c => part c v0 v1) (fun j => part_shape _ _ (s1.col_shape j 0) _ _) rfl (show 1 ≤ v1 + 1 - v0 by omega) (by omega) (by omega)
      u v fun i => ?_
    exact part_val (s1.col i) (Wf.of_shape _ _ (s1.col_shape 0 i) c1.wf) v0 v1 hv'.room hv'.inside v (le_trans (le_of_eq hv'.b) h1)
      (h2.imp_left (fun hh => lt_of_lt_of_eq hh hv'.c.symm))
  rw [hp]
  refine ⟨l2, by rw [r1, q1], by rw [r2, q2], ?_, ?_, ?_, ?_, fun u v h1 h2 h3 h4 => ?_⟩
  · rw [r5, q5]; exact hu.b
  · rw [r5, q5, r3, q3]
    show s.uKnots (u0 + (u1 + 1 - u0)) = b
    rw [show u0 + (u1 + 1 - u0) = u1 + 1 by omega]
    exact hu.c
  · rw [r6, q6]; exact hv.b
  · rw [r6, r4, q6]
    show s.vKnots (v0 + (v1 + 1 - v0)) = d
    rw [show v0 + (v1 + 1 - v0) = v1 + 1 by omega]
    exact hv.c
  · rw [e2 u v h3 (by rw [q4, q6]; exact h4), e1 u v h1 h2]

theorem Surf.segments_spec (s : Surf K V) (h : s.Legal) (hp : 2 ≤ s.uOrder) (hq : 2 ≤ s.vOrder) :
    ∃ L, s.segments = some L ∧ L.length = (1 + s.nv - s.vOrder) * (1 + s.nu - s.uOrder) ∧
      ∀ i j, i < 1 + s.nu - s.uOrder → j < 1 + s.nv - s.vOrder → ∃ S, L[j * (1 + s.nu - s.uOrder) + i]? = some S ∧ S.Legal ∧
        S.uOrder = s.uOrder ∧ S.vOrder = s.vOrder ∧
        S.uKnots (s.uOrder - 1) = border (s.row 0) (1 + s.nu - s.uOrder) i ∧ S.uKnots S.nu = border (s.row 0) (1 + s.nu - s.uOrder) (i + 1) ∧
        S.vKnots (s.vOrder - 1) = border (s.col 0) (1 + s.nv - s.vOrder) j ∧ S.vKnots S.nv = border (s.col 0) (1 + s.nv - s.vOrder) (j + 1) ∧
        ∀ u v, inCell (s.row 0) (1 + s.nu - s.uOrder) i u → inCell (s.col 0) (1 + s.nv - s.vOrder) j v → S.value u v = s.value u v := by
  have w1 : s.uOrder ≤ s.nu := h.u.wf.pts
  have w2 : s.vOrder ≤ s.nv := h.v.wf.pts
  obtain ⟨U, hU⟩ : ∃ U, U = 1 + s.nu - s.uOrder := ⟨_, rfl⟩
  obtain ⟨W, hW⟩ : ∃ W, W = 1 + s.nv - s.vOrder := ⟨_, rfl⟩
  rw [← hU, ← hW]
  obtain ⟨lu, c', eu, hcu, shu, vu⟩ := s.cutsU h hp U (by omega)
  unfold Surf.segments
  rw [← hU, ← hW]
  simp only
  rw [eu, Option.bind_some]
  simp only
  obtain ⟨s1, hs1⟩ : ∃ s1, s1 = s.tryU fun c => (cuts U (U - 1) c).map Prod.snd := ⟨_, rfl⟩
  have q1 : s1.uOrder = s.uOrder := by rw [hs1]; rfl
  have q2 : s1.vOrder = s.vOrder := by rw [hs1]; rfl
  have q4 : s1.nv = s.nv := by rw [hs1]; rfl
  have q6 : s1.vKnots = s.vKnots := by rw [hs1]; rfl
  have cs : shape (s.col 0) = shape (s1.col 0) := by rw [hs1]; exact s.mapU_col _
  rw [← hs1]
  rw [← hs1] at shu vu
  have q3 : s1.nu = c'.n := ((shape_iff _ _).1 shu).2.1.symm
  have q5 : s1.uKnots = c'.knots := ((shape_iff _ _).1 shu).2.2.symm
  have L1 : s1.Legal := ⟨Legal.of_shape _ _ shu hcu.legal, Legal.of_shape _ _ cs h.v⟩
  obtain ⟨lv, c'', ev, hcv, shv, vv⟩ := s1.cutsV L1 (by omega) W (by omega)
  rw [ev, Option.map_some]
  simp only
  obtain ⟨s2, hs2⟩ : ∃ s2, s2 = s1.tryV fun c => (cuts W (W - 1) c).map Prod.snd := ⟨_, rfl⟩
  have r1 : s2.uOrder = s1.uOrder := by rw [hs2]; rfl
  have r2 : s2.vOrder = s1.vOrder := by rw [hs2]; rfl
  have r3 : s2.nu = s1.nu := by rw [hs2]; rfl
  have r5 : s2.uKnots = s1.uKnots := by rw [hs2]; rfl
  have cs2 : shape (s1.row 0) = shape (s2.row 0) := by rw [hs2]; exact s1.mapV_row _
  rw [← hs2]
  rw [← hs2] at shv vv
  have r4 : s2.nv = c''.n := ((shape_iff _ _).1 shv).2.1.symm
  have r6 : s2.vKnots = c''.knots := ((shape_iff _ _).1 shv).2.2.symm
  have L2 : s2.Legal := ⟨Legal.of_shape _ _ cs2 L1.u, Legal.of_shape _ _ shv hcv.legal⟩
  have hb : ∀ j, border (s1.col 0) W j = border (s.col 0) W j := by
    intro j
    show s1.vKnots (s1.vOrder - 1) + (j : K) / (W : K) * (s1.vKnots s1.nv - s1.vKnots (s1.vOrder - 1)) =
      s.vKnots (s.vOrder - 1) + (j : K) / (W : K) * (s.vKnots s.nv - s.vKnots (s.vOrder - 1))
    rw [q6, q2, q4]
  have len : ∀ a ∈ ranges 0 (lv ++ [s2.nv - 1]), ((ranges 0 (lu ++ [s2.nu - 1])).map fun (x : Nat × Nat) => s2.piece x.1 x.2 a.1 a.2).length = U := by
    intro a _
    rw [List.length_map, ranges_length, List.length_append, hcu.length]
    simp
    omega
  refine ⟨_, rfl, ?_, fun i j hi hj => ?_⟩
  · refine (flatMap_length _ _ U len).trans ?_
    rw [ranges_length, List.length_append, hcv.length]
    simp
    left
    omega
  · obtain ⟨u0, u1, gu, Ru, fu⟩ := cut_ranges (s.row 0) c' h.u (show 1 ≤ s.uOrder - 1 by omega) U (by omega) lu hcu i hi
    obtain ⟨v0, v1, gv, Rv, fv⟩ := cut_ranges (s1.col 0) c'' L1.v (show 1 ≤ s1.vOrder - 1 by omega) W (by omega) lv hcv j hj
    rw [← q3, ← r3] at gu
    rw [← r4] at gv
    have Ru' : Range s2.uKnots s2.uOrder s2.nu u0 u1 (border (s.row 0) U i) (border (s.row 0) U (i + 1)) := by
      rw [r5, q5, r1, q1, r3, q3]
      exact Ru
    have Rv' : Range s2.vKnots s2.vOrder s2.nv v0 v1 (border (s.col 0) W j) (border (s.col 0) W (j + 1)) := by
      rw [r6, r2, r4, ← hb, ← hb]
      exact Rv
    obtain ⟨z1, z2, z3, z4, z5, z6, z7, z8⟩ := s2.piece_spec L2 u0 u1 v0 v1 _ _ _ _ Ru' Rv'
    refine ⟨s2.piece u0 u1 v0 v1, ?_, z1, by rw [z2, r1, q1], by rw [z3, r2, q2], ?_, z5, ?_, z7, fun u v hu hv => ?_⟩
    · refine (flatMap_get _ _ U len j i hi (v0, v1) gv).trans ?_
      rw [List.getElem?_map, gu]
      rfl
    · rw [r1, q1] at z4; exact z4
    · rw [r2, q2] at z6; exact z6
    · have b1 : s.uKnots (s.uOrder - 1) ≤ u := by
        refine le_trans ?_ hu.1
        by_cases h0 : i = 0
        · rw [h0, border_zero]; exact le_refl _
        · rw [show s.uKnots (s.uOrder - 1) = border (s.row 0) U 0 from (border_zero (s.row 0) U).symm]
          exact (border_lt (s.row 0) (h.u.lt).2.2 U 0 i (by omega) (by omega)).le
      have b2 : s1.vKnots (s1.vOrder - 1) ≤ v := by
        rw [q6, q2]
        refine le_trans ?_ hv.1
        by_cases h0 : j = 0
        · rw [h0, border_zero]; exact le_refl _
        · rw [show s.vKnots (s.vOrder - 1) = border (s.col 0) W 0 from (border_zero (s.col 0) W).symm]
          exact (border_lt (s.col 0) (h.v.lt).2.2 W 0 j (by omega) (by omega)).le
      have b3 : s2.uKnots s2.nu = s.uKnots s.nu := by rw [r5, q5, r3, q3]; exact hcu.fin
      have b4 : s2.vKnots s2.nv = s.vKnots s.nv := by
        rw [r6, r4, hcv.fin]
        show s1.vKnots s1.nv = _
        rw [q6, q4]
      rw [z8 u v hu.1 (hu.2.imp_right fun hh => ⟨by rw [fu hh.1, r3, q3], by rw [b3]; exact hh.2⟩) hv.1
        (hv.2.imp_right fun hh => ⟨by rw [fv hh.1, r4], by rw [b4]; exact hh.2⟩), vv u v b2, vu u v b1]

end Verif.Geom.Nurbs
