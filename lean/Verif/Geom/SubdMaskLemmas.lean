import Verif.Geom.SubdLemmas
/-!
# Lemmas about the points of facets, edges and vertices
-/
set_option linter.unusedSectionVars false
namespace Verif.Geom.Subd
open Verif.Geom.Lath

section
variable {K E : Type} [Field K] [LinearOrder K] [IsStrictOrderedRing K] [AddCommGroup E] [Module K E]
variable {m : Mesh} (O : Ok m) {v : Nat → E} {fp : Nat → E} {pf : Nat → Nat}
include O

theorem facePoint_eq {l : Nat} (hl : l < m.laths) {L : List Nat} (hL : IsFacet m l L) : facePoint K m v l = some ((L.length : K)⁻¹ • (L.map v).sum) := by
  obtain ⟨L0, e1, e2, _, e4⟩ := O.facet_mem hl
  have p := hL.perm ⟨e2, e4⟩
  simp only [facePoint, e1, Option.map_some, avg, List.length_map]
  rw [p.length_eq, (p.map v).sum_eq]

theorem exists_facet {l : Nat} (hl : l < m.laths) : ∃ L, IsFacet m l L := by
  obtain ⟨L0, e1, e2, _, e4⟩ := O.facet_mem hl
  exact ⟨L0, e2, e4⟩

theorem exists_fan {l : Nat} (hl : l < m.laths) : ∃ L, IsFan m l L := by
  obtain ⟨F, _, e2, _, _, e4, _⟩ := O.fan_all hl
  exact ⟨F, e2, e4⟩

variable (K v) in
theorem exists_fp : ∃ fp : Nat → E, ∀ x < m.laths, facePoint K m v x = some (fp x) := by
  refine ⟨fun x => (facePoint K m v x).getD 0, fun x hx => ?_⟩
  obtain ⟨L, hL⟩ := exists_facet O hx
  simp only [facePoint_eq O hx hL, Option.getD_some]

theorem exists_prev : ∃ pf, Prev m pf := by
  classical
  refine ⟨fun x => if hx : x < m.laths then (O.cf_surj hx).choose else 0, fun x hx => ?_⟩
  simp only [hx, dif_pos]
  exact (O.cf_surj hx).choose_spec

theorem ccf_pf (P : Prev m pf) {x : Nat} (hx : x < m.laths) : m.ccf x = some (pf x) := O.ccf_eq (P x hx).1 (P x hx).2

theorem pf_unique (P : Prev m pf) {x y : Nat} (hx : x < m.laths) (e : m.cf x = y) : pf y = x := by
  have hy : y < m.laths := e ▸ O.cf_lt _ hx
  exact O.cf_inj _ (P y hy).1 _ hx ((P y hy).2.trans e.symm)

theorem midPoint_eq (P : Prev m pf) {l : Nat} (hl : l < m.laths) : midPoint K m v l = some ((2 : K)⁻¹ • (v l + v (pf l))) := by
  simp [midPoint, ccf_pf O P hl]

theorem edgePoint_eq (hf : ∀ x < m.laths, facePoint K m v x = some (fp x)) (P : Prev m pf) (h : Nat → K) {l x : Nat} (hl : l < m.laths) (e : m.ec l = some x) :
    edgePoint K m v h l = some (h l • ((2 : K)⁻¹ • (v l + v (pf l))) + (1 - h l) • ((4 : K)⁻¹ • (v l + v (pf l) + fp l + fp x))) := by
  have hx := O.ec_lt hl e
  have e1 : (Qef m l).mapM (facePoint K m v) = some [fp l, fp x] := by
    simp [Qef, e, List.mapM_cons, hf l hl, hf x hx]
  simp only [edgePoint, e1, ccf_pf O P hl, Option.bind_some, Option.map_some, avg, List.length_cons, List.length_nil, List.sum_cons, List.sum_nil, add_zero]
  congr 1
  norm_num
  module

/-! ## Boundaries -/

/-- The fan of a vertex on the boundary. -/
theorem open_fan {l : Nat} (hl : l < m.laths) (hb : ∃ x, Fan m l x ∧ m.ccv x = none) : ∃ F z s, m.Qvf l = some F ∧ IsFan m l F ∧ z ∈ F ∧ s ∈ F ∧ m.Qve l = some (F ++ [m.cf s]) ∧
    m.ccv s = none ∧ m.cv z = none ∧ (∀ x ∈ F, m.cv x = none → x = z) ∧ (∀ x ∈ F, m.ccv x = none → x = s) := by
  obtain ⟨F, e1, e2, _, e4, e5, e6⟩ := O.fan_all hl
  rcases e6 with ⟨_, a, b⟩ | ⟨z, s, hz, hs, q, f1, f2, f3, f4⟩
  · obtain ⟨x, hx, hx2⟩ := hb
    have hxF := (e5 x).2 hx
    obtain ⟨y, hy, hy2⟩ := b x hxF
    rw [O.ccv_of_cv (e4 y hy) hy2] at hx2; cases hx2
  · refine ⟨F, z, s, e1, ⟨e2, e5⟩, hz, hs, q, f1, f2, ?_, ?_⟩
    · intro x hx hc
      by_contra hne
      obtain ⟨y, _, hy⟩ := f3 x hx hne
      rw [hc] at hy; cases hy
    · intro x hx hc
      by_contra hne
      obtain ⟨y, hy, hy2⟩ := f4 x hx hne
      rw [O.ccv_of_cv (e4 y hy) hy2] at hc; cases hc

omit O in
theorem filter_one {α : Type} {p : α → Bool} : ∀ {F : List α} {z : α}, F.Nodup → z ∈ F → p z = true → (∀ x ∈ F, p x = true → x = z) → F.filter p = [z] := by
  intro F
  induction F with
  | nil => intro z _ h; cases h
  | cons u F ih =>
    intro z hd hz hp hu
    rw [List.nodup_cons] at hd
    by_cases c : p u = true
    · have := hu u (by simp) c
      subst this
      rw [List.filter_cons_of_pos c]
      congr 1
      rw [List.filter_eq_nil_iff]
      intro x hx hpx
      have := hu x (List.mem_cons_of_mem _ hx) hpx
      subst this; exact hd.1 hx
    · rw [List.filter_cons_of_neg c]
      rcases List.mem_cons.1 hz with rfl | hz
      · exact absurd hp c
      · exact ih hd.2 hz hp fun x hx => hu x (List.mem_cons_of_mem _ hx)

theorem boundaryPoint_eq (N : NoLoop m) (P : Prev m pf) {l z s : Nat} (hl : l < m.laths) (hz : Fan m l z) (hz2 : m.cv z = none) (hs : Fan m l s) (hs2 : m.ccv s = none) :
    boundaryPoint K m v l = some (if z = s then v l else (8 : K)⁻¹ • (v (pf z) + v (m.cf s) + (6 : K) • v l)) := by
  obtain ⟨F, z', s', _, hF, hz', hs', q, f1, f2, f3, f4⟩ := open_fan O hl ⟨s, hs, hs2⟩
  obtain rfl := f3 z ((hF.2 z).2 hz) hz2
  obtain rfl := f4 s ((hF.2 s).2 hs) hs2
  have hsN := (O.fan_lt hs).1 hl
  have hzN := (O.fan_lt hz).1 hl
  by_cases hzs : z = s
  · subst hzs
    have hc : m.isCornerVertex z = true := by
      simp only [Mesh.isCornerVertex, hz2, Option.isNone_none, Bool.true_and]
      simpa [Mesh.ccv, Mesh.ec] using hs2
    have hall := ((O.corner hzN).1 hc).2
    have hFz : F.length = 1 := by
      have : F.Perm [z] := (List.perm_ext_iff_of_nodup hF.1 (by simp)).2 fun x => by
        rw [hF.2 x, List.mem_singleton]
        exact ⟨fun e => hall x (.trans _ _ _ (.symm _ _ hz) e), fun e => e ▸ hz⟩
      simpa using this.length_eq
    simp [boundaryPoint, q, hFz]
  · have hlen : ¬ (F ++ [m.cf s]).length = 2 := by
      intro h2
      have h1 : F.length = 1 := by simpa using h2
      obtain ⟨w, rfl⟩ := List.length_eq_one_iff.1 h1
      simp at hz' hs'
      exact hzs (hz'.trans hs'.symm)
    have hfil : (F ++ [m.cf s]).filter (fun x => (m.ec x).isNone) = [z, m.cf s] := by
      rw [List.filter_append, filter_one hF.1 hz' (by simp [Mesh.ec, hz2]) (by
        intro x hx hx2
        exact f3 x hx (by simpa [Mesh.ec] using hx2))]
      have : (m.ec (m.cf s)).isNone = true := by simpa [Mesh.ccv] using hs2
      simp [this]
    have hv1 : m.vert z = m.vert l := O.fan_vert hz
    have hv2 : ¬ m.vert (m.cf s) = m.vert l := by rw [← O.fan_vert hs]; exact N s hsN
    simp only [boundaryPoint, q, Option.bind_some, if_neg hlen, hfil, if_neg hzs, List.mapM_cons, List.mapM_nil, if_pos hv1, if_neg hv2, ccf_pf O P hzN, Option.map_some]
    simp

/-! ## Vertices inside of the mesh -/

theorem closed_fan {l : Nat} (hl : l < m.laths) (hi : Inside m l) : ∃ F, m.Qvf l = some F ∧ m.Qve l = some F ∧ IsFan m l F ∧ F.head? = some l ∧ (∀ x ∈ F, x < m.laths) := by
  obtain ⟨F, e1, e2, e3, e4, e5, e6⟩ := O.fan_all hl
  rcases e6 with ⟨q, a, b⟩ | ⟨z, s, hz, hs, q, f1, f2, f3, f4⟩
  · exact ⟨F, e1, q, ⟨e2, e5⟩, e3, e4⟩
  · exact absurd f1 (hi s ((e5 s).1 hs))

/-- The position of a smooth vertex with the fan `L`: the averages of the facets, of the middles of the edges, and the vertex. -/
def smooth (fp : Nat → E) (pf : Nat → Nat) (v : Nat → E) (l : Nat) (L : List Nat) : E :=
  let n : K := L.length
  n⁻¹ • (n⁻¹ • (L.map fp).sum) + (2 / n) • (n⁻¹ • (L.map fun x => (2 : K)⁻¹ • (v l + v (pf x))).sum) + ((n - 3) / n) • v l

omit O [LinearOrder K] [IsStrictOrderedRing K] in
theorem smooth_perm {fp : Nat → E} {pf : Nat → Nat} {v : Nat → E} {l : Nat} {L L' : List Nat} (p : L.Perm L') : smooth (K := K) fp pf v l L = smooth (K := K) fp pf v l L' := by
  simp only [smooth, p.length_eq, (p.map fp).sum_eq, (p.map fun x => (2 : K)⁻¹ • (v l + v (pf x))).sum_eq]

theorem softPoint_eq (hf : ∀ x < m.laths, facePoint K m v x = some (fp x)) (P : Prev m pf) {l : Nat} {F : List Nat} (e1 : m.Qvf l = some F) (hN : ∀ x ∈ F, x < m.laths) :
    ∃ q, softPoint K m v F l = some (smooth (K := K) fp pf v l F, q) := by
  have h1 : F.mapM (facePoint K m v) = some (F.map fp) := mapM_map fun x hx => hf x (hN x hx)
  have h2 : (F.mapM fun x => (m.ccf x).map fun y => (2 : K)⁻¹ • (v l + v y)) = some (F.map fun x => (2 : K)⁻¹ • (v l + v (pf x))) :=
    mapM_map fun x hx => by simp [ccf_pf O P (hN x hx)]
  simp only [softPoint, e1, Option.bind_some, h1, h2, Option.map_some]
  refine ⟨_, congrArg some (Prod.ext ?_ rfl)⟩
  simp only [smooth]
  generalize (F.map fp).sum = a
  generalize (F.map fun x => (2 : K)⁻¹ • (v l + v (pf x))).sum = b
  generalize ((F.length : K)) = n
  rw [div_eq_mul_inv, div_eq_mul_inv]
  module

theorem creasePoint_eq (hf : ∀ x < m.laths, facePoint K m v x = some (fp x)) (P : Prev m pf) {h : Nat → K} (h0 : ∀ x, 0 ≤ h x) {l : Nat} (hl : l < m.laths) (hi : Inside m l)
    {e1 e2 : Nat} {r : List Nat} {k : K} (hF : IsFan m l (e1 :: e2 :: r)) (he : h e2 ≤ h e1) (hr : ∀ x ∈ r, h x ≤ h e2) (hk : Largest h r k) :
    creasePoint K m v h l = some ((1 - h e2) • smooth (K := K) fp pf v l (e1 :: e2 :: r) + (h e2 - k) • ((8 : K)⁻¹ • (v (pf e1) + v (pf e2) + (6 : K) • v l)) + k • v l) := by
  obtain ⟨F, q1, q2, hF', _, hN⟩ := closed_fan O hl hi
  have p := hF'.perm hF
  obtain ⟨q, hq⟩ := softPoint_eq (K := K) O hf P q1 hN
  obtain ⟨a, b, c, hE, hb, hc, hab, ha', hb'⟩ := hard_eq p hF'.1 he hr hk
  simp only [creasePoint, q2, Option.bind_some, hq, hE, Option.map_some, Option.getD_some, hb, hc, ccf_pf O P (hN a ha'), ccf_pf O P (hN b hb')]
  rw [smooth_perm p]
  by_cases hlt : k < h e2
  · have hk0 : 0 ≤ k := by
      rcases hk with ⟨_, rfl⟩ | ⟨⟨x, _, rfl⟩, _⟩
      · exact le_rfl
      · exact h0 x
    have hse : 2 ≤ (F.filter fun x => decide (0 < h x)).length := by
      have p3 := p.filter (fun x => decide (0 < h x))
      rw [p3.length_eq, List.filter_cons_of_pos (by simpa using (hk0.trans_lt hlt).trans_le he), List.filter_cons_of_pos (by simpa using hk0.trans_lt hlt)]
      simp
    rw [if_pos hse]
    simp only [Option.map_some]
    rcases hab hlt with ⟨rfl, rfl⟩ | ⟨rfl, rfl⟩
    · rfl
    · rw [add_comm (v (pf a)) (v (pf b))]
  · have hke : k = h e2 := by
      refine le_antisymm ?_ (not_lt.1 hlt)
      rcases hk with ⟨_, rfl⟩ | ⟨⟨x, hx, rfl⟩, _⟩
      · exact h0 e2
      · exact hr x hx
    rw [hke, sub_self, zero_smul]
    split
    · simp only [Option.map_some, zero_smul]
    · simp only [Option.map_some, zero_smul]

end
end Verif.Geom.Subd
