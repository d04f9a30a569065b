import Verif.Geom.SubdLimitLemmas
import Verif.Geom.SubdDomLemmas
/-!
# Lemmas about limit points before and after a step of subdivision
-/
set_option linter.unusedSectionVars false
namespace Verif.Geom.Subd
open Verif.Geom.Lath

/-- `m'` has one facet of four laths `a l`, `b l`, `c l`, `d l` for each lath `l` of `m` in `D`: at the vertex of `l`, at the middle of the edge of `cf l`, at the middle of the facet, and at
the middle of the edge of `l`. -/
structure Refines (m m' : Mesh) (D : Nat → Prop) (a b c d : Nat → Nat) : Prop where
  lt : ∀ l, D l → a l < m'.laths ∧ b l < m'.laths ∧ c l < m'.laths ∧ d l < m'.laths
  distinct : ∀ l, D l → [a l, b l, c l, d l].Nodup
  inj : ∀ l, D l → ∀ x, D x → a l = a x → l = x
  cf_a : ∀ l, D l → m'.cf (a l) = b l
  cf_b : ∀ l, D l → m'.cf (b l) = c l
  cf_c : ∀ l, D l → m'.cf (c l) = d l
  cf_d : ∀ l, D l → m'.cf (d l) = a l
  cv_a : ∀ l, D l → m'.cv (a l) = (m.cv l).map a
  cv_b : ∀ l, D l → m'.cv (b l) = (m.ccv l).map d
  cv_c : ∀ l, D l → m'.cv (c l) = some (c (m.cf l))
  cv_d : ∀ l, D l → m'.cv (d (m.cf l)) = some (b l)

section
variable {K E : Type} [Field K] [LinearOrder K] [IsStrictOrderedRing K] [AddCommGroup E] [Module K E]

/-- The vertex variable `P'` of `m'` has the values that the masks give for the variable `P` of `m`. -/
structure Values (K : Type) {E : Type} [Field K] [LinearOrder K] [AddCommGroup E] [Module K E] (close : E → E → Bool) (m m' : Mesh) (D : Nat → Prop) (P P' : Nat → E) (h k : Nat → K) (a b c d : Nat → Nat) : Prop where
  at_a : ∀ l, D l → createVertex K close m .vertex P h k l = some (P' (m'.vert (a l)))
  at_b : ∀ l, D l → createEdgeVertex K close m .vertex P h (m.cf l) = some (P' (m'.vert (b l)))
  at_c : ∀ l, D l → createFaceVertex K m .vertex P l = some (P' (m'.vert (c l)))
  at_d : ∀ l, D l → createEdgeVertex K close m .vertex P h l = some (P' (m'.vert (d l)))

variable {m m' : Mesh} {a b c d : Nat → Nat} (O : Ok m) (O' : Ok m') {D : Nat → Prop} (H : Dom m D) (R : Refines m m' D a b c d)
include O O' H R

theorem Refines.ccv_a {l : Nat} (hl : D l) : m'.ccv (a l) = (m.ccv l).map a := by
  simp only [Mesh.ccv, Mesh.ec, R.cf_a l hl, R.cv_b l hl, Option.map_map]
  cases e : m.cv (m.cf l) with
  | none => simp
  | some x =>
    have hx := H.cv _ _ ((H.cf l (H.lt l hl)).2 hl) e
    have := (H.cf x (H.lt x hx)).2 hx
    simp [R.cf_d _ this]

theorem Refines.fan {l x : Nat} (hl : D l) (hf : Fan m l x) : Fan m' (a l) (a x) := by
  induction hf with
  | rel u w e => exact .rel _ _ ⟨(R.lt u hl).1, by rw [R.cv_a u hl, e.2]; rfl⟩
  | refl => exact .refl _
  | symm _ _ h ih => exact .symm _ _ (ih ((H.fan O h).2 hl))
  | trans _ _ _ h _ ih1 ih2 => exact .trans _ _ _ (ih1 hl) (ih2 ((H.fan O h).1 hl))

theorem Refines.fan_mem {l y : Nat} (hl : D l) (hf : Fan m' (a l) y) : ∃ x, Fan m l x ∧ a x = y := by
  refine (mem_of_eqvGen (A := fun y => ∃ x, Fan m l x ∧ a x = y) ?_ hf).1 ⟨l, .refl _, rfl⟩
  rintro u w ⟨hu, huw⟩
  constructor
  · rintro ⟨x, hx, rfl⟩
    have hxD := (H.fan O hx).1 hl
    rw [R.cv_a x hxD, Option.map_eq_some_iff] at huw
    obtain ⟨y, hy, rfl⟩ := huw
    exact ⟨y, .trans _ _ _ hx (.rel _ _ ⟨H.lt x hxD, hy⟩), rfl⟩
  · rintro ⟨x, hx, rfl⟩
    have hxD := (H.fan O hx).1 hl
    have hxN := H.lt x hxD
    have := O'.ccv_of_cv hu huw
    rw [R.ccv_a O O' H hxD, Option.map_eq_some_iff] at this
    obtain ⟨y, hy, rfl⟩ := this
    exact ⟨y, .trans _ _ _ hx (.symm _ _ (.rel _ _ ⟨O.ccv_lt hxN hy, O.cv_of_ccv hxN hy⟩)), rfl⟩

theorem Refines.isFan {l : Nat} (hl : D l) {L : List Nat} (hL : IsFan m l L) : IsFan m' (a l) (L.map a) := by
  have hN : ∀ x ∈ L, D x := fun x hx => (H.fan O ((hL.2 x).1 hx)).1 hl
  refine ⟨(List.nodup_map_iff_inj_on hL.1).2 fun x hx y hy e => R.inj x (hN x hx) y (hN y hy) e, fun y => ?_⟩
  rw [List.mem_map]
  constructor
  · rintro ⟨x, hx, rfl⟩; exact R.fan O O' H hl ((hL.2 x).1 hx)
  · intro hf
    obtain ⟨x, hx, e⟩ := R.fan_mem O O' H hl hf
    exact ⟨x, (hL.2 x).2 hx, e⟩

theorem Refines.inside {l : Nat} (hl : D l) (hi : Inside m l) : Inside m' (a l) := by
  intro y hy e
  obtain ⟨x, hx, rfl⟩ := R.fan_mem O O' H hl hy
  rw [R.ccv_a O O' H ((H.fan O hx).1 hl)] at e
  exact hi x hx (by simpa using e)

theorem Refines.isFacet {l : Nat} (hl : D l) : IsFacet m' (a l) [a l, b l, c l, d l] := by
  obtain ⟨ha, hb, hc, hd⟩ := R.lt l hl
  refine ⟨R.distinct l hl, fun x => ?_⟩
  constructor
  · have h1 : SameFacet m' (a l) (b l) := .rel _ _ ⟨ha, R.cf_a l hl⟩
    have h2 : SameFacet m' (a l) (c l) := .trans _ _ _ h1 (.rel _ _ ⟨hb, R.cf_b l hl⟩)
    have h3 : SameFacet m' (a l) (d l) := .trans _ _ _ h2 (.rel _ _ ⟨hc, R.cf_c l hl⟩)
    intro hx
    simp only [List.mem_cons, List.not_mem_nil, or_false] at hx
    rcases hx with rfl | rfl | rfl | rfl
    · exact .refl _
    · exact h1
    · exact h2
    · exact h3
  · intro hx
    refine (mem_of_eqvGen (A := fun y => y ∈ [a l, b l, c l, d l]) ?_ hx).1 (by simp)
    rintro u w ⟨hu, huw⟩
    simp only [List.mem_cons, List.not_mem_nil, or_false]
    constructor
    · rintro (rfl | rfl | rfl | rfl)
      · rw [R.cf_a l hl] at huw; tauto
      · rw [R.cf_b l hl] at huw; tauto
      · rw [R.cf_c l hl] at huw; tauto
      · rw [R.cf_d l hl] at huw; tauto
    · rintro (rfl | rfl | rfl | rfl)
      · have := O'.cf_inj _ hu _ hd (huw.trans (R.cf_d l hl).symm); tauto
      · have := O'.cf_inj _ hu _ ha (huw.trans (R.cf_a l hl).symm); tauto
      · have := O'.cf_inj _ hu _ hb (huw.trans (R.cf_b l hl).symm); tauto
      · have := O'.cf_inj _ hu _ hc (huw.trans (R.cf_c l hl).symm); tauto

theorem limit_step_inside (hd : ∀ x < m.laths, m.cf (m.cf x) ≠ x) (hd' : ∀ x < m'.laths, m'.cf (m'.cf x) ≠ x) {close : E → E → Bool} {P P' : Nat → E} {h k k' : Nat → K}
    (V : Values K close m m' D P P' h k a b c d) {l : Nat} (hlD : D l) (hi : Inside m l) (hne : m.cv l ≠ some l) (h0 : ∀ x, 0 ≤ h x) (hh : ∀ x, Fan m l x → h x = 0 ∧ h (m.cf x) = 0)
    (hk : k l ≤ 0) (hk' : k' (a l) ≤ 0) :
    limitPoint K m' (fun x => P' (m'.vert x)) k' (a l) = limitPoint K m (fun x => P (m.vert x)) k l := by
  have hl := H.lt l hlD
  obtain ⟨pf, hpf⟩ := exists_prev O
  obtain ⟨pf', hpf'⟩ := exists_prev O'
  obtain ⟨fp, hfp⟩ := exists_fp K O (fun x => P (m.vert x))
  obtain ⟨fp', hfp'⟩ := exists_fp K O' (fun x => P' (m'.vert x))
  obtain ⟨L, hL⟩ := exists_fan O hl
  have hDL : ∀ x ∈ L, D x := fun x hx => (H.fan O ((hL.2 x).1 hx)).1 hlD
  have hN : ∀ x ∈ L, x < m.laths := fun x hx => (O.fan_lt ((hL.2 x).1 hx)).1 hl
  have hL2 : 2 ≤ L.length := by
    have hlL : l ∈ L := (hL.2 l).2 (.refl _)
    cases e : m.ccv l with
    | none => exact absurd e (hi l (.refl _))
    | some y =>
      have hyl : y ≠ l := by rintro rfl; exact hne (O.cv_of_ccv hl e)
      have hyL : y ∈ L := (hL.2 y).2 (.symm _ _ (.rel _ _ ⟨O.ccv_lt hl e, O.cv_of_ccv hl e⟩))
      have : [l, y] ⊆ L := by intro z hz; simp at hz; rcases hz with rfl | rfl <;> assumption
      have hs := (List.subperm_of_subset (by simp [hyl.symm]) this).length_le
      simpa using hs
  obtain ⟨e1, e2, r, q, hp, hq1, hq2, hq3⟩ := exists_order h hL2
  have hvv : ∀ x y, Fan m x y → P (m.vert x) = P (m.vert y) := fun x y e => by rw [O.fan_vert e]
  have hvv' : ∀ x y, Fan m' x y → P' (m'.vert x) = P' (m'.vert y) := fun x y e => by rw [O'.fan_vert e]
  have hvl : ∀ x ∈ L, P (m.vert x) = P (m.vert l) := fun x hx => (hvv l x ((hL.2 x).1 hx)).symm
  have hi' := R.inside O O' H hlD hi
  have hLa := R.isFan O O' H hlD hL
  rw [limit_inside O hfp hpf hd hvv hl hi hk hL, limit_inside O' hfp' hpf' hd' hvv' (R.lt l hlD).1 hi' hk' hLa]
  congr 1
  -- the new vertex
  have hva : P' (m'.vert (a l)) = smooth (K := K) fp pf (fun x => P (m.vert x)) l L := by
    have h1 := V.at_a l hlD
    obtain ⟨bb, hb, hb2⟩ := O.boundary hl
    have hbf : bb = false := by
      cases bb
      · rfl
      · obtain ⟨x, hx, hx2⟩ := hb2.1 rfl
        exact absurd hx2 (hi x hx)
    subst hbf
    simp only [createVertex, vertexPoint, Cls.index, hb, Option.bind_some, Bool.false_eq_true, if_false, if_neg (not_lt.2 hk)] at h1
    have hF : IsFan m l (e1 :: e2 :: r) := ⟨hp.nodup_iff.1 hL.1, fun x => by rw [← hp.mem_iff]; exact hL.2 x⟩
    rw [creasePoint_eq O hfp hpf h0 hl hi hF hq1 hq2 hq3] at h1
    have he2 : h e2 = 0 := (hh e2 ((hF.2 e2).1 (by simp))).1
    have hqz : q = 0 := by
      rcases hq3 with ⟨_, rfl⟩ | ⟨⟨x, hx, rfl⟩, _⟩
      · rfl
      · exact (hh x ((hF.2 x).1 (by simp [hx]))).1
    rw [he2, hqz] at h1
    rw [smooth_perm hp, ← Option.some.inj h1]
    module
  -- the new edges
  have hfs : ∀ x < m.laths, fp (m.cf x) = fp x := by
    intro x hx
    obtain ⟨F, hF⟩ := exists_facet O hx
    have hF2 : IsFacet m (m.cf x) F := ⟨hF.1, fun y => (hF.2 y).trans
      ⟨fun e => .trans _ _ _ (.symm _ _ (.rel _ _ ⟨hx, rfl⟩)) e, fun e => .trans _ _ _ (.rel _ _ ⟨hx, rfl⟩) e⟩⟩
    have h1 := hfp x hx
    have h2 := hfp (m.cf x) (O.cf_lt _ hx)
    rw [facePoint_eq O hx hF] at h1
    rw [facePoint_eq O (O.cf_lt _ hx) hF2] at h2
    exact (Option.some.inj h2).symm.trans (Option.some.inj h1)
  have hvb : ∀ x ∈ L, P' (m'.vert (b x)) = (4 : K)⁻¹ • (P (m.vert (m.cf x)) + P (m.vert l) + fp x + fp ((m.ccv x).getD 0)) := by
    intro x hx
    have hxN := hN x hx
    have h1 := V.at_b x (hDL x hx)
    cases e : m.ccv x with
    | none => exact absurd e (hi x ((hL.2 x).1 hx))
    | some y =>
      have e' : m.ec (m.cf x) = some y := e
      simp only [createEdgeVertex, Cls.index, e', Option.isSome_some, if_true] at h1
      rw [edgePoint_eq O hfp hpf h (O.cf_lt _ hxN) e', (hh x ((hL.2 x).1 hx)).2, pf_unique O hpf hxN rfl, hfs x hxN] at h1
      rw [← Option.some.inj h1, hvl x hx, Option.getD_some]
      module
  have hcv : ∀ x ∈ L, ∃ y ∈ L, m.cv x = some y ∧ m.ec x = some (m.cf y) := by
    intro x hx
    obtain ⟨F, _, f2, f3⟩ := O.fan_all hl
    have hcl : ∃ y, Fan m l y ∧ m.cv x = some y := by
      rcases f3.2.2.2 with ⟨_, u, _⟩ | ⟨z, s, _, hs, _, g1, _⟩
      · obtain ⟨y, hy, e⟩ := u x ((f3.2.2.1 x).2 ((hL.2 x).1 hx))
        exact ⟨y, (f3.2.2.1 y).1 hy, e⟩
      · exact absurd g1 (hi s ((f3.2.2.1 s).1 hs))
    obtain ⟨y, hy, e⟩ := hcl
    exact ⟨y, (hL.2 y).2 hy, e, by simp [Mesh.ec, e]⟩
  have hvd : ∀ x ∈ L, P' (m'.vert (d x)) = (4 : K)⁻¹ • (P (m.vert l) + P (m.vert (pf x)) + fp x + fp ((m.ec x).getD 0)) := by
    intro x hx
    have hxN := hN x hx
    have h1 := V.at_d x (hDL x hx)
    obtain ⟨y, _, _, e'⟩ := hcv x hx
    simp only [createEdgeVertex, Cls.index, e', Option.isSome_some, if_true] at h1
    rw [edgePoint_eq O hfp hpf h hxN e', (hh x ((hL.2 x).1 hx)).1] at h1
    rw [← Option.some.inj h1, hvl x hx, e', Option.getD_some]
    module
  have hvc : ∀ x ∈ L, P' (m'.vert (c x)) = fp x := by
    intro x hx
    have h1 := V.at_c x (hDL x hx)
    simp only [createFaceVertex, Cls.index] at h1
    rw [hfp x (hN x hx)] at h1
    exact (Option.some.inj h1).symm
  have hva' : ∀ x ∈ L, P' (m'.vert (a x)) = P' (m'.vert (a l)) := fun x hx => (hvv' _ _ (R.fan O O' H hlD ((hL.2 x).1 hx))).symm
  have hfp4 : ∀ x ∈ L, (4 : K) • fp' (a x) = P' (m'.vert (a l)) + P' (m'.vert (b x)) + fp x + P' (m'.vert (d x)) := by
    intro x hx
    have h1 := hfp' (a x) (R.lt x (hDL x hx)).1
    rw [facePoint_eq O' (R.lt x (hDL x hx)).1 (R.isFacet O O' H (hDL x hx))] at h1
    rw [← Option.some.inj h1]
    simp only [List.map_cons, List.map_nil, List.sum_cons, List.sum_nil, List.length_cons, List.length_nil, hva' x hx, hvc x hx]
    push_cast
    match_scalars <;> norm_num
  have hpfa : ∀ x ∈ L, pf' (a x) = d x := fun x hx => pf_unique O' hpf' (R.lt x (hDL x hx)).2.2.2 (R.cf_d x (hDL x hx))
  -- the sums
  have s1 : (L.map fun x => P (m.vert (m.cf x))).sum = (L.map fun x => P (m.vert (pf x))).sum := ends_perm O hpf hvv hl hi hL (v := fun x => P (m.vert x))
  have s2 : (L.map fun x => fp ((m.ccv x).getD 0)).sum = (L.map fp).sum := sum_ccv O hl hi hL fp
  have s3 : (L.map fun x => fp ((m.ec x).getD 0)).sum = (L.map fp).sum := by
    have : (L.map fun x => fp ((m.ec x).getD 0)) = L.map fun x => fp ((m.cv x).getD 0) := by
      refine List.map_congr_left fun x hx => ?_
      obtain ⟨y, hy, e, e'⟩ := hcv x hx
      rw [e, e', Option.getD_some, Option.getD_some, hfs y (hN y hy)]
    rw [this]
    -- the links forward permute the fan
    have hnd : (L.map fun x => (m.cv x).getD 0).Nodup := (List.nodup_map_iff_inj_on hL.1).2 (by
      intro x hx y hy e
      obtain ⟨u, _, u1, _⟩ := hcv x hx
      obtain ⟨w, _, w1, _⟩ := hcv y hy
      rw [u1, w1, Option.getD_some, Option.getD_some] at e
      exact O.cv_inj (hN x hx) (hN y hy) u1 (e ▸ w1))
    have hsub : (L.map fun x => (m.cv x).getD 0) ⊆ L := by
      intro y hy
      obtain ⟨x, hx, rfl⟩ := List.mem_map.1 hy
      obtain ⟨u, hu, u1, _⟩ := hcv x hx
      rw [u1]; exact hu
    have hp : (L.map fun x => (m.cv x).getD 0).Perm L := (hnd.subperm hsub).perm_of_length_le (by simp)
    rw [← (hp.map fp).sum_eq, List.map_map]
    rfl
  have sb : (L.map fun x => P' (m'.vert (b x))).sum = (4 : K)⁻¹ • ((L.map fun x => P (m.vert (pf x))).sum + (L.length : K) • P (m.vert l) + (2 : K) • (L.map fp).sum) := by
    rw [List.map_congr_left hvb]
    have : (L.map fun x => (4 : K)⁻¹ • (P (m.vert (m.cf x)) + P (m.vert l) + fp x + fp ((m.ccv x).getD 0))).sum =
        (4 : K)⁻¹ • ((L.map fun x => P (m.vert (m.cf x))).sum + (L.length : K) • P (m.vert l) + (L.map fp).sum + (L.map fun x => fp ((m.ccv x).getD 0)).sum) := by
      clear hL hN hDL hvl hvb hcv hvd hvc hva' hfp4 hpfa s1 s2 s3 hL2 hp hLa hva
      induction L with
      | nil => simp
      | cons x L ih => simp only [List.map_cons, List.sum_cons, ih, List.length_cons, Nat.cast_add, Nat.cast_one]; module
    rw [this, s1, s2]; module
  have sd : (L.map fun x => P' (m'.vert (d x))).sum = (4 : K)⁻¹ • ((L.map fun x => P (m.vert (pf x))).sum + (L.length : K) • P (m.vert l) + (2 : K) • (L.map fp).sum) := by
    rw [List.map_congr_left hvd]
    have : (L.map fun x => (4 : K)⁻¹ • (P (m.vert l) + P (m.vert (pf x)) + fp x + fp ((m.ec x).getD 0))).sum =
        (4 : K)⁻¹ • ((L.map fun x => P (m.vert (pf x))).sum + (L.length : K) • P (m.vert l) + (L.map fp).sum + (L.map fun x => fp ((m.ec x).getD 0)).sum) := by
      clear hL hN hDL hvl hvb hcv hvd hvc hva' hfp4 hpfa s1 s2 s3 hL2 hp hLa hva sb
      induction L with
      | nil => simp
      | cons x L ih => simp only [List.map_cons, List.sum_cons, ih, List.length_cons, Nat.cast_add, Nat.cast_one]; module
    rw [this, s3]; module
  have sL : (L.map fun x => (4 : K) • P (m.vert (pf x)) + ((4 : K) • fp x - P (m.vert l) - P (m.vert (m.cf x)) - P (m.vert (pf x)))).sum =
      (2 : K) • (L.map fun x => P (m.vert (pf x))).sum + (4 : K) • (L.map fp).sum - (L.length : K) • P (m.vert l) := by
    have : (L.map fun x => (4 : K) • P (m.vert (pf x)) + ((4 : K) • fp x - P (m.vert l) - P (m.vert (m.cf x)) - P (m.vert (pf x)))).sum =
        (3 : K) • (L.map fun x => P (m.vert (pf x))).sum + (4 : K) • (L.map fp).sum - (L.length : K) • P (m.vert l) - (L.map fun x => P (m.vert (m.cf x))).sum := by
      clear hL hN hDL hvl hvb hcv hvd hvc hva' hfp4 hpfa s1 s2 s3 hL2 hp hLa hva sb sd
      induction L with
      | nil => simp
      | cons x L ih => simp only [List.map_cons, List.sum_cons, ih, List.length_cons, Nat.cast_add, Nat.cast_one]; module
    rw [this, s1]; module
  have sL' : ((L.map a).map fun x => (4 : K) • P' (m'.vert (pf' x)) + ((4 : K) • fp' x - P' (m'.vert (a l)) - P' (m'.vert (m'.cf x)) - P' (m'.vert (pf' x)))).sum =
      (4 : K) • (L.map fun x => P' (m'.vert (d x))).sum + (L.map fp).sum := by
    rw [List.map_map]
    have : (L.map ((fun x => (4 : K) • P' (m'.vert (pf' x)) + ((4 : K) • fp' x - P' (m'.vert (a l)) - P' (m'.vert (m'.cf x)) - P' (m'.vert (pf' x)))) ∘ a)) =
        L.map fun x => (4 : K) • P' (m'.vert (d x)) + fp x := by
      refine List.map_congr_left fun x hx => ?_
      simp only [Function.comp_apply, hpfa x hx, hfp4 x hx, R.cf_a x (hDL x hx)]
      module
    rw [this]
    clear hL hN hDL hvl hvb hcv hvd hvc hva' hfp4 hpfa s1 s2 s3 hL2 hp hLa hva sb sd sL this
    induction L with
    | nil => simp
    | cons x L ih => simp only [List.map_cons, List.sum_cons, ih]; module
  rw [sL, sL', sd, hva, List.length_map]
  -- the vertex
  have hsm : ((L.length : K) ^ 2) • smooth (K := K) fp pf (fun x => P (m.vert x)) l L =
      (L.map fp).sum + (L.map fun x => P (m.vert (pf x))).sum + ((L.length : K) * (L.length - 2)) • P (m.vert l) := by
    have hn : (L.length : K) ≠ 0 := Nat.cast_ne_zero.2 (by omega)
    have : (L.map fun x => (2 : K)⁻¹ • (P (m.vert l) + P (m.vert (pf x)))).sum = (2 : K)⁻¹ • ((L.length : K) • P (m.vert l) + (L.map fun x => P (m.vert (pf x))).sum) := by
      clear hL hN hDL hvl hvb hcv hvd hvc hva' hfp4 hpfa s1 s2 s3 hL2 hp hLa hva sb sd sL sL' hn
      induction L with
      | nil => simp
      | cons x L ih => simp only [List.map_cons, List.sum_cons, ih, List.length_cons, Nat.cast_add, Nat.cast_one]; module
    simp only [smooth]
    rw [this]
    generalize (L.map fp).sum = A
    generalize (L.map fun x => P (m.vert (pf x))).sum = B
    generalize (L.length : K) = n at hn ⊢
    match_scalars
    all_goals field_simp
    ring
  rw [hsm]
  generalize (L.map fp).sum = A
  generalize (L.map fun x => P (m.vert (pf x))).sum = B
  generalize (L.length : K) = n
  module

theorem limit_step_boundary (N : NoLoop m) {close : E → E → Bool} {P P' : Nat → E} {h k k' : Nat → K}
    (V : Values K close m m' D P P' h k a b c d) {l : Nat} (hlD : D l) (hb : ¬ Inside m l) (hk : k l ≤ 0) (hk' : k' (a l) ≤ 0) :
    limitPoint K m' (fun x => P' (m'.vert x)) k' (a l) = limitPoint K m (fun x => P (m.vert x)) k l := by
  have hl := H.lt l hlD
  obtain ⟨pf, hpf⟩ := exists_prev O
  obtain ⟨pf', hpf'⟩ := exists_prev O'
  obtain ⟨x, hx⟩ := not_forall.1 hb
  push Not at hx
  obtain ⟨F, z, s, _, hF, hz, hs, _, hs2, hz2, _⟩ := open_fan O hl ⟨x, hx⟩
  have hz := (hF.2 z).1 hz
  have hs := (hF.2 s).1 hs
  have hzN := (O.fan_lt hz).1 hl
  have hsN := (O.fan_lt hs).1 hl
  have hzD := (H.fan O hz).1 hlD
  have hsD := (H.fan O hs).1 hlD
  have hcz : m'.cv (a z) = none := by rw [R.cv_a z hzD, hz2]; rfl
  have hcs : m'.ccv (a s) = none := by rw [R.ccv_a O O' H hsD, hs2]; rfl
  rw [limit_boundary O hpf hl hk hz hz2 hs hs2, limit_boundary O' hpf' (R.lt l hlD).1 hk' (R.fan O O' H hlD hz) hcz (R.fan O O' H hlD hs) hcs]
  have h1 := V.at_a l hlD
  obtain ⟨bb, hb1, hb2⟩ := O.boundary hl
  obtain rfl : bb = true := hb2.2 ⟨x, hx⟩
  simp only [createVertex, vertexPoint, Cls.index, hb1, Option.bind_some, if_true] at h1
  rw [boundaryPoint_eq O N hpf hl hz hz2 hs hs2] at h1
  have h1 := Option.some.inj h1
  by_cases hzs : z = s
  · rw [if_pos hzs] at h1
    rw [if_pos hzs, if_pos (by rw [hzs]), h1]
  · have hzs' : ¬ a z = a s := fun e => hzs (R.inj z hzD s hsD e)
    rw [if_neg hzs] at h1
    rw [if_neg hzs, if_neg hzs', ← h1]
    have h2 := V.at_d z hzD
    have hez : m.ec z = none := by simp [Mesh.ec, hz2]
    simp only [createEdgeVertex, Cls.index, hez, Option.isSome_none, Bool.false_eq_true, if_false, midPoint_eq O hpf hzN] at h2
    have h2 := Option.some.inj h2
    have h3 := V.at_b s hsD
    have hes : m.ec (m.cf s) = none := hs2
    simp only [createEdgeVertex, Cls.index, hes, Option.isSome_none, Bool.false_eq_true, if_false, midPoint_eq O hpf (O.cf_lt _ hsN), pf_unique O hpf hsN rfl] at h3
    have h3 := Option.some.inj h3
    have hpz : pf' (a z) = d z := pf_unique O' hpf' (R.lt z hzD).2.2.2 (R.cf_d z hzD)
    rw [hpz, R.cf_a s hsD, ← h2, ← h3, O.fan_vert hz, O.fan_vert hs]
    congr 1
    match_scalars <;> ring

end
end Verif.Geom.Subd
