import Verif.Geom.SubdLinkLemmas
/-!
# Lemmas about the facets that are subdivided: their laths, and that all values exist
-/
set_option linter.unusedSectionVars false
namespace Verif.Geom.Subd
open Verif.Geom.Lath

/-- No facet visits a vertex twice, and each has three vertices. -/
structure Simple (m : Mesh) : Prop where
  once : ∀ x y, x < m.laths → SameFacet m x y → m.vert x = m.vert y → x = y
  three : ∀ x < m.laths, m.cf (m.cf x) ≠ x

/-- Facets and their neighbours. -/
structure Dom (m : Mesh) (D : Nat → Prop) : Prop where
  lt : ∀ l, D l → l < m.laths
  cf : ∀ l < m.laths, (D (m.cf l) ↔ D l)
  cv : ∀ l x, D l → m.cv l = some x → D x

section
variable {m : Mesh} (O : Ok m) (I : Simple m)
include O

theorem sameEdge_symm {l x : Nat} (h : SameEdge m l x) : SameEdge m x l := by
  rcases h with h | h | h
  · exact .inl h.symm
  · exact .inr (.inr h)
  · exact .inr (.inl h)

theorem sameEdge_iff {l x : Nat} (_hl : l < m.laths) (hx : x < m.laths) : SameEdge m l x ↔ l = x ∨ m.ec l = some x := by
  constructor
  · rintro (h | h | h)
    · exact .inl h
    · exact .inr h
    · exact .inr (O.ec_ec hx h)
  · rintro (h | h)
    · exact .inl h
    · exact .inr (.inl h)

theorem sameEdge_trans {l x y : Nat} (hl : l < m.laths) (hx : x < m.laths) (hy : y < m.laths) (h1 : SameEdge m l x) (h2 : SameEdge m x y) : SameEdge m l y := by
  rw [sameEdge_iff O hl hx] at h1
  rw [sameEdge_iff O hx hy] at h2
  rcases h1 with rfl | h1
  · rcases h2 with h2 | h2
    · exact .inl h2
    · exact .inr (.inl h2)
  · rcases h2 with rfl | h2
    · exact .inr (.inl h1)
    · rw [O.ec_ec hl h1] at h2
      cases h2
      exact .inl rfl

theorem Dom.ec {D : Nat → Prop} (H : Dom m D) {l x : Nat} (hl : D l) (e : m.ec l = some x) : D x := by
  simp only [Mesh.ec, Option.map_eq_some_iff] at e
  obtain ⟨z, h1, rfl⟩ := e
  exact (H.cf z (O.cv_lt _ (H.lt _ hl) _ h1)).2 (H.cv l z hl h1)

theorem Dom.fan {D : Nat → Prop} (H : Dom m D) {l x : Nat} (h : Fan m l x) : D l ↔ D x := by
  refine mem_of_eqvGen (A := D) ?_ h
  rintro a b ⟨ha, hb⟩
  refine ⟨fun h => H.cv a b h hb, fun h => ?_⟩
  have hbN := O.cv_lt _ ha _ hb
  exact H.ec O ((H.cf b hbN).2 h) (O.ccv_of_cv ha hb)

theorem Dom.facet {D : Nat → Prop} (H : Dom m D) {l x : Nat} (h : SameFacet m l x) : D l ↔ D x := by
  refine mem_of_eqvGen (A := D) ?_ h
  rintro a b ⟨ha, rfl⟩
  exact (H.cf a ha).symm

/-- The laths of a facet in order. -/
theorem facet_get {l : Nat} (hl : l < m.laths) : ∃ L, m.Qfe l = some L ∧ L.Nodup ∧ (∀ x, x ∈ L ↔ SameFacet m l x) ∧ 0 < L.length ∧ L.getD 0 0 = l ∧
    ∀ i < L.length, L.getD ((i + 1) % L.length) 0 = m.cf (L.getD i 0) := by
  obtain ⟨L, h1, h2, h3, h4⟩ := O.facet_mem hl
  obtain ⟨a, z, e1, e2, e3, e4, e5, e6⟩ := O.face hl
  rw [e1] at h1
  cases h1
  refine ⟨l :: a, e1, h2, h4, by simp, rfl, fun i hi => ?_⟩
  by_cases hlast : i + 1 < (l :: a).length
  · rw [Nat.mod_eq_of_lt hlast, List.getD_eq_getElem _ _ hlast, List.getD_eq_getElem _ _ hi]
    exact (List.isChain_iff_getElem.1 e4 i hlast).symm
  · have hi2 : i + 1 = (l :: a).length := by omega
    rw [hi2, Nat.mod_self, List.getD_eq_getElem _ _ hi]
    have : (l :: a)[i] = z := by
      rw [List.getLast?_eq_getElem?] at e5
      have hi3 : (l :: a).length - 1 = i := by omega
      rw [hi3, List.getElem?_eq_getElem hi] at e5
      exact Option.some.inj e5
    rw [this, e6]
    rfl

include I

theorem Simple.noLoop : NoLoop m := by
  intro l hl e
  have h := I.once l (m.cf l) hl (.rel _ _ ⟨hl, rfl⟩) e.symm
  exact I.three l hl (by rw [← h]; exact h.symm)

theorem Simple.fan {x y : Nat} (hx : x < m.laths) (h : SameFacet m x y) (hf : Fan m x y) : x = y := I.once x y hx h (O.fan_vert hf).symm

theorem Simple.edge {x y : Nat} (hx : x < m.laths) (h : SameFacet m x y) (hf : SameEdge m x y) : x = y := by
  have hy := (O.facet_lt h).1 hx
  rw [sameEdge_iff O hx hy] at hf
  rcases hf with hf | hf
  · exact hf
  · exfalso
    simp only [Mesh.ec, Option.map_eq_some_iff] at hf
    obtain ⟨z, h1, rfl⟩ := hf
    have hz := O.cv_lt _ hx _ h1
    have hzf : SameFacet m x z := .trans _ _ _ h (.symm _ _ (.rel _ _ ⟨hz, rfl⟩))
    have := I.fan O hx hzf (.rel _ _ ⟨hx, h1⟩)
    subst this
    obtain ⟨y, hy1, hy2, hy3⟩ := O.back hx h1
    have hcf := O.cf_lt _ hx
    have hyf : SameFacet m (m.cf x) y := .trans _ _ _ (.symm _ _ (.rel _ _ ⟨hx, rfl⟩)) (.symm _ _ (.rel _ _ ⟨hy1, hy3⟩))
    have := I.fan O hcf hyf (.rel _ _ ⟨hcf, hy2⟩)
    subst this
    exact I.three x hx hy3

theorem Simple.not_self {x : Nat} (hx : x < m.laths) : m.cv x ≠ some x := by
  intro h
  have := I.edge O hx (y := m.cf x) (.rel _ _ ⟨hx, rfl⟩) (.inr (.inl (O.ec_of_cv h)))
  exact I.noLoop O x hx (by rw [← this])

section
variable {K E : Type} [Field K] [LinearOrder K] [IsStrictOrderedRing K] [AddCommGroup E] [Module K E]

theorem total_vertexPoint (v : Nat → E) {h : Nat → K} (h0 : ∀ x, 0 ≤ h x) (c : Nat → K) {l : Nat} (hl : l < m.laths) : ∃ p, vertexPoint K m v h c l = some p := by
  obtain ⟨pf, hpf⟩ := exists_prev O
  obtain ⟨fp, hfp⟩ := exists_fp K O v
  obtain ⟨b, hb, hb2⟩ := O.boundary hl
  simp only [vertexPoint, hb, Option.bind_some]
  cases b with
  | true =>
    obtain ⟨F, z, s, _, hF, hz, hs, _, hs2, hz2, _⟩ := open_fan O hl (hb2.1 rfl)
    exact ⟨_, boundaryPoint_eq O (I.noLoop O) hpf hl ((hF.2 z).1 hz) hz2 ((hF.2 s).1 hs) hs2⟩
  | false =>
    have hi : Inside m l := fun x hx e => by simpa using hb2.2 ⟨x, hx, e⟩
    simp only [Bool.false_eq_true, if_false]
    by_cases hc : 0 < c l
    · rw [if_pos hc]; exact ⟨_, rfl⟩
    · rw [if_neg hc]
      obtain ⟨L, hL⟩ := exists_fan O hl
      have hL2 : 2 ≤ L.length := by
        have hlL : l ∈ L := (hL.2 l).2 (.refl _)
        cases e : m.ccv l with
        | none => exact absurd e (hi l (.refl _))
        | some y =>
          have hyl : y ≠ l := by rintro rfl; exact I.not_self O hl (O.cv_of_ccv hl e)
          have hyL : y ∈ L := (hL.2 y).2 (.symm _ _ (.rel _ _ ⟨O.ccv_lt hl e, O.cv_of_ccv hl e⟩))
          have : [l, y] ⊆ L := by intro z hz; simp at hz; rcases hz with rfl | rfl <;> assumption
          have hs := (List.subperm_of_subset (by simp [hyl.symm]) this).length_le
          simpa using hs
      obtain ⟨e1, e2, r, q, hp, hq1, hq2, hq3⟩ := exists_order h hL2
      have hF : IsFan m l (e1 :: e2 :: r) := ⟨hp.nodup_iff.1 hL.1, fun x => by rw [← hp.mem_iff]; exact hL.2 x⟩
      exact ⟨_, creasePoint_eq O hfp hpf h0 hl hi hF hq1 hq2 hq3⟩

theorem total_vertex (close : E → E → Bool) (k : Cls) (P : Nat → E) {h : Nat → K} (h0 : ∀ x, 0 ≤ h x) (c : Nat → K) : ∃ f : Nat → E, ∀ l < m.laths, createVertex K close m k P h c l = some (f l) := by
  have : ∀ l, ∃ p, l < m.laths → createVertex K close m k P h c l = some p := by
    intro l
    by_cases hl : l < m.laths
    · obtain ⟨p, hp⟩ := total_vertexPoint O I (fun x => P (k.index m x)) h0 c hl
      obtain ⟨F, hF, _⟩ := O.fan_all hl
      cases k with
      | vertex => exact ⟨p, fun _ => hp⟩
      | varying => exact ⟨_, fun _ => rfl⟩
      | faceVarying => exact ⟨_, fun _ => rfl⟩
      | faceVertex =>
        simp only [createVertex, discontinuousVertex, hF, Option.map_some, Option.bind_some]
        rw [hp]
        split
        · exact ⟨_, fun _ => rfl⟩
        · exact ⟨_, fun _ => rfl⟩
    · exact ⟨0, fun h => absurd h hl⟩
  exact ⟨fun l => (this l).choose, fun l hl => (this l).choose_spec hl⟩

omit I in
theorem total_edge (close : E → E → Bool) (k : Cls) (P : Nat → E) (h : Nat → K) : ∃ f : Nat → E, ∀ l < m.laths, createEdgeVertex K close m k P h l = some (f l) := by
  obtain ⟨pf, hpf⟩ := exists_prev O
  obtain ⟨fp, hfp⟩ := exists_fp K O (fun x => P (k.index m x))
  have : ∀ l, ∃ p, l < m.laths → createEdgeVertex K close m k P h l = some p := by
    intro l
    by_cases hl : l < m.laths
    · have hm := midPoint_eq (K := K) (v := fun x => P (k.index m x)) O hpf hl
      cases e : m.ec l with
      | none => cases k <;> exact ⟨_, fun _ => by simp only [createEdgeVertex, e, Option.isSome_none, Bool.false_eq_true, if_false, Bool.false_and]; exact hm⟩
      | some x =>
        have he := edgePoint_eq (K := K) (v := fun x => P (k.index m x)) O hfp hpf h hl e
        cases k with
        | vertex => exact ⟨_, fun _ => by simp only [createEdgeVertex, e, Option.isSome_some, if_true]; exact he⟩
        | varying => exact ⟨_, fun _ => by simp only [createEdgeVertex]; exact hm⟩
        | faceVarying => exact ⟨_, fun _ => by simp only [createEdgeVertex]; exact hm⟩
        | faceVertex =>
          simp only [createEdgeVertex]
          rw [he, hm]
          split
          · exact ⟨_, fun _ => rfl⟩
          · exact ⟨_, fun _ => rfl⟩
    · exact ⟨0, fun h => absurd h hl⟩
  exact ⟨fun l => (this l).choose, fun l hl => (this l).choose_spec hl⟩

omit I in
theorem total_face (k : Cls) (P : Nat → E) : ∃ f : Nat → E, ∀ l < m.laths, createFaceVertex K m k P l = some (f l) := exists_fp K O (fun x => P (k.index m x))

end
end

/-- Numbers for a larger set, such that two are equal for the same class of `R`. -/
theorem ext_iff {R : Nat → Nat → Prop} {S : Nat → Prop} {L : List Nat} {V G : Nat → Nat} {n : Nat} (hs : ∀ a b, R a b → R b a)
    (ht : ∀ a b c, (S a ∨ a ∈ L) → (S b ∨ b ∈ L) → (S c ∨ c ∈ L) → R a b → R b c → R a c) (hr : ∀ a, R a a) (hold : ∀ l x, S l → S x → (V l = V x ↔ R l x)) (hV : ∀ l, S l → V l < n)
    (hS : ∀ x ∈ L, ¬ S x) (hcase : ∀ x ∈ L, (∃ y, S y ∧ R x y ∧ G x = V y) ∨ (n ≤ G x ∧ ∀ y, S y → ¬ R x y)) (hinj : ∀ x ∈ L, ∀ y ∈ L, n ≤ G x → n ≤ G y → G x = G y → x = y)
    (hsep : ∀ x ∈ L, ∀ y ∈ L, R x y → x = y) (l x : Nat) (hl : S l ∨ l ∈ L) (hx : S x ∨ x ∈ L) :
    ((if l ∈ L then G l else V l) = (if x ∈ L then G x else V x) ↔ R l x) := by
  have hSL : ∀ y, S y → y ∉ L := fun y h1 h2 => hS y h2 h1
  have mixed : ∀ l x, l ∈ L → S x → (G l = V x ↔ R l x) := by
    intro l x hl hx
    rcases hcase l hl with ⟨y, h1, h2, h3⟩ | ⟨h1, h2⟩
    · rw [h3, hold y x h1 hx]
      exact ⟨fun h => ht _ _ _ (.inr hl) (.inl h1) (.inl hx) h2 h, fun h => ht _ _ _ (.inl h1) (.inr hl) (.inl hx) (hs _ _ h2) h⟩
    · have := hV x hx
      exact ⟨fun h => by omega, fun h => absurd h (h2 x hx)⟩
  rcases hl with hl | hl <;> rcases hx with hx | hx
  · rw [if_neg (hSL l hl), if_neg (hSL x hx)]; exact hold l x hl hx
  · rw [if_neg (hSL l hl), if_pos hx, eq_comm, mixed x l hx hl]
    exact ⟨hs _ _, hs _ _⟩
  · rw [if_pos hl, if_neg (hSL x hx)]; exact mixed l x hl hx
  · rw [if_pos hl, if_pos hx]
    constructor
    · intro h
      rcases hcase x hx with ⟨y, h1, h2, h3⟩ | ⟨h1, _⟩
      · rw [h3] at h
        exact ht _ _ _ (.inr hl) (.inl h1) (.inr hx) ((mixed l y hl h1).1 h) (hs _ _ h2)
      · rcases hcase l hl with ⟨y, g1, _, g3⟩ | ⟨g1, _⟩
        · have := hV y g1; omega
        · rw [hinj l hl x hx g1 h1 h]; exact hr x
    · intro h
      rw [hsep l hl x hx h]

end Verif.Geom.Subd
