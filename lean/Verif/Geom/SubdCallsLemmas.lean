import Verif.Geom.SubdLevelLemmas
/-!
# Lemmas about calls of `SubdivideFace` for many facets
-/
set_option linter.unusedSectionVars false
namespace Verif.Geom.Subd
open Verif.Geom.Lath

section
variable {K E : Type} [Field K] [LinearOrder K] [IsStrictOrderedRing K] [AddCommGroup E] [Module K E]

/-- Calls of `SubdivideFace` for the facets `Ls`, one after another: the state, and what each call gives. -/
def calls (w : Vars E) (fuel : Nat) : State K E → List Nat → Option (State K E × List (List Nat))
  | s, [] => some (s, [])
  | s, l :: Ls => (subdivideFace K w fuel s l).bind fun (s, r) => (calls w fuel s Ls).map fun (s, R) => (s, r :: R)

/-- The facets around the parents of the facets are all subdivided. -/
def Par (s : State K E) (D : Nat → Prop) : Prop := ∀ l, D l → s.parent l = none ∨ ∃ p < s.mesh.laths, s.parent l = some p ∧ ∀ x, SameFacet s.mesh p x → ∀ y, Fan s.mesh x y → s.face y ≠ none ∧ ¬ D y

section
variable {m0 : Mesh} (O : Ok m0) {s : State K E} (X : Sub m0 s.mesh) (sub : State K E → Nat → Option (State K E))
include O X

theorem aroundFwd_noop {v : Nat} : ∀ (f : Nat) (x : Nat) (t : List Nat) (b : Bool), m0.fwd v f (m0.cv x) = some (t, b) → (∀ y ∈ x :: t, y < m0.laths ∧ s.face y ≠ none) →
    ∀ f', f < f' → aroundFwd K sub v f' x s = some (s, b)
  | f, x, t, b, h, hf, 0, hlt => by omega
  | f, x, t, b, h, hf, f' + 1, hlt => by
    have hx := hf x (by simp)
    have hn : ¬ (s.face x).isNone = true := by rw [Option.isNone_iff_eq_none]; exact hx.2
    rw [aroundFwd, if_neg hn]
    simp only [Option.bind_some, X.cv x hx.1]
    cases e : m0.cv x with
    | none =>
      rw [e] at h
      cases f <;> simp only [Mesh.fwd, Option.some.injEq, Prod.mk.injEq] at h <;> simp [h.2]
    | some y =>
      rw [e] at h
      cases f with
      | zero => simp [Mesh.fwd] at h
      | succ f =>
        simp only [Mesh.fwd] at h
        by_cases hy : y = v
        · rw [if_pos hy] at h
          simp only [Option.some.injEq, Prod.mk.injEq] at h
          simp only [if_pos hy, h.2]
        · rw [if_neg hy, Option.map_eq_some_iff] at h
          obtain ⟨⟨t', b'⟩, h1, h2⟩ := h
          simp only [Prod.mk.injEq] at h2
          obtain ⟨rfl, rfl⟩ := h2
          simp only [if_neg hy]
          exact aroundFwd_noop f y t' b' h1 (fun z hz => hf z (by simp at hz ⊢; tauto)) f' (by omega)

theorem aroundBwd_noop : ∀ (f : Nat) (o : Option Nat) (t : List Nat), m0.bwd f o = some t → (∀ y ∈ t, y < m0.laths ∧ s.face y ≠ none) →
    ∀ f', f ≤ f' → aroundBwd K sub f' o s = some s
  | f, none, t, h, hf, f', hlt => by cases f' <;> rfl
  | 0, some x, t, h, hf, f', hlt => by simp [Mesh.bwd] at h
  | f + 1, some x, t, h, hf, 0, hlt => by omega
  | f + 1, some x, t, h, hf, f' + 1, hlt => by
    simp only [Mesh.bwd, Option.map_eq_some_iff] at h
    obtain ⟨t', h1, rfl⟩ := h
    have hx := hf x (by simp)
    have hn : ¬ (s.face x).isNone = true := by rw [Option.isNone_iff_eq_none]; exact hx.2
    rw [aroundBwd, if_neg hn]
    simp only [Option.bind_some, X.ccv O hx.1]
    exact aroundBwd_noop f _ t' h1 (fun z hz => hf z (by simp [hz])) f' (by omega)

/-- Around a vertex whose facets are subdivided nothing is to do. -/
theorem around_noop {v : Nat} (hv : v < m0.laths) (hf : ∀ y, Fan m0 v y → s.face y ≠ none) {fuel : Nat} (hfuel : m0.laths + 2 ≤ fuel) : around K sub fuel s v = some s := by
  have hf' : ∀ y, Fan m0 v y → y < m0.laths ∧ s.face y ≠ none := fun y h => ⟨(O.fan_lt h).1 hv, hf y h⟩
  have conn : ∀ {A : List Nat}, List.IsChain (fun a b => m0.cv a = some b) A → (∀ y ∈ A, y < m0.laths) → v ∈ A → ∀ y ∈ A, Fan m0 v y := by
    intro A hc hN hvA y hy
    refine chain_conn2 (hc.imp_of_mem_imp ?_) hvA hy
    intro a b ha _ e
    exact ⟨hN a ha, e⟩
  rcases O.fan hv with ⟨a, e1, _, e3, e4, _⟩ | ⟨a, b, e1, e2, _, e4, e5, _⟩
  · simp only [around, aroundFwd_noop O X sub _ _ _ _ e1 (fun y hy => hf' y (conn e4 e3 (by simp) y hy)) fuel (by omega), Option.bind_some, Bool.false_eq_true, if_false]
  · simp only [around, aroundFwd_noop O X sub _ _ _ _ e1 (fun y hy => hf' y (conn e5 e4 (by simp) y (List.mem_append_right _ hy))) fuel (by omega), Option.bind_some, if_true, X.ccv O hv]
    exact aroundBwd_noop O X sub _ _ _ e2 (fun y hy => hf' y (conn e5 e4 (by simp) y (by simp [hy]))) fuel (by omega)

end

section
variable {w : Vars E} {s0 : State K E} {D : Nat → Prop} (B : Base w s0 D) (Q : Par s0 D) {mv me mf fv fe ff : Nat → E} (M : Masks w s0 mv me mf fv fe ff)
include B Q M

/-- One call. -/
theorem J.call {S : Nat → Prop} {g V W F : Nat → Nat} {s : State K E} (j : J w s0 D mv me mf fv fe ff S g V W F s) {l : Nat} (hl : D l) :
    ∃ L s' g' V' W' F', s0.mesh.Qfe l = some L ∧ (∀ fuel, s0.mesh.laths + 3 ≤ fuel → subdivideFace K w fuel s l = some (s', subs g' L)) ∧
      J w s0 D mv me mf fv fe ff (fun x => S x ∨ SameFacet s0.mesh l x) g' V' W' F' s' ∧ (∀ x, S x → g' x = g x) ∧ (S l → s' = s) := by
  by_cases hS : S l
  · obtain ⟨L, e1, _⟩ := B.ok.facet_mem (B.dom.lt l hl)
    have e3 : S = fun x => S x ∨ SameFacet s0.mesh l x := by
      funext x
      exact propext <| Iff.symm ⟨fun h => h.elim id fun h => (j.facet B h).1 hS, .inl⟩
    exact ⟨L, s, g, V, W, F, e1, fun fuel hfuel => by
      obtain ⟨f, rfl⟩ : ∃ f, fuel = f + 1 := ⟨fuel - 1, by omega⟩
      obtain ⟨L', e1', e2⟩ := j.again B hS f
      rw [e1] at e1'
      cases e1'
      exact e2, by rw [← e3]; exact j, fun _ _ => rfl, fun _ => rfl⟩
  · obtain ⟨L, s', g', V', W', F', e1, e2, j', hg⟩ := splitFace_ok B M j hl hS
    refine ⟨L, s', g', V', W', F', e1, fun fuel hfuel => ?_, j', hg, fun h => absurd h hS⟩
    obtain ⟨f, rfl⟩ : ∃ f, fuel = f + 1 := ⟨fuel - 1, by omega⟩
    rw [subdivideFace, j.face_out l hl hS]
    have hp := j.parent_old l (B.dom.lt l hl)
    rcases Q l hl with h | ⟨p, hpN, h, hfan⟩
    · rw [h] at hp
      simp only [hp, Option.bind_some]
      exact e2
    · rw [h] at hp
      simp only [hp, j.same.sub.Qfe B.ok hpN]
      obtain ⟨P, f1, _, _, f4⟩ := B.ok.facet_mem hpN
      rw [f1]
      have hfold : ∀ A : List Nat, (∀ x ∈ A, x ∈ P) → A.foldlM (around K (fun s x => (subdivideFace K w f s x).map Prod.fst) f) s = some s := by
        intro A
        induction A with
        | nil => intro _; rfl
        | cons x A ih =>
          intro hA
          have hx := (f4 x).1 (hA x (by simp))
          rw [List.foldlM_cons, around_noop B.ok j.same.sub _ ((B.ok.facet_lt hx).1 hpN) ?_ (by omega)]
          · exact ih fun y hy => hA y (by simp [hy])
          · intro y hy
            have := hfan x hx y hy
            rw [j.face_old y ((B.ok.fan_lt hy).1 ((B.ok.facet_lt hx).1 hpN)) this.2]
            exact this.1
      simp only [Option.bind_some, hfold P (fun _ h => h)]
      exact e2

/-- Calls for any facets in any order. -/
theorem J.calls : ∀ (Ls : List Nat) {S : Nat → Prop} {g V W F : Nat → Nat} {s : State K E}, J w s0 D mv me mf fv fe ff S g V W F s → (∀ l ∈ Ls, D l) →
    ∃ s' g' V' W' F', (∀ fuel, s0.mesh.laths + 3 ≤ fuel → Subd.calls w fuel s Ls = some (s', Ls.map fun l => subs g' ((s0.mesh.Qfe l).getD []))) ∧
      J w s0 D mv me mf fv fe ff (fun x => S x ∨ ∃ l ∈ Ls, SameFacet s0.mesh l x) g' V' W' F' s' ∧ (∀ x, S x → g' x = g x)
  | [], S, g, V, W, F, s, j, _ => by
    refine ⟨s, g, V, W, F, fun _ _ => rfl, ?_, fun _ _ => rfl⟩
    have : (fun x => S x ∨ ∃ l ∈ ([] : List Nat), SameFacet s0.mesh l x) = S := by funext x; simp
    rw [this]; exact j
  | l :: Ls, S, g, V, W, F, s, j, hD => by
    obtain ⟨L, s1, g1, V1, W1, F1, e1, e2, j1, h1, _⟩ := j.call B Q M (hD l (by simp))
    obtain ⟨s2, g2, V2, W2, F2, e3, j2, h2⟩ := J.calls Ls j1 fun x hx => hD x (by simp [hx])
    refine ⟨s2, g2, V2, W2, F2, ?_, ?_, fun x hx => (h2 x (.inl hx)).trans (h1 x hx)⟩
    · intro fuel hfuel
      simp only [Subd.calls, e2 fuel hfuel, Option.bind_some, e3 fuel hfuel, Option.map_some, List.map_cons, e1, Option.getD_some]
      congr 3
      obtain ⟨L', f1, _, f3, f4⟩ := B.ok.facet_mem (B.dom.lt l (hD l (by simp)))
      rw [e1] at f1
      cases f1
      simp only [subs]
      refine List.map_congr_left ?_
      intro i hi
      have hi : i < L.length := by simpa using hi
      rw [h2 (L.getD i 0) (.inr ?_)]
      rw [List.getD_eq_getElem _ _ hi]
      exact (f4 _).1 (List.getElem_mem hi)
    · have : (fun x => (S x ∨ SameFacet s0.mesh l x) ∨ ∃ l ∈ Ls, SameFacet s0.mesh l x) = fun x => S x ∨ ∃ l' ∈ l :: Ls, SameFacet s0.mesh l' x := by
        funext x
        simp only [List.mem_cons, exists_eq_or_imp, or_assoc]
      rw [this] at j2
      exact j2

end

section
variable {w : Vars E} {s0 : State K E} {D : Nat → Prop} (B : Base w s0 D) {mv me mf fv fe ff : Nat → E} {g V W F : Nat → Nat} {s : State K E} (j : J w s0 D mv me mf fv fe ff D g V W F s)
include B j

/-- After all facets are subdivided, the facets around the parents of the new facets are. -/
theorem J.par : Par s (fun x => s0.mesh.laths ≤ x ∧ x < s.mesh.laths) := by
  rintro l ⟨h1, h2⟩
  obtain ⟨p, hp, r, hr, rfl⟩ := j.kids.cover l h1 h2
  have hle := j.same.sub.le
  have hpN := j.kids.lt p hp
  refine .inr ⟨p, by omega, j.parent_new p hp r hr, ?_⟩
  intro x hx y hy
  have hxD := (j.facet B (j.facet_old B hpN hx)).1 hp
  have : D y ∧ y < s0.mesh.laths := by
    refine (mem_of_eqvGen (A := fun z => D z ∧ z < s0.mesh.laths) ?_ hy).1 ⟨hxD, B.dom.lt x hxD⟩
    rintro a b ⟨ha, hb⟩
    by_cases haN : a < s0.mesh.laths
    · rw [j.same.sub.cv a haN] at hb
      have := B.dom.fan B.ok (.rel _ _ ⟨haN, hb⟩ : Fan s0.mesh a b)
      have := B.ok.cv_lt a haN b hb
      tauto
    · have := ((j.sound B a b (by omega) ha hb).range B.ok j.kids).2.1
      exact ⟨fun h => absurd h.2 haN, fun h => by omega⟩
  refine ⟨?_, by omega⟩
  rw [j.face_in y this.1]
  simp

end

/-- Each facet with laths in `D` is in the list once. -/
structure Each (m : Mesh) (D : Nat → Prop) (Ls : List Nat) : Prop where
  dom : ∀ l ∈ Ls, D l
  all : ∀ x, D x → ∃ l ∈ Ls, SameFacet m l x
  once : Ls.Pairwise fun l x => ¬ SameFacet m l x

section
variable {w : Vars E} {s0 : State K E} {D : Nat → Prop} (B : Base w s0 D) {mv me mf fv fe ff : Nat → E} {g V W F : Nat → Nat} {s : State K E} (j : J w s0 D mv me mf fv fe ff D g V W F s)
include B j

theorem J.mem_subs {l : Nat} (hl : D l) {y : Nat} (hy : y ∈ subs g ((s0.mesh.Qfe l).getD [])) : ∃ x, SameFacet s0.mesh l x ∧ ∃ r < 4, y = g x + r := by
  obtain ⟨L, f1, _, f3, f4⟩ := B.ok.facet_mem (B.dom.lt l hl)
  rw [f1, Option.getD_some, subs] at hy
  obtain ⟨i, hi, rfl⟩ := List.mem_map.1 hy
  have hi : i < L.length := by simpa using hi
  refine ⟨L.getD i 0, ?_, _, Nat.mod_lt _ (by omega), rfl⟩
  rw [List.getD_eq_getElem _ _ hi]
  exact (f4 _).1 (List.getElem_mem hi)

theorem J.same_quad {x r q : Nat} (hx : D x) (hr : r < 4) (hq : q < 4) : SameFacet s.mesh (g x + r) (g x + q) := by
  have hrg := j.kids.range x hx
  have : ∀ r < 4, SameFacet s.mesh (g x + 0) (g x + r) := by
    intro r
    induction r with
    | zero => intro _; exact .refl _
    | succ r ih =>
      intro h
      refine .trans _ _ _ (ih (by omega)) (.rel _ _ ⟨by omega, ?_⟩)
      rw [j.kids.cf x hx r (by omega), Nat.mod_eq_of_lt h]
  exact .trans _ _ _ (.symm _ _ (this r hr)) (this q hq)

/-- The new facets, each once. -/
theorem J.each {Ls : List Nat} (H : Each s0.mesh D Ls) : Each s.mesh (fun x => s0.mesh.laths ≤ x ∧ x < s.mesh.laths) (Ls.map fun l => subs g ((s0.mesh.Qfe l).getD [])).flatten := by
  constructor
  · intro y hy
    obtain ⟨A, hA, hy⟩ := List.mem_flatten.1 hy
    obtain ⟨l, hl, rfl⟩ := List.mem_map.1 hA
    obtain ⟨x, hx, r, hr, rfl⟩ := j.mem_subs B (H.dom l hl) hy
    have := j.kids.range x ((B.dom.facet B.ok hx).1 (H.dom l hl))
    omega
  · rintro y ⟨h1, h2⟩
    obtain ⟨x, hx, r, hr, rfl⟩ := j.kids.cover y h1 h2
    obtain ⟨l, hl, hlx⟩ := H.all x hx
    obtain ⟨L, f1, _, f3, f4⟩ := B.ok.facet_mem (B.dom.lt l (H.dom l hl))
    obtain ⟨i, hi, e⟩ := List.getElem_of_mem ((f4 x).2 hlx)
    refine ⟨g x + (3 * i) % 4, List.mem_flatten.2 ⟨_, List.mem_map.2 ⟨l, hl, rfl⟩, ?_⟩, j.same_quad B hx (Nat.mod_lt _ (by omega)) hr⟩
    rw [f1, Option.getD_some, subs]
    exact List.mem_map.2 ⟨i, by simpa using hi, by rw [List.getD_eq_getElem _ _ hi, e]⟩
  · rw [List.pairwise_flatten]
    constructor
    · intro A hA
      obtain ⟨l, hl, rfl⟩ := List.mem_map.1 hA
      obtain ⟨L, f1, f2, f3, f4⟩ := B.ok.facet_mem (B.dom.lt l (H.dom l hl))
      rw [f1, Option.getD_some, subs, List.pairwise_map]
      refine (List.pairwise_lt_range (n := L.length)).imp_of_mem ?_
      intro a b ha hb hab h
      have ha : a < L.length := by simpa using ha
      have hb : b < L.length := by simpa using hb
      rw [List.getD_eq_getElem _ _ ha, List.getD_eq_getElem _ _ hb] at h
      have hD : ∀ i (hi : i < L.length), D L[i] := fun i hi => (B.dom.facet B.ok ((f4 _).1 (List.getElem_mem hi))).1 (H.dom l hl)
      obtain ⟨q, hq, e⟩ := j.facet_new B (hD a ha) (Nat.mod_lt _ (by omega)) h
      have := (j.kids.inj _ _ (hD b hb) (hD a ha) _ (Nat.mod_lt _ (by omega)) q hq e).1
      have := (f2.getElem_inj_iff).1 this
      omega
    · rw [List.pairwise_map]
      refine H.once.imp_of_mem ?_
      intro a b ha hb hab y hy z hz h
      obtain ⟨x, hx, r, hr, rfl⟩ := j.mem_subs B (H.dom a ha) hy
      obtain ⟨u, hu, q, hq, rfl⟩ := j.mem_subs B (H.dom b hb) hz
      have hxD := (B.dom.facet B.ok hx).1 (H.dom a ha)
      have huD := (B.dom.facet B.ok hu).1 (H.dom b hb)
      obtain ⟨t, ht, e⟩ := j.facet_new B hxD hr h
      have := (j.kids.inj u x huD hxD q hq t ht e).1
      subst this
      exact hab (.trans _ _ _ hx (.symm _ _ hu))

end
end
end Verif.Geom.Subd
