import Verif.Geom.LathLemmas
/-!
# Lemmas about the edges, vertices and facets around a lath
-/
namespace Verif.Geom.Lath
open Mesh

set_option linter.unusedSectionVars false

theorem mapM_some {f : Nat → Option α} {R : Nat → α → Prop} : ∀ {L : List Nat}, (∀ x ∈ L, ∃ y, f x = some y ∧ R x y) → ∃ r, L.mapM f = some r ∧ List.Forall₂ R L r := by
  intro L
  induction L with
  | nil => intro _; exact ⟨[], rfl, .nil⟩
  | cons x L ih =>
    intro h
    obtain ⟨y, e1, e2⟩ := h x (by simp)
    obtain ⟨r, e3, e4⟩ := ih fun z hz => h z (List.mem_cons_of_mem _ hz)
    exact ⟨y :: r, by simp [List.mapM_cons, e1, e3], .cons e2 e4⟩

theorem forall₂_mem_right {R : Nat → α → Prop} {L : List Nat} {r : List α} (h : List.Forall₂ R L r) {y : α} (hy : y ∈ r) : ∃ x ∈ L, R x y := by
  induction h with
  | nil => cases hy
  | cons h1 _ ih =>
    rcases List.mem_cons.1 hy with rfl | hy
    · exact ⟨_, by simp, h1⟩
    · obtain ⟨x, hx, e⟩ := ih hy; exact ⟨x, List.mem_cons_of_mem _ hx, e⟩

theorem forall₂_mem_left {R : Nat → α → Prop} {L : List Nat} {r : List α} (h : List.Forall₂ R L r) {x : Nat} (hx : x ∈ L) : ∃ y ∈ r, R x y := by
  induction h with
  | nil => cases hx
  | cons h1 _ ih =>
    rcases List.mem_cons.1 hx with rfl | hx
    · exact ⟨_, by simp, h1⟩
    · obtain ⟨y, hy, e⟩ := ih hx; exact ⟨y, List.mem_cons_of_mem _ hy, e⟩

theorem eqvGen_fan {m : Mesh} {x y : Nat} (h : Relation.EqvGen (Fan m) x y) : Fan m x y := by
  induction h with
  | rel x y e => exact e
  | refl => exact .refl _
  | symm _ _ _ ih => exact .symm _ _ ih
  | trans _ _ _ _ _ ih1 ih2 => exact .trans _ _ _ ih1 ih2

/-- Two laths are on one facet if links `cf` connect them. -/
def SameFacet (m : Mesh) : Nat → Nat → Prop := Relation.EqvGen fun a b => a < m.laths ∧ m.cf a = b

/-- Two laths are on one edge. -/
def SameEdge (m : Mesh) (x y : Nat) : Prop := x = y ∨ m.ec x = some y ∨ m.ec y = some x

/-- No edge joins a vertex with itself. -/
def NoLoop (m : Mesh) : Prop := ∀ l < m.laths, m.vert (m.cf l) ≠ m.vert l

namespace Ok
variable {m : Mesh} (h : Ok m)
include h

theorem fan_vert {l x : Nat} (hf : Fan m l x) : m.vert x = m.vert l := by
  induction hf with
  | rel x y e => exact h.cv_vert x e.1 y e.2
  | refl => rfl
  | symm _ _ _ ih => exact ih.symm
  | trans _ _ _ _ _ ih1 ih2 => exact ih2.trans ih1

theorem fan_lt {l x : Nat} (hf : Fan m l x) : l < m.laths ↔ x < m.laths :=
  mem_of_eqvGen (A := fun y => y < m.laths) (fun _ _ e => ⟨fun _ => h.cv_lt _ e.1 _ e.2, fun _ => e.1⟩) hf

theorem facet_lt {l x : Nat} (hf : SameFacet m l x) : l < m.laths ↔ x < m.laths :=
  mem_of_eqvGen (A := fun y => y < m.laths) (fun a b (e : a < m.laths ∧ m.cf a = b) => ⟨fun _ => e.2 ▸ h.cf_lt a e.1, fun _ => e.1⟩) hf

theorem ec_of_cv {y x : Nat} (e : m.cv y = some x) : m.ec y = some (m.cf x) := by simp [Mesh.ec, e]

theorem facet_mem {l : Nat} (hl : l < m.laths) : ∃ L, m.Qfe l = some L ∧ L.Nodup ∧ L.head? = some l ∧ ∀ x, x ∈ L ↔ SameFacet m l x := by
  obtain ⟨a, z, e1, e2, e3, e4, e5, e6⟩ := h.face hl
  refine ⟨l :: a, e1, e2, rfl, fun x => ?_⟩
  have hzm := List.mem_of_getLast? e5
  constructor
  · intro hx
    have h2 : List.IsChain (fun a b => a < m.laths ∧ m.cf a = b) (l :: a) := by
      have := List.isChain_iff_getElem.1 e4
      exact List.isChain_iff_getElem.2 fun i hi => ⟨e3 _ (List.getElem_mem _), this i hi⟩
    exact chain_conn2 h2 (by simp) hx
  · intro hx
    refine (mem_of_eqvGen (A := fun y => y ∈ l :: a) ?_ hx).1 (by simp)
    rintro u v ⟨hu, huv⟩
    constructor
    · intro hu'
      rcases chain_succ e4 hu' with e | ⟨y, hy, e⟩
      · rw [e5] at e; cases e; rw [← huv, e6]; simp
      · rw [← huv, e]; exact hy
    · intro hv
      rcases chain_pred e4 hv with e | ⟨y, hy, e⟩
      · simp at e; subst e; rw [h.cf_inj u hu z (e3 z hzm) (huv.trans e6.symm)]; exact hzm
      · rw [h.cf_inj u hu y (e3 y hy) (huv.trans e.symm)]; exact hy

theorem onFacet_iff {x y : Nat} (hx : x < m.laths) : m.onFacet y x = true ↔ SameFacet m x y := by
  obtain ⟨L, e1, _, _, e2⟩ := h.facet_mem hx
  simp only [Mesh.onFacet, e1, Option.getD_some, List.contains_iff_mem]
  exact e2 y

/-- All about the edges around a vertex. -/
theorem edges (hn : NoLoop m) {l : Nat} (hl : l < m.laths) : ∃ F L, m.Qvf l = some F ∧ m.Qve l = some L ∧ L.Pairwise (fun x y => ¬ SameEdge m x y) ∧
    (∀ x, Fan m l x → (∃ y ∈ L, SameEdge m x y) ∧ ∃ y ∈ L, SameEdge m (m.cf x) y) ∧
    (∀ y ∈ L, Fan m l y ∨ (∃ x, Fan m l x ∧ m.ccv x = none ∧ m.cf x = y)) ∧
    ((L = F ∧ ∀ x, Fan m l x → m.ccv x ≠ none) ∨ (L.length = F.length + 1 ∧ ∃ x, Fan m l x ∧ m.ccv x = none)) := by
  obtain ⟨F, e1, e2, e3, e4, e5, e6⟩ := h.fan_all hl
  have hv : ∀ x ∈ F, m.vert x = m.vert l := fun x hx => h.fan_vert ((e5 x).1 hx)
  have hec : ∀ x ∈ F, ∀ y ∈ F, m.ec x ≠ some y := by
    intro x hx y hy e
    simp only [Mesh.ec, Option.map_eq_some_iff] at e
    obtain ⟨w, h1, h2⟩ := e
    have hwN := h.cv_lt x (e4 x hx) w h1
    have := hn w hwN
    rw [h2, hv y hy, h.cv_vert x (e4 x hx) w h1, hv x hx] at this
    exact this rfl
  have hpw : F.Pairwise (fun x y => ¬ SameEdge m x y) := by
    refine List.Pairwise.imp_of_mem ?_ e2
    intro x y hx hy hne hs
    rcases hs with hs | hs | hs
    · exact hne hs
    · exact hec x hx y hy hs
    · exact hec y hy x hx hs
  rcases e6 with ⟨f1, f2, f3⟩ | ⟨z, s, hz, hs, f1, f2, f3, f4, f5⟩
  · refine ⟨F, F, e1, f1, hpw, ?_, fun y hy => Or.inl ((e5 y).1 hy), Or.inl ⟨rfl, ?_⟩⟩
    · intro x hx
      have hx' := (e5 x).2 hx
      obtain ⟨y, hy, e⟩ := f3 x hx'
      exact ⟨⟨x, hx', Or.inl rfl⟩, y, hy, Or.inr (Or.inr (h.ec_of_cv e))⟩
    · intro x hx
      obtain ⟨y, hy, e⟩ := f3 x ((e5 x).2 hx)
      rw [h.ccv_of_cv (e4 y hy) e]; simp
  · refine ⟨F, F ++ [m.cf s], e1, f1, ?_, ?_, ?_, Or.inr ⟨by simp, s, (e5 s).1 hs, f2⟩⟩
    · refine List.pairwise_append.2 ⟨hpw, List.pairwise_singleton _ _, ?_⟩
      intro x hx y hy
      simp at hy; subst hy
      have hcase : m.ec x ≠ some (m.cf s) := by
        intro e
        simp only [Mesh.ec, Option.map_eq_some_iff] at e
        obtain ⟨w, h1, h2⟩ := e
        have hws : w = s := h.cf_inj w (h.cv_lt x (e4 x hx) w h1) s (e4 s hs) h2
        subst hws
        exact h.no_pred (e4 w hs) f2 x (e4 x hx) h1
      rintro (hh | hh | hh)
      · have := hn s (e4 s hs); rw [← hh, hv x hx, hv s hs] at this; exact this rfl
      · exact hcase hh
      · exact hcase (h.ec_ec (h.cf_lt s (e4 s hs)) hh)
    · intro x hx
      have hx' := (e5 x).2 hx
      refine ⟨⟨x, List.mem_append_left _ hx', Or.inl rfl⟩, ?_⟩
      by_cases hxs : x = s
      · subst hxs; exact ⟨m.cf x, by simp, Or.inl rfl⟩
      · obtain ⟨y, hy, e⟩ := f5 x hx' hxs
        exact ⟨y, List.mem_append_left _ hy, Or.inr (Or.inr (h.ec_of_cv e))⟩
    · intro y hy
      rcases List.mem_append.1 hy with hy | hy
      · exact Or.inl ((e5 y).1 hy)
      · simp at hy; subst hy; exact Or.inr ⟨s, (e5 s).1 hs, f2, rfl⟩

/-- The vertices around a vertex. -/
theorem neighbours (hn : NoLoop m) {l : Nat} (hl : l < m.laths) : ∃ L R, m.Qve l = some L ∧ m.Qvv l = some R ∧
    List.Forall₂ (fun x y => (Fan m l x ∧ y < m.laths ∧ m.cf y = x) ∨ (y = x ∧ ∃ s, Fan m l s ∧ m.cf s = x)) L R := by
  obtain ⟨F, L, _, e2, _, _, e5, _⟩ := h.edges hn hl
  obtain ⟨R, hR, hR2⟩ := mapM_some (f := fun x => if m.vert x = m.vert l then m.ccf x else some x)
    (R := fun x y => (Fan m l x ∧ y < m.laths ∧ m.cf y = x) ∨ (y = x ∧ ∃ s, Fan m l s ∧ m.cf s = x)) (L := L) (by
      intro x hx
      rcases e5 x hx with hf | ⟨s, hs, _, rfl⟩
      · have hxN := (h.fan_lt hf).1 hl
        obtain ⟨y, hy, e⟩ := h.cf_surj hxN
        exact ⟨y, by rw [if_pos (h.fan_vert hf)]; exact h.ccf_eq hy e, Or.inl ⟨hf, hy, e⟩⟩
      · have := hn s ((h.fan_lt hs).1 hl)
        rw [h.fan_vert hs] at this
        exact ⟨m.cf s, by rw [if_neg this], Or.inr ⟨rfl, s, hs, rfl⟩⟩)
  exact ⟨L, R, e2, by simp only [Mesh.Qvv, e2, Option.bind_some]; exact hR, hR2⟩

theorem neighbours_all (hn : NoLoop m) {l : Nat} (hl : l < m.laths) : ∃ R, m.Qvv l = some R ∧
    ∀ v, v ∈ R.map m.vert ↔ ∃ x, Fan m l x ∧ (v = m.vert (m.cf x) ∨ ∃ y < m.laths, m.cf y = x ∧ v = m.vert y) := by
  obtain ⟨L, R, e1, e2, e3⟩ := h.neighbours hn hl
  obtain ⟨F, L', _, f2, _, f4, _, _⟩ := h.edges hn hl
  rw [e1] at f2; cases f2
  refine ⟨R, e2, fun v => ?_⟩
  rw [List.mem_map]
  constructor
  · rintro ⟨y, hy, rfl⟩
    obtain ⟨x, hx, hh⟩ := forall₂_mem_right e3 hy
    rcases hh with ⟨a, b, c⟩ | ⟨a, s, b, c⟩
    · exact ⟨x, a, Or.inr ⟨y, b, c, rfl⟩⟩
    · exact ⟨s, b, Or.inl (by rw [a, c])⟩
  · -- the other end of an edge of the fan
    have key : ∀ x, Fan m l x → ∀ e ∈ L, SameEdge m x e → ∃ y ∈ R, ∃ z < m.laths, m.cf z = x ∧ m.vert y = m.vert z := by
      intro x hx e he hs
      have hxN := (h.fan_lt hx).1 hl
      obtain ⟨z, hz, hzx⟩ := h.cf_surj hxN
      obtain ⟨y, hy, hh⟩ := forall₂_mem_left e3 he
      refine ⟨y, hy, z, hz, hzx, ?_⟩
      have hec : ∀ e, m.ec x = some e → m.vert e = m.vert z ∧ e < m.laths ∧ ∀ s < m.laths, m.cf s = e → m.cv x = some s := by
        intro e he
        simp only [Mesh.ec, Option.map_eq_some_iff] at he
        obtain ⟨w, h1, h2⟩ := he
        obtain ⟨u, hu, h3, h4⟩ := h.back hxN h1
        have : u = z := h.cf_inj u hu z hz (h4.trans hzx.symm)
        subst this
        have hwN := h.cv_lt x hxN w h1
        refine ⟨?_, h2 ▸ h.cf_lt w hwN, ?_⟩
        · rw [← h2]; exact (h.cv_vert _ (h.cf_lt w hwN) u h3).symm
        · intro s hs e'; rw [h1, h.cf_inj w hwN s hs (h2.trans e'.symm)]
      have hs' : x = e ∨ m.ec x = some e := by
        rcases hs with hs | hs | hs
        · exact Or.inl hs
        · exact Or.inr hs
        · refine Or.inr (h.ec_ec ?_ hs)
          rcases hh with ⟨a, _, _⟩ | ⟨_, s, b, c⟩
          · exact (h.fan_lt a).1 hl
          · exact c ▸ h.cf_lt s ((h.fan_lt b).1 hl)
      rcases hs' with rfl | hs'
      · rcases hh with ⟨_, b, c⟩ | ⟨_, s, b, c⟩
        · rw [h.cf_inj y b z hz (c.trans hzx.symm)]
        · exfalso
          have := hn s ((h.fan_lt b).1 hl)
          rw [c, h.fan_vert hx, h.fan_vert b] at this; exact this rfl
      · obtain ⟨g1, g2, g3⟩ := hec e hs'
        rcases hh with ⟨a, _, _⟩ | ⟨a, _⟩
        · exfalso
          obtain ⟨s, hsN, hse⟩ := h.cf_surj g2
          have := g3 s hsN hse
          have hv := hn s hsN
          rw [hse, h.fan_vert a, h.cv_vert x hxN s this, h.fan_vert hx] at hv
          exact hv rfl
        · rw [a]; exact g1
    rintro ⟨x, hx, hv | ⟨y, hy, hyx, hv⟩⟩
    · have hxN := (h.fan_lt hx).1 hl
      obtain ⟨e, he, hs⟩ := (f4 x hx).2
      -- the edge of `cf x`
      obtain ⟨y, hy, hh⟩ := forall₂_mem_left e3 he
      have hs' : m.cf x = e ∨ m.ec e = some (m.cf x) := by
        rcases hs with hs | hs | hs
        · exact Or.inl hs
        · exact Or.inr (h.ec_ec (h.cf_lt x hxN) hs)
        · exact Or.inr hs
      rcases hs' with hs' | hs'
      · rcases hh with ⟨a, _, _⟩ | ⟨a, _⟩
        · exfalso
          have := hn x hxN
          rw [hs', h.fan_vert a, h.fan_vert hx] at this; exact this rfl
        · exact ⟨y, hy, by rw [a, ← hs', hv]⟩
      · simp only [Mesh.ec, Option.map_eq_some_iff] at hs'
        obtain ⟨w, h1, h2⟩ := hs'
        rcases hh with ⟨a, b, c⟩ | ⟨a, s, b, c⟩
        · have heN := (h.fan_lt a).1 hl
          have hw : w = x := h.cf_inj w (h.cv_lt e heN w h1) x hxN h2
          subst hw
          obtain ⟨u, hu, h3, h4⟩ := h.back heN h1
          have : u = y := h.cf_inj u hu y b (h4.trans c.symm)
          subst this
          exact ⟨u, hy, by rw [hv]; exact h.cv_vert _ (h.cf_lt w hxN) u h3⟩
        · exfalso
          have heN : e < m.laths := c ▸ h.cf_lt s ((h.fan_lt b).1 hl)
          have hw : w = x := h.cf_inj w (h.cv_lt e heN w h1) x hxN h2
          subst hw
          have hv' := hn s ((h.fan_lt b).1 hl)
          rw [c, h.fan_vert b, ← h.cv_vert e heN w h1, h.fan_vert hx] at hv'
          exact hv' rfl
    · obtain ⟨e, he, hs⟩ := (f4 x hx).1
      obtain ⟨w, hw, z, hz, g1, g2⟩ := key x hx e he hs
      exact ⟨w, hw, by rw [hv, g2, h.cf_inj y hy z hz (hyx.trans g1.symm)]⟩

theorem ee (hn : NoLoop m) {l x : Nat} (hx : x < m.laths) (hxl : m.cf x = l) : ∃ L1 L2 R, m.Qve l = some L1 ∧ m.Qve x = some L2 ∧ m.Qee l = some R ∧
    ∀ y, y ∈ R ↔ y ∈ L1 ∨ (y ∈ L2 ∧ ¬ SameEdge m l y) := by
  have hl : l < m.laths := hxl ▸ h.cf_lt x hx
  obtain ⟨_, L1, _, e1, _⟩ := h.edges hn hl
  obtain ⟨_, L2, _, e2, _, _, e5, _⟩ := h.edges hn hx
  refine ⟨L1, L2, _, e1, e2, by simp only [Mesh.Qee, e1, Option.bind_some, h.ccf_eq hx hxl, e2, Option.map_some]; rfl, fun y => ?_⟩
  rw [List.mem_append, List.mem_filter]
  refine or_congr Iff.rfl (and_congr_right fun hy => ?_)
  have hyN : y < m.laths := by
    rcases e5 y hy with a | ⟨s, a, _, c⟩
    · exact (h.fan_lt a).1 hx
    · exact c ▸ h.cf_lt s ((h.fan_lt a).1 hx)
  simp only [decide_eq_true_eq, SameEdge]
  constructor
  · rintro ⟨a, b⟩ (c | c | c)
    · exact b c
    · exact a c
    · exact a (h.ec_ec hyN c)
  · intro a
    exact ⟨fun c => a (Or.inr (Or.inl c)), fun c => a (Or.inl c)⟩

theorem fold_ok : ∀ (I R : List Nat), (∀ y ∈ R, y < m.laths) → (∀ y ∈ I, y < m.laths) → R.Pairwise (fun x y => ¬ SameFacet m x y) →
    ∃ Q, I.foldl (fun R y => if R.any (m.onFacet y) then R else R ++ [y]) R = Q ∧ Q.Pairwise (fun x y => ¬ SameFacet m x y) ∧
      (∀ y ∈ Q, y ∈ R ∨ y ∈ I) ∧ (∀ y, y ∈ R ∨ y ∈ I → ∃ q ∈ Q, SameFacet m q y) := by
  intro I
  induction I with
  | nil =>
    intro R _ _ h3
    exact ⟨R, rfl, h3, fun y hy => Or.inl hy, fun y hy => ⟨y, by simpa using hy, .refl _⟩⟩
  | cons x I ih =>
    intro R h1 h2 h3
    simp only [List.foldl_cons]
    by_cases hc : R.any (m.onFacet x) = true
    · rw [if_pos hc]
      obtain ⟨Q, e1, e2, e3, e4⟩ := ih R h1 (fun y hy => h2 y (List.mem_cons_of_mem _ hy)) h3
      refine ⟨Q, e1, e2, fun y hy => (e3 y hy).imp id (List.mem_cons_of_mem _), ?_⟩
      rintro y (hy | hy)
      · exact e4 y (Or.inl hy)
      · rcases List.mem_cons.1 hy with rfl | hy
        · obtain ⟨r, hr, e⟩ := List.any_eq_true.1 hc
          have e' := (h.onFacet_iff (h1 r hr)).1 e
          obtain ⟨q, hq, e''⟩ := e4 r (Or.inl hr)
          exact ⟨q, hq, .trans _ _ _ e'' e'⟩
        · exact e4 y (Or.inr hy)
    · rw [if_neg hc]
      obtain ⟨Q, e1, e2, e3, e4⟩ := ih (R ++ [x])
        (by intro y hy; rcases List.mem_append.1 hy with hy | hy
            · exact h1 y hy
            · simp at hy; exact h2 y (by simp [hy]))
        (fun y hy => h2 y (List.mem_cons_of_mem _ hy))
        (by refine List.pairwise_append.2 ⟨h3, List.pairwise_singleton _ _, ?_⟩
            intro r hr y hy hs
            simp at hy; subst hy
            exact hc (List.any_eq_true.2 ⟨r, hr, (h.onFacet_iff (h1 r hr)).2 hs⟩))
      refine ⟨Q, e1, e2, ?_, ?_⟩
      · intro y hy
        rcases e3 y hy with a | a
        · rcases List.mem_append.1 a with a | a
          · exact Or.inl a
          · right; simp at a; simp [a]
        · exact Or.inr (List.mem_cons_of_mem _ a)
      · rintro y (hy | hy)
        · exact e4 y (Or.inl (List.mem_append_left _ hy))
        · rcases List.mem_cons.1 hy with rfl | hy
          · exact e4 y (Or.inl (by simp))
          · exact e4 y (Or.inr hy)

theorem facets (hn : NoLoop m) {l : Nat} (hl : l < m.laths) : ∃ R, m.Qff l = some R ∧ R.Pairwise (fun x y => ¬ SameFacet m x y) ∧
    (∀ x z, SameFacet m l x → Fan m x z → ∃ y ∈ R, SameFacet m y z) ∧
    (∀ y ∈ R, ∃ x z, SameFacet m l x ∧ Fan m x z ∧ SameFacet m y z) := by
  obtain ⟨E, e1, _, _, e2⟩ := h.facet_mem hl
  have hE : ∀ x ∈ E, x < m.laths := fun x hx => (h.facet_lt ((e2 x).1 hx)).1 hl
  obtain ⟨Ls, f1, f2⟩ := mapM_some (f := m.Qve) (L := E)
    (R := fun x L => x < m.laths ∧ (∀ z, Fan m x z → ∃ y ∈ L, SameFacet m y z) ∧ ∀ y ∈ L, y < m.laths ∧ ∃ z, Fan m x z ∧ SameFacet m y z) (by
      intro x hx
      obtain ⟨F, hF1, _, _, _, hF5, hF6⟩ := h.fan_all (hE x hx)
      obtain ⟨_, L, _, g1, _, _, g5, _⟩ := h.edges hn (hE x hx)
      refine ⟨L, g1, hE x hx, ?_, ?_⟩
      · intro z hz
        have hzF := (hF5 z).2 hz
        refine ⟨z, ?_, .refl _⟩
        rcases hF6 with ⟨k, _⟩ | ⟨_, s, _, _, k, _⟩
        · rw [k] at g1; cases g1; exact hzF
        · rw [k] at g1; cases g1; exact List.mem_append_left _ hzF
      · intro y hy
        rcases g5 y hy with a | ⟨s, a, _, c⟩
        · exact ⟨(h.fan_lt a).1 (hE x hx), y, a, .refl _⟩
        · have hs := (h.fan_lt a).1 (hE x hx)
          exact ⟨c ▸ h.cf_lt s hs, s, a, .symm _ _ (.rel _ _ ⟨hs, c⟩)⟩)
  have hI : ∀ y ∈ Ls.flatten, y < m.laths ∧ ∃ x ∈ E, ∃ z, Fan m x z ∧ SameFacet m y z := by
    intro y hy
    obtain ⟨L, hL, hyL⟩ := List.mem_flatten.1 hy
    obtain ⟨x, hx, _, _, g⟩ := forall₂_mem_right f2 hL
    exact ⟨(g y hyL).1, x, hx, (g y hyL).2⟩
  obtain ⟨Q, q1, q2, q3, q4⟩ := h.fold_ok Ls.flatten [] (by simp) (fun y hy => (hI y hy).1) (by simp)
  refine ⟨Q, by simp only [Mesh.Qff, e1, Option.bind_some, f1, Option.map_some]; rw [q1], q2, ?_, ?_⟩
  · intro x z hx hz
    obtain ⟨L, hL, _, g, _⟩ := forall₂_mem_left f2 ((e2 x).2 hx)
    obtain ⟨y, hy, hyz⟩ := g z hz
    obtain ⟨q, hq, hqy⟩ := q4 y (Or.inr (List.mem_flatten.2 ⟨L, hL, hy⟩))
    exact ⟨q, hq, .trans _ _ _ hqy hyz⟩
  · intro y hy
    have hy' : y ∈ Ls.flatten := by rcases q3 y hy with a | a
                                    · cases a
                                    · exact a
    obtain ⟨_, x, hx, z, hz, hyz⟩ := hI y hy'
    exact ⟨x, z, (e2 x).1 hx, hz, hyz⟩

theorem boundaryLoop_eq (l : Nat) : ∀ f o, m.boundaryLoop l f o = (walk m.ccv l f o).map Prod.snd := by
  intro f
  induction f with
  | zero => intro o; cases o <;> rfl
  | succ f ih => intro o; cases o with
    | none => rfl
    | some x => simp only [Mesh.boundaryLoop, walk]; split
                · rfl
                · rw [ih]; cases walk m.ccv l f (m.ccv x) <;> rfl

theorem pinj_ccv : PInj m.laths m.ccv :=
  ⟨fun hl e => h.ccv_lt hl e, fun hl hl' e e' => by
    have a := h.cv_of_ccv hl e; have b := h.cv_of_ccv hl' e'; rw [a] at b; cases b; rfl⟩

theorem boundary {l : Nat} (hl : l < m.laths) : ∃ b, m.isBoundaryVertex l = some b ∧ (b = true ↔ ∃ x, Fan m l x ∧ m.ccv x = none) := by
  obtain ⟨a, b, e1, e2, e3, e4, z, e5, e6⟩ := walk_start h.pinj_ccv hl
  refine ⟨b, by simp only [Mesh.isBoundaryVertex, h.boundaryLoop_eq, e1, Option.map_some], ?_⟩
  have hfan : ∀ x ∈ l :: a, Fan m l x := by
    have h2 : List.IsChain (fun a b => Fan m a b) (l :: a) := by
      have := List.isChain_iff_getElem.1 e4
      refine List.isChain_iff_getElem.2 fun i hi => ?_
      have hN := e3 ((l :: a)[i]) (List.getElem_mem _)
      exact .symm _ _ (.rel _ _ ⟨h.ccv_lt hN (this i hi), h.cv_of_ccv hN (this i hi)⟩)
    intro x hx
    exact eqvGen_fan (chain_conn h2 x hx)
  cases b
  · simp only [Bool.false_eq_true, false_iff, if_false] at e6 ⊢
    rintro ⟨x, hx, hn⟩
    have hsome : ∀ y ∈ l :: a, ∃ w ∈ l :: a, m.ccv y = some w := by
      intro y hy
      rcases chain_succ e4 hy with e | ⟨w, hw, e⟩
      · rw [e5] at e; cases e; exact ⟨l, by simp, e6⟩
      · exact ⟨w, hw, e⟩
    have hmem : x ∈ l :: a := by
      refine (mem_of_eqvGen (A := fun y => y ∈ l :: a) ?_ hx).1 (by simp)
      rintro u v ⟨hu, huv⟩
      constructor
      · intro hu'
        rcases chain_pred e4 hu' with e | ⟨w, hw, e⟩
        · simp at e; subst e
          have hz := List.mem_of_getLast? e5
          have := h.cv_of_ccv (e3 z hz) e6
          rw [this] at huv; cases huv; exact hz
        · have := h.cv_of_ccv (e3 w hw) e
          rw [this] at huv; cases huv; exact hw
      · intro hv
        obtain ⟨w, hw, e⟩ := hsome v hv
        rw [h.ccv_of_cv hu huv] at e; cases e; exact hw
    obtain ⟨w, _, e⟩ := hsome x hmem
    rw [hn] at e; cases e
  · simp only [true_iff]
    exact ⟨z, hfan z (List.mem_of_getLast? e5), by simpa using e6⟩

theorem corner {l : Nat} (hl : l < m.laths) : m.isCornerVertex l = true ↔ m.cv l = none ∧ ∀ x, Fan m l x → x = l := by
  have hc : m.ccv l = none ↔ m.cv (m.cf l) = none := by simp [Mesh.ccv, Mesh.ec]
  simp only [Mesh.isCornerVertex, Bool.and_eq_true, Option.isNone_iff_eq_none]
  constructor
  · rintro ⟨a, b⟩
    refine ⟨a, fun x hx => ?_⟩
    refine (mem_of_eqvGen (A := fun y => y = l) ?_ hx).1 rfl
    rintro u v ⟨hu, huv⟩
    constructor
    · rintro rfl; rw [a] at huv; cases huv
    · rintro rfl; exact absurd huv (h.no_pred hl (hc.2 b) u hu)
  · rintro ⟨a, b⟩
    refine ⟨a, hc.1 ?_⟩
    rcases hq : m.ccv l with _ | x
    · rfl
    · have hx := h.cv_of_ccv hl hq
      have := b x (.symm _ _ (.rel _ _ ⟨h.ccv_lt hl hq, hx⟩))
      subst this
      rw [a] at hx; cases hx

end Ok
end Verif.Geom.Lath
