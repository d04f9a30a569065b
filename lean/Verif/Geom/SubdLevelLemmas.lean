import Verif.Geom.SubdDoneLemmas
import Verif.Geom.SubdStepLemmas
/-!
# Lemmas about subdividing the facets of a mesh, and the next level
-/
set_option linter.unusedSectionVars false
namespace Verif.Geom.Subd
open Verif.Geom.Lath

section
variable {K E : Type} [Field K] [LinearOrder K] [IsStrictOrderedRing K] [AddCommGroup E] [Module K E]
variable {w : Vars E} {s0 : State K E} {D : Nat → Prop} (B : Base w s0 D) {mv me mf fv fe ff : Nat → E} {S : Nat → Prop} {g V W F : Nat → Nat} {s : State K E}
include B

section
variable (j : J w s0 D mv me mf fv fe ff S g V W F s)
include j

theorem J.sound : Sound s0.mesh S g s.mesh := fun x y h1 h2 h3 => (j.cv x y h1 h2).1 h3

/-- Old and new laths are on different facets. -/
theorem J.cf_side {x : Nat} (hx : x < s.mesh.laths) : s.mesh.cf x < s.mesh.laths ∧ (s.mesh.cf x < s0.mesh.laths ↔ x < s0.mesh.laths) := by
  have hle := j.same.sub.le
  by_cases h : x < s0.mesh.laths
  · rw [j.same.sub.cf x h]
    have := B.ok.cf_lt x h
    omega
  · obtain ⟨l, hl, r, hr, rfl⟩ := j.kids.cover x (by omega) hx
    rw [j.kids.cf l hl r hr]
    have := j.kids.range l hl
    omega

/-- The links of the mesh are as they shall be. -/
theorem J.ok : Ok s.mesh := by
  have hle := j.same.sub.le
  refine ⟨fun l hl => (j.cf_side B hl).1, ?_, ?_, ?_, ?_⟩
  · intro x hx y hy e
    have h1 := (j.cf_side B hx).2
    have h2 := (j.cf_side B hy).2
    by_cases hxN : x < s0.mesh.laths
    · have hyN : y < s0.mesh.laths := h2.1 (by rw [← e]; exact h1.2 hxN)
      rw [j.same.sub.cf x hxN, j.same.sub.cf y hyN] at e
      exact B.ok.cf_inj x hxN y hyN e
    · have hyN : ¬ y < s0.mesh.laths := fun h => hxN (h1.1 (by rw [e]; exact h2.2 h))
      obtain ⟨l, hl, r, hr, rfl⟩ := j.kids.cover x (by omega) hx
      obtain ⟨k, hk, q, hq, rfl⟩ := j.kids.cover y (by omega) hy
      rw [j.kids.cf l hl r hr, j.kids.cf k hk q hq] at e
      obtain ⟨rfl, e2⟩ := j.kids.inj l k hl hk _ (Nat.mod_lt _ (by omega)) _ (Nat.mod_lt _ (by omega)) e
      omega
  · intro l hl x e
    by_cases h : l < s0.mesh.laths
    · rw [j.same.sub.cv l h] at e
      have := B.ok.cv_lt l h x e
      omega
    · exact ((j.sound B l x (by omega) hl e).range B.ok j.kids).2.2
  · intro l hl x e
    by_cases h : l < s0.mesh.laths
    · rw [j.same.sub.cv l h] at e
      have hx := B.ok.cv_lt l h x e
      obtain ⟨y, hy, hy1, hy2⟩ := B.ok.back h e
      refine ⟨y, ?_, ?_⟩
      · rw [j.same.sub.cf x hx, j.same.sub.cv _ (B.ok.cf_lt x hx)]; exact hy1
      · rw [j.same.sub.cf y hy]; exact hy2
    · have t := j.sound B l x (by omega) hl e
      have hx := (t.range B.ok j.kids).2
      obtain ⟨z, hz, hz2⟩ := t.back_ex B.ok j.kids
      have h1 := j.cf_side B hx.2
      exact ⟨z, (j.cv _ _ (by omega) h1.1).2 hz, hz2⟩
  · intro l hl x e
    by_cases h : l < s0.mesh.laths
    · rw [j.same.sub.cv l h] at e
      rw [j.same.sub.vert l h, j.same.sub.vert x (B.ok.cv_lt l h x e)]
      exact B.ok.cv_vert l h x e
    · exact (j.sound B l x (by omega) hl e).vert B.ok j.kids

theorem J.facet_old {x y : Nat} (hx : x < s0.mesh.laths) (h : SameFacet s.mesh x y) : SameFacet s0.mesh x y := by
  have hle := j.same.sub.le
  have := (mem_of_eqvGen (A := fun z => z < s0.mesh.laths ∧ SameFacet s0.mesh x z) ?_ h).1 ⟨hx, .refl _⟩
  · exact this.2
  · rintro a b ⟨ha, rfl⟩
    have hs := j.cf_side B ha
    constructor
    · rintro ⟨h1, h2⟩
      refine ⟨hs.2.2 h1, ?_⟩
      rw [j.same.sub.cf a h1]
      exact .trans _ _ _ h2 (.rel _ _ ⟨h1, rfl⟩)
    · rintro ⟨h1, h2⟩
      have h1 := hs.2.1 h1
      refine ⟨h1, ?_⟩
      rw [j.same.sub.cf a h1] at h2
      exact .trans _ _ _ h2 (.symm _ _ (.rel _ _ ⟨h1, rfl⟩))

theorem J.facet_new {l r y : Nat} (hl : S l) (hr : r < 4) (h : SameFacet s.mesh (g l + r) y) : ∃ q < 4, y = g l + q := by
  refine (mem_of_eqvGen (A := fun z => ∃ q < 4, z = g l + q) ?_ h).1 ⟨r, hr, rfl⟩
  rintro a b ⟨ha, rfl⟩
  have hrg := j.kids.range l hl
  constructor
  · rintro ⟨q, hq, rfl⟩
    exact ⟨_, Nat.mod_lt _ (by omega), j.kids.cf l hl q hq⟩
  · rintro ⟨q, hq, e⟩
    have hs := j.cf_side B ha
    obtain ⟨k, hk, t, ht, rfl⟩ := j.kids.cover a (by omega) ha
    rw [j.kids.cf k hk t ht] at e
    obtain ⟨rfl, _⟩ := j.kids.inj k l hk hl _ (Nat.mod_lt _ (by omega)) q hq e
    exact ⟨t, ht, rfl⟩

theorem J.simple : Simple s.mesh := by
  have hle := j.same.sub.le
  constructor
  · intro x y hx h e
    by_cases hxN : x < s0.mesh.laths
    · have h' := j.facet_old B hxN h
      have hy := (B.ok.facet_lt h').1 hxN
      rw [j.same.sub.vert x hxN, j.same.sub.vert y hy] at e
      exact B.simple.once x y hxN h' e
    · obtain ⟨l, hl, r, hr, rfl⟩ := j.kids.cover x (by omega) hx
      obtain ⟨q, hq, rfl⟩ := j.facet_new B hl hr h
      have hcl := j.kids.next l hl
      have hlN := j.kids.lt l hl
      have hww : W (s0.mesh.cf l) ≠ W l := by
        intro e
        have h1 := B.simple.edge B.ok (B.ok.cf_lt l hlN) (.symm _ _ (.rel _ _ ⟨hlN, rfl⟩)) ((j.kids.pts.ww _ _ hcl hl).1 e)
        exact B.simple.noLoop B.ok l hlN (by rw [h1])
      have va := j.kids.va l hl
      have vb := j.kids.vb l hl
      have vc := j.kids.vc l hl
      have vd := j.kids.vd l hl
      have p1 := j.kids.pts.vw l l hl hl
      have p2 := j.kids.pts.vw l _ hl hcl
      have p3 := j.kids.pts.vf l l hl hl
      have p4 := j.kids.pts.wf l l hl hl
      have p5 := j.kids.pts.wf _ l hcl hl
      have h1 : r = 0 ∨ r = 1 ∨ r = 2 ∨ r = 3 := by omega
      have h2 : q = 0 ∨ q = 1 ∨ q = 2 ∨ q = 3 := by omega
      rcases h1 with rfl | rfl | rfl | rfl <;> rcases h2 with rfl | rfl | rfl | rfl <;> simp only [Nat.add_zero, va, vb, vc, vd] at e <;> first | rfl | omega
  · intro x hx e
    by_cases hxN : x < s0.mesh.laths
    · rw [j.same.sub.cf x hxN, j.same.sub.cf _ (B.ok.cf_lt x hxN)] at e
      exact B.simple.three x hxN e
    · obtain ⟨l, hl, r, hr, rfl⟩ := j.kids.cover x (by omega) hx
      rw [j.kids.cf l hl r hr, j.kids.cf l hl _ (Nat.mod_lt _ (by omega))] at e
      omega

theorem sq_nonneg' {k : K} : 0 ≤ sq k := by
  unfold sq
  split
  · exact mul_self_nonneg k
  · exact le_refl _

theorem J.vert_lt {x : Nat} (hx : x < s.mesh.laths) : s.mesh.vert x < s.mesh.atVert.length ∧ s.mesh.fvert x < s.fcount := by
  by_cases hxN : x < s0.mesh.laths
  · rw [j.same.sub.vert x hxN, j.same.sub.fvert x hxN]
    have h1 := B.vert x hxN
    have h2 := j.same.len
    have h3 := B.fvert x hxN
    have h4 := j.same.fcount
    omega
  · obtain ⟨l, hl, r, hr, rfl⟩ := j.kids.cover x (by omega) hx
    refine ⟨?_, j.ghi l hl r hr⟩
    have h1 : r = 0 ∨ r = 1 ∨ r = 2 ∨ r = 3 := by omega
    rcases h1 with rfl | rfl | rfl | rfl
    · rw [Nat.add_zero, j.kids.va l hl]; exact j.vhi l hl
    · rw [j.kids.vb l hl]; exact j.whi _ (j.kids.next l hl)
    · rw [j.kids.vc l hl]; exact j.fhi l hl
    · rw [j.kids.vd l hl]; exact j.whi l hl

/-- The new facets can be subdivided. -/
theorem J.base : Base w s (fun x => s0.mesh.laths ≤ x ∧ x < s.mesh.laths) := by
  refine ⟨j.ok B, j.simple B, ⟨fun l h => h.2, ?_, ?_⟩, B.kv, B.kf, ?_, fun l hl => (j.vert_lt B hl).1, fun l hl => (j.vert_lt B hl).2, fun l h => (j.new l h.1 h.2).1,
    fun l h => (j.new l h.1 h.2).2.1, fun l h => (j.new l h.1 h.2).2.2⟩
  · intro l hl
    have := j.cf_side B hl
    omega
  · intro l x h e
    exact ((j.sound B l x h.1 h.2 e).range B.ok j.kids).2
  · intro x hx
    by_cases hxN : x < s0.mesh.laths
    · rw [j.same.hard x hxN]; exact B.h0 x hxN
    · obtain ⟨l, hl, r, hr, rfl⟩ := j.kids.cover x (by omega) hx
      obtain ⟨h1, h2, h3, h4⟩ := j.hard_new l hl
      have h1' : r = 0 ∨ r = 1 ∨ r = 2 ∨ r = 3 := by omega
      rcases h1' with rfl | rfl | rfl | rfl
      · rw [Nat.add_zero, h1]; exact sq_nonneg' B j
      · rw [h2]; exact sq_nonneg' B j
      · rw [h3]
      · rw [h4]

end

omit B in
/-- The laths of a closed fan, in order. -/
theorem fwd_list {m : Mesh} {c : Nat} : ∀ (t : List Nat) (x : Nat) (fuel : Nat), List.IsChain (fun a b => m.cv a = some b) (x :: t) → (∀ z, (x :: t).getLast? = some z → m.cv z = some c) → c ∉ t → t.length < fuel →
    m.fwd c fuel (m.cv x) = some (t, false)
  | [], x, fuel, _, hl, _, hf => by
    rw [hl x rfl]
    obtain ⟨f, rfl⟩ : ∃ f, fuel = f + 1 := ⟨fuel - 1, by simp at hf; omega⟩
    simp [Mesh.fwd]
  | y :: t, x, fuel, hc, hl, hn, hf => by
    rw [List.isChain_cons_cons] at hc
    rw [hc.1]
    obtain ⟨f, rfl⟩ : ∃ f, fuel = f + 1 := ⟨fuel - 1, by simp at hf; omega⟩
    have hyc : ¬ y = c := fun e => hn (by simp [e])
    rw [Mesh.fwd, if_neg hyc, fwd_list t y f hc.2 (fun z hz => hl z (by rw [List.getLast?_cons_cons]; exact hz)) (fun h => hn (by simp [h])) (by simp at hf; omega)]
    rfl

omit B in
theorem mapM_some {α β : Type} {f : α → Option β} {h : α → β} : ∀ {L : List α}, (∀ x ∈ L, f x = some (h x)) → L.mapM f = some (L.map h)
  | [], _ => rfl
  | x :: L, H => by
    rw [List.mapM_cons, H x (by simp), mapM_some fun y hy => H y (by simp [hy])]
    rfl

/-- The sub-facets of a facet: those of the corners `L`, turned. -/
def subs (g : Nat → Nat) (L : List Nat) : List Nat := (List.range L.length).map fun i => g (L.getD i 0) + (3 * i) % 4

/-- A facet that was subdivided before. -/
theorem J.again (j : J w s0 D mv me mf fv fe ff S g V W F s) {l : Nat} (hl : S l) (fuel : Nat) : ∃ L, s0.mesh.Qfe l = some L ∧ subdivideFace K w (fuel + 1) s l = some (s, subs g L) := by
  have hlN := j.kids.lt l hl
  obtain ⟨a, z, e1, nd, hN, ch, hz, hzl⟩ := B.ok.face hlN
  have hSL : ∀ x ∈ l :: a, S x := by
    intro x hx
    obtain ⟨L', f1, _, _, f4⟩ := B.ok.facet_mem hlN
    rw [e1] at f1
    cases f1
    exact (j.facet B ((f4 x).1 hx)).1 hl
  refine ⟨l :: a, e1, ?_⟩
  have hcv : ∀ x, S x → s.mesh.cv (g x + 2) = some (g (s0.mesh.cf x) + 2) := by
    intro x hx
    have := j.kids.range x hx
    exact (j.cv _ _ (by omega) (by omega)).2 (.c hx)
  have hlen : (l :: a).length ≤ s0.mesh.laths := length_le_of_nodup nd hN
  have hle := j.same.sub.le
  have hfwd : s.mesh.fwd (g l + 2) (s.mesh.laths + 1) (s.mesh.cv (g l + 2)) = some (a.map (fun x => g x + 2), false) := by
    refine fwd_list _ _ _ ?_ ?_ ?_ ?_
    · have : (g l + 2) :: a.map (fun x => g x + 2) = (l :: a).map fun x => g x + 2 := rfl
      rw [this, List.isChain_map]
      refine ch.imp_of_mem_imp ?_
      intro x y hx hy e
      rw [hcv x (hSL x hx), e]
    · intro u hu
      have : (g l + 2) :: a.map (fun x => g x + 2) = (l :: a).map fun x => g x + 2 := rfl
      rw [this, List.getLast?_map, hz] at hu
      simp only [Option.map_some, Option.some.injEq] at hu
      rw [← hu, hcv z (hSL z (List.mem_of_getLast? hz))]
      rw [hzl]
    · intro h
      obtain ⟨x, hx, e⟩ := List.mem_map.1 h
      have := (j.kids.inj x l (hSL x (by simp [hx])) hl 2 (by omega) 2 (by omega) e).1
      subst this
      exact (List.nodup_cons.1 nd).1 hx
    · simp at hlen ⊢; omega
  have hQ : s.mesh.Qvf (g l + 2) = some ((l :: a).map fun x => g x + 2) := by
    simp only [Mesh.Qvf, hfwd, Option.bind_some, Bool.false_eq_true, if_false, List.map_cons]
  rw [subdivideFace, j.face_in l hl]
  simp only [hQ, Option.bind_some]
  have hkid : ∀ x, S x → ∀ r < 4, s.mesh.ccf (g x + r) = some (g x + (r + 3) % 4) := fun x hx r hr => ccf_kid B.ok j.kids (j.sound B) hx hr
  rw [mapM_some (h := fun p : Nat × Nat => p.1 - 2 + (3 * p.2) % 4)]
  · simp only [Option.map_some]
    congr 2
    refine List.ext_getElem (by simp [subs]) ?_
    intro i h1 h2
    have hi : i < (l :: a).length := by simpa using h1
    simp only [subs, List.getElem_map, List.getElem_zipIdx, List.getElem_range, List.getD_eq_getElem _ _ hi]
    omega
  · rintro ⟨x, i⟩ hp
    rw [List.mem_zipIdx_iff_getElem?, List.getElem?_map, Option.map_eq_some_iff] at hp
    obtain ⟨y, hy, rfl⟩ := hp
    have hyS := hSL y (List.mem_of_getElem? hy)
    simp only
    rw [hkid y hyS 2 (by omega), Option.bind_some, hkid y hyS 1 (by omega), Option.bind_some]
    have := turn_quad (hkid y hyS) i 0 (by omega)
    rw [show (1 + 3) % 4 = 0 from rfl, this]
    congr 1
    omega

end
end Verif.Geom.Subd
