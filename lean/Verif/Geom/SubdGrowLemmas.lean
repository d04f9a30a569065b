import Verif.Geom.SubdSplitLemmas
/-!
# Lemmas about subdividing a facet: the state after the points and laths are made
-/
set_option linter.unusedSectionVars false
namespace Verif.Geom.Subd
open Verif.Geom.Lath

/-- A function that is changed for the laths of a facet. -/
def upd (L : List Nat) (G V : Nat → Nat) (x : Nat) : Nat := if x ∈ L then G x else V x

theorem upd_in {L : List Nat} {G V : Nat → Nat} {x : Nat} (h : x ∈ L) : upd L G V x = G x := if_pos h

theorem upd_out {L : List Nat} {G V : Nat → Nat} {x : Nat} (h : x ∉ L) : upd L G V x = V x := if_neg h

section
variable {K E : Type} [Field K] [LinearOrder K] [IsStrictOrderedRing K] [AddCommGroup E] [Module K E]

/-- The state after the points and laths of the facet of `l0` are made. -/
structure Split (w : Vars E) (s0 : State K E) (D : Nat → Prop) (mv me mf fv fe ff : Nat → E) (S : Nat → Prop) (g V W F : Nat → Nat) (s : State K E) (l0 : Nat) (L : List Nat)
    (s1 s2 s3 : State K E) (f q : Nat) (Ge He Gv Hv : Nat → Nat) (s4 : State K E) : Prop where
  j : J w s0 D mv me mf fv fe ff S g V W F s
  hD : D l0
  hS : ¬ S l0
  nodup : L.Nodup
  mem : ∀ x, x ∈ L ↔ SameFacet s0.mesh l0 x
  nxt : ∀ i < L.length, L.getD ((i + 1) % L.length) 0 = s0.mesh.cf (L.getD i 0)
  M1 : Made s s1 (fun _ => none) mf ff [l0] (fun _ => f) (fun _ => q)
  M2 : Made s1 s2 (fun x => ((s.mesh.ec x).bind s.mid).map s.mesh.vert) me fe L Ge He
  M3 : Made s2 s3 (fun x => (s.child x).map s.mesh.vert) mv fv L Gv Hv
  Q : Quads s0.mesh s3 L (L.map fun x => (Gv x, Hv x)) (L.map fun x => (Ge x, He x)) (f, q) L.length s4

section
variable {w : Vars E} {s0 : State K E} {D : Nat → Prop} (B : Base w s0 D) {mv me mf fv fe ff : Nat → E} {S : Nat → Prop} {g V W F : Nat → Nat} {s : State K E} {l0 : Nat} {L : List Nat}
  {s1 s2 s3 : State K E} {f q : Nat} {Ge He Gv Hv : Nat → Nat} {s4 : State K E}
include B

/-- Facets are subdivided as a whole. -/
theorem J.facet (j : J w s0 D mv me mf fv fe ff S g V W F s) {x y : Nat} (h : SameFacet s0.mesh x y) : S x ↔ S y := by
  refine mem_of_eqvGen (A := S) ?_ h
  rintro a b ⟨ha, rfl⟩
  exact ⟨j.kids.next a, j.prev a ha⟩

/-- The vertex that is found for a corner. -/
theorem J.look_v (j : J w s0 D mv me mf fv fe ff S g V W F s) {x : Nat} (hx : D x) : (∃ y, S y ∧ Fan s0.mesh x y ∧ (s.child x).map s.mesh.vert = some (V y)) ∨
    ((s.child x).map s.mesh.vert = none ∧ ∀ y, S y → ¬ Fan s0.mesh x y) := by
  by_cases h : ∃ y, S y ∧ Fan s0.mesh x y
  · obtain ⟨y, h1, h2⟩ := h
    obtain ⟨z, h3, h4, h5⟩ := j.child_in y x h1 (.symm _ _ h2)
    exact .inl ⟨z, h3, .trans _ _ _ h2 h4, by rw [h5, Option.map_some, j.kids.va z h3]⟩
  · push Not at h
    exact .inr ⟨by rw [j.child_out x hx h]; rfl, h⟩

/-- The vertex that is found for an edge. -/
theorem J.look_e (j : J w s0 D mv me mf fv fe ff S g V W F s) {x : Nat} (hx : D x) (hS : ¬ S x) :
    (∃ y, S y ∧ SameEdge s0.mesh x y ∧ ((s.mesh.ec x).bind s.mid).map s.mesh.vert = some (W y)) ∨
    (((s.mesh.ec x).bind s.mid).map s.mesh.vert = none ∧ ∀ y, S y → ¬ SameEdge s0.mesh x y) := by
  have hN := B.dom.lt x hx
  rw [j.same.sub.ec B.ok hN]
  cases e : s0.mesh.ec x with
  | none =>
    refine .inr ⟨rfl, fun y hy h => ?_⟩
    rcases (sameEdge_iff B.ok hN (j.kids.lt y hy)).1 h with rfl | h
    · exact hS hy
    · rw [e] at h; cases h
  | some z =>
    have hz := B.dom.ec B.ok hx e
    by_cases hzS : S z
    · exact .inl ⟨z, hzS, .inr (.inl e), by rw [Option.bind_some, j.mid_in z hzS, Option.map_some, j.kids.vd z hzS]⟩
    · refine .inr ⟨by rw [Option.bind_some, j.mid_out z hz hzS]; rfl, fun y hy h => ?_⟩
      rcases (sameEdge_iff B.ok hN (j.kids.lt y hy)).1 h with rfl | h
      · exact hS hy
      · rw [e] at h; cases h; exact hzS hy

variable (P : Split w s0 D mv me mf fv fe ff S g V W F s l0 L s1 s2 s3 f q Ge He Gv Hv s4)
include P

theorem Split.memL {x : Nat} (hx : x ∈ L) : x < s0.mesh.laths ∧ D x ∧ ¬ S x ∧ s0.mesh.cf x ∈ L := by
  have h := (P.mem x).1 hx
  have hl := B.dom.lt _ P.hD
  have hN := (B.ok.facet_lt h).1 hl
  exact ⟨hN, (B.dom.facet B.ok h).1 P.hD, fun hs => P.hS ((P.j.facet B h).2 hs), (P.mem _).2 (.trans _ _ _ h (.rel _ _ ⟨hN, rfl⟩))⟩

theorem Split.prevL {x : Nat} (hx : x < s0.mesh.laths) (h : s0.mesh.cf x ∈ L) : x ∈ L :=
  (P.mem _).2 (.trans _ _ _ ((P.mem _).1 h) (.symm _ _ (.rel _ _ ⟨hx, rfl⟩)))

theorem Split.notL {x : Nat} (hx : S x) : x ∉ L := fun h => (P.memL B h).2.2.1 hx

theorem Split.idx {x : Nat} (hx : x ∈ L) : L.idxOf x < L.length ∧ L.getD (L.idxOf x) 0 = x := by
  have h := List.idxOf_lt_length_of_mem hx
  exact ⟨h, by rw [List.getD_eq_getElem _ _ h]; exact List.getElem_idxOf h⟩

theorem Split.idx_get {i : Nat} (hi : i < L.length) : L.getD i 0 ∈ L ∧ L.idxOf (L.getD i 0) = i := by
  rw [List.getD_eq_getElem _ _ hi]
  exact ⟨List.getElem_mem hi, P.nodup.idxOf_getElem i hi⟩

theorem Split.idx_cf {x : Nat} (hx : x ∈ L) : (L.idxOf x + 1) % L.length = L.idxOf (s0.mesh.cf x) := by
  obtain ⟨h1, h2⟩ := P.idx B hx
  have h3 := P.nxt _ h1
  rw [h2] at h3
  have h4 : (L.idxOf x + 1) % L.length < L.length := Nat.mod_lt _ (by omega)
  rw [← h3, (P.idx_get B h4).2]

theorem Split.lens : s.mesh.atVert.length ≤ f ∧ f < s1.mesh.atVert.length ∧ s.mesh.atVert.length ≤ s1.mesh.atVert.length ∧ s1.mesh.atVert.length ≤ s2.mesh.atVert.length ∧
    s2.mesh.atVert.length ≤ s3.mesh.atVert.length ∧ s4.mesh.atVert.length = s3.mesh.atVert.length ∧ s0.mesh.atVert.length ≤ s.mesh.atVert.length :=
  ⟨P.M1.lo l0 (by simp) rfl, P.M1.hi l0 (by simp) rfl, P.M1.ext.len, P.M2.ext.len, P.M3.ext.len, P.Q.len, P.j.same.len⟩

theorem Split.v_cases {x : Nat} (hx : x ∈ L) : (∃ y, S y ∧ Fan s0.mesh x y ∧ Gv x = V y) ∨
    (s2.mesh.atVert.length ≤ Gv x ∧ Gv x < s3.mesh.atVert.length ∧ s3.val (Gv x) = mv x ∧ (s.child x).map s.mesh.vert = none ∧ ∀ y, S y → ¬ Fan s0.mesh x y) := by
  rcases P.j.look_v B (P.memL B hx).2.1 with ⟨y, h1, h2, h3⟩ | ⟨h1, h2⟩
  · exact .inl ⟨y, h1, h2, P.M3.old x hx _ h3⟩
  · exact .inr ⟨P.M3.lo x hx h1, P.M3.hi x hx h1, P.M3.val x hx h1, h1, h2⟩

theorem Split.w_cases {x : Nat} (hx : x ∈ L) : (∃ y, S y ∧ SameEdge s0.mesh x y ∧ Ge x = W y) ∨
    (s1.mesh.atVert.length ≤ Ge x ∧ Ge x < s2.mesh.atVert.length ∧ s2.val (Ge x) = me x ∧ ((s.mesh.ec x).bind s.mid).map s.mesh.vert = none ∧ ∀ y, S y → ¬ SameEdge s0.mesh x y) := by
  rcases P.j.look_e B (P.memL B hx).2.1 (P.memL B hx).2.2.1 with ⟨y, h1, h2, h3⟩ | ⟨h1, h2⟩
  · exact .inl ⟨y, h1, h2, P.M2.old x hx _ h3⟩
  · exact .inr ⟨P.M2.lo x hx h1, P.M2.hi x hx h1, P.M2.val x hx h1, h1, h2⟩

theorem Split.pts : Pts s0.mesh (fun x => S x ∨ x ∈ L) (upd L Gv V) (upd L Ge W) (upd L (fun _ => f) F) := by
  have hsepF : ∀ x ∈ L, ∀ y ∈ L, SameFacet s0.mesh x y := fun x hx y hy => .trans _ _ _ (.symm _ _ ((P.mem x).1 hx)) ((P.mem y).1 hy)
  have hlt : ∀ x, (S x ∨ x ∈ L) → x < s0.mesh.laths := fun x h => h.elim (P.j.kids.lt x) fun h => (P.memL B h).1
  obtain ⟨n1, n2, n3, n4, n5, n6, n7⟩ := P.lens B
  refine ⟨?_, ?_, ?_, ?_, ?_, ?_⟩
  · refine ext_iff (n := s.mesh.atVert.length) (fun a b h => .symm _ _ h) (fun a b c _ _ _ h h' => .trans _ _ _ h h') (fun a => .refl _) P.j.kids.pts.vv P.j.vhi (fun x hx => (P.memL B hx).2.2.1) ?_ ?_ ?_
    · intro x hx
      rcases P.v_cases B hx with h | ⟨h1, _, _, _, h2⟩
      · exact .inl h
      · exact .inr ⟨by omega, h2⟩
    · intro x hx y hy h1 h2 e
      rcases P.v_cases B hx with ⟨z, k1, _, k3⟩ | ⟨_, _, _, k1, _⟩
      · have := P.j.vhi z k1; omega
      · rcases P.v_cases B hy with ⟨z, q1, _, q3⟩ | ⟨_, _, _, q1, _⟩
        · have := P.j.vhi z q1; omega
        · exact P.M3.inj x hx y hy k1 q1 e
    · intro x hx y hy h
      exact B.simple.fan B.ok (P.memL B hx).1 (hsepF x hx y hy) h
  · refine ext_iff (n := s.mesh.atVert.length) (fun a b h => sameEdge_symm B.ok h) (fun a b c ha hb hc h h' => sameEdge_trans B.ok (hlt a ha) (hlt b hb) (hlt c hc) h h') (fun a => .inl rfl)
      P.j.kids.pts.ww P.j.whi (fun x hx => (P.memL B hx).2.2.1) ?_ ?_ ?_
    · intro x hx
      rcases P.w_cases B hx with h | ⟨h1, _, _, _, h2⟩
      · exact .inl h
      · exact .inr ⟨by omega, h2⟩
    · intro x hx y hy h1 h2 e
      rcases P.w_cases B hx with ⟨z, k1, _, k3⟩ | ⟨_, _, _, k1, _⟩
      · have := P.j.whi z k1; omega
      · rcases P.w_cases B hy with ⟨z, q1, _, q3⟩ | ⟨_, _, _, q1, _⟩
        · have := P.j.whi z q1; omega
        · exact P.M2.inj x hx y hy k1 q1 e
    · intro x hx y hy h
      exact B.simple.edge B.ok (P.memL B hx).1 (hsepF x hx y hy) h
  · intro l x hl hx
    rcases hl with hl | hl <;> rcases hx with hx | hx
    · rw [upd_out (P.notL B hl), upd_out (P.notL B hx)]; exact P.j.kids.pts.ff l x hl hx
    · rw [upd_out (P.notL B hl), upd_in hx]
      have := P.j.fhi l hl
      exact ⟨fun e => by omega, fun h => absurd ((P.j.facet B h).1 hl) (P.memL B hx).2.2.1⟩
    · rw [upd_in hl, upd_out (P.notL B hx)]
      have := P.j.fhi x hx
      exact ⟨fun e => by omega, fun h => absurd ((P.j.facet B h).2 hx) (P.memL B hl).2.2.1⟩
    · rw [upd_in hl, upd_in hx]
      exact ⟨fun _ => hsepF l hl x hx, fun _ => rfl⟩
  · intro l x hl hx
    rcases hl with hl | hl <;> rcases hx with hx | hx
    · rw [upd_out (P.notL B hl), upd_out (P.notL B hx)]; exact P.j.kids.pts.vw l x hl hx
    · rw [upd_out (P.notL B hl), upd_in hx]
      have := P.j.vhi l hl
      rcases P.w_cases B hx with ⟨y, h1, _, h3⟩ | ⟨h1, _⟩
      · rw [h3]; exact P.j.kids.pts.vw l y hl h1
      · omega
    · rw [upd_in hl, upd_out (P.notL B hx)]
      have := P.j.whi x hx
      rcases P.v_cases B hl with ⟨y, h1, _, h3⟩ | ⟨h1, _⟩
      · rw [h3]; exact P.j.kids.pts.vw y x h1 hx
      · omega
    · rw [upd_in hl, upd_in hx]
      rcases P.v_cases B hl with ⟨y, h1, _, h3⟩ | ⟨h1, _⟩ <;> rcases P.w_cases B hx with ⟨z, k1, _, k3⟩ | ⟨k1, k2, _⟩
      · rw [h3, k3]; exact P.j.kids.pts.vw y z h1 k1
      · have := P.j.vhi y h1; omega
      · have := P.j.whi z k1; omega
      · omega
  · intro l x hl hx
    rcases hl with hl | hl <;> rcases hx with hx | hx
    · rw [upd_out (P.notL B hl), upd_out (P.notL B hx)]; exact P.j.kids.pts.vf l x hl hx
    · rw [upd_out (P.notL B hl), upd_in hx]
      have := P.j.vhi l hl
      omega
    · rw [upd_in hl, upd_out (P.notL B hx)]
      have := P.j.fhi x hx
      rcases P.v_cases B hl with ⟨y, h1, _, h3⟩ | ⟨h1, _⟩
      · rw [h3]; exact P.j.kids.pts.vf y x h1 hx
      · omega
    · rw [upd_in hl, upd_in hx]
      rcases P.v_cases B hl with ⟨y, h1, _, h3⟩ | ⟨h1, _⟩
      · have := P.j.vhi y h1; omega
      · omega
  · intro l x hl hx
    rcases hl with hl | hl <;> rcases hx with hx | hx
    · rw [upd_out (P.notL B hl), upd_out (P.notL B hx)]; exact P.j.kids.pts.wf l x hl hx
    · rw [upd_out (P.notL B hl), upd_in hx]
      have := P.j.whi l hl
      omega
    · rw [upd_in hl, upd_out (P.notL B hx)]
      have := P.j.fhi x hx
      rcases P.w_cases B hl with ⟨y, h1, _, h3⟩ | ⟨h1, _⟩
      · rw [h3]; exact P.j.kids.pts.wf y x h1 hx
      · omega
    · rw [upd_in hl, upd_in hx]
      rcases P.w_cases B hl with ⟨y, h1, _, h3⟩ | ⟨h1, _⟩
      · have := P.j.whi y h1; omega
      · omega

theorem Split.laths : s3.mesh.laths = s.mesh.laths ∧ s4.mesh.laths = s.mesh.laths + 4 * L.length := by
  have h := P.Q.laths
  obtain ⟨k1, e1⟩ := P.M1.ext.mesh
  obtain ⟨k2, e2⟩ := P.M2.ext.mesh
  obtain ⟨k3, e3⟩ := P.M3.ext.mesh
  have : s3.mesh.laths = s.mesh.laths := by rw [e3, e2, e1]
  exact ⟨this, by rw [h, this]⟩

theorem Split.ext : Ext s s3 := (P.M1.ext.trans P.M2.ext).trans P.M3.ext

/-- The laths of the new facets. -/
theorem Split.verts {x : Nat} (hx : x ∈ L) : let a := s.mesh.laths + 4 * L.idxOf x
    (s4.mesh.vert a = Gv x ∧ s4.mesh.vert (a + 1) = Ge (s0.mesh.cf x) ∧ s4.mesh.vert (a + 2) = f ∧ s4.mesh.vert (a + 3) = Ge x) ∧
    s4.mesh.fvert a = Hv x ∧ s4.mesh.fvert (a + 1) = He (s0.mesh.cf x) ∧ s4.mesh.fvert (a + 2) = q ∧ s4.mesh.fvert (a + 3) = He x := by
  intro a
  obtain ⟨i1, i2⟩ := P.idx B hx
  have hcf := (P.memL B hx).2.2.2
  obtain ⟨k1, k2⟩ := P.idx B hcf
  have hg : ∀ (G H : Nat → Nat), ∀ y ∈ L, (L.map fun x => (G x, H x)).getD (L.idxOf y) (0, 0) = (G y, H y) := by
    intro G H y hy
    obtain ⟨p1, p2⟩ := P.idx B hy
    rw [List.getD_eq_getElem _ _ (by simpa using p1), List.getElem_map]
    rw [List.getD_eq_getElem _ _ p1] at p2
    rw [p2]
  have va := P.Q.vert_a _ i1
  have vb := P.Q.vert_b _ i1
  have vc := P.Q.vert_c _ i1
  have vd := P.Q.vert_d _ i1
  rw [P.idx_cf B hx, hg _ _ _ hcf] at vb
  rw [hg _ _ _ hx] at va vd
  rw [(P.laths B).1] at va vb vc vd
  exact ⟨⟨va.1, vb.1, vc.1, vd.1⟩, va.2, vb.2, vc.2, vd.2⟩

theorem Split.kids : Kids s0.mesh s0.mesh.atVert.length (fun x => S x ∨ x ∈ L) (upd L (fun x => s.mesh.laths + 4 * L.idxOf x) g) (upd L Gv V) (upd L Ge W) (upd L (fun _ => f) F) s4.mesh := by
  obtain ⟨l3, l4⟩ := P.laths B
  have hle := P.j.same.sub.le
  obtain ⟨n1, n2, n3, n4, n5, n6, n7⟩ := P.lens B
  have old : ∀ l, S l → ∀ r < 4, s4.mesh.vert (g l + r) = s.mesh.vert (g l + r) ∧ s4.mesh.cf (g l + r) = s.mesh.cf (g l + r) := by
    intro l hl r hr
    have := P.j.kids.range l hl
    obtain ⟨k, e⟩ := (P.ext B).mesh
    exact ⟨by rw [P.Q.vert_old _ (by omega), e], by rw [P.Q.cf_old _ (by omega), e]⟩
  refine ⟨?_, ?_, ?_, ?_, ?_, ?_, ?_, ?_, ?_, ?_, P.pts B, ?_, ?_, ?_⟩
  · exact fun l hl => hl.elim (P.j.kids.lt l) fun h => (P.memL B h).1
  · exact fun l hl => hl.imp (P.j.kids.next l) fun h => (P.memL B h).2.2.2
  · intro l hl
    rcases hl with hl | hl
    · rw [upd_out (P.notL B hl)]
      have := P.j.kids.range l hl
      omega
    · rw [upd_in hl]
      have := (P.idx B hl).1
      omega
  · intro l x hl hx r hr t ht e
    rcases hl with hl | hl <;> rcases hx with hx | hx
    · rw [upd_out (P.notL B hl), upd_out (P.notL B hx)] at e
      exact P.j.kids.inj l x hl hx r hr t ht e
    · rw [upd_out (P.notL B hl), upd_in hx] at e
      have := P.j.kids.range l hl
      omega
    · rw [upd_in hl, upd_out (P.notL B hx)] at e
      have := P.j.kids.range x hx
      omega
    · rw [upd_in hl, upd_in hx] at e
      have e1 : L.idxOf l = L.idxOf x := by omega
      refine ⟨?_, by omega⟩
      rw [← (P.idx B hl).2, e1, (P.idx B hx).2]
  · intro y h1 h2
    by_cases hy : y < s.mesh.laths
    · obtain ⟨l, hl, r, hr, e⟩ := P.j.kids.cover y h1 hy
      exact ⟨l, .inl hl, r, hr, by rw [upd_out (P.notL B hl)]; exact e⟩
    · have hi : (y - s.mesh.laths) / 4 < L.length := by omega
      obtain ⟨i1, i2⟩ := P.idx_get B hi
      refine ⟨_, .inr i1, (y - s.mesh.laths) % 4, Nat.mod_lt _ (by omega), ?_⟩
      rw [upd_in i1, i2]
      omega
  · intro l hl r hr
    rcases hl with hl | hl
    · rw [upd_out (P.notL B hl), (old l hl r hr).2]
      exact P.j.kids.cf l hl r hr
    · rw [upd_in hl]
      have := P.Q.cf_new _ (P.idx B hl).1 r hr
      rw [l3] at this
      exact this
  · intro l hl
    rcases hl with hl | hl
    · rw [upd_out (P.notL B hl), upd_out (P.notL B hl), ← P.j.kids.va l hl]; exact (old l hl 0 (by omega)).1
    · rw [upd_in hl, upd_in hl]; exact (P.verts B hl).1.1
  · intro l hl
    rcases hl with hl | hl
    · rw [upd_out (P.notL B hl), upd_out (P.notL B (P.j.kids.next _ hl)), ← P.j.kids.vb l hl]; exact (old l hl 1 (by omega)).1
    · rw [upd_in hl, upd_in (P.memL B hl).2.2.2]; exact (P.verts B hl).1.2.1
  · intro l hl
    rcases hl with hl | hl
    · rw [upd_out (P.notL B hl), upd_out (P.notL B hl), ← P.j.kids.vc l hl]; exact (old l hl 2 (by omega)).1
    · rw [upd_in hl, upd_in hl]; exact (P.verts B hl).1.2.2.1
  · intro l hl
    rcases hl with hl | hl
    · rw [upd_out (P.notL B hl), upd_out (P.notL B hl), ← P.j.kids.vd l hl]; exact (old l hl 3 (by omega)).1
    · rw [upd_in hl, upd_in hl]; exact (P.verts B hl).1.2.2.2
  · intro l hl
    rcases hl with hl | hl
    · rw [upd_out (P.notL B hl)]; exact P.j.kids.vlo l hl
    · rw [upd_in hl]
      rcases P.v_cases B hl with ⟨y, h1, _, h3⟩ | ⟨h1, _⟩
      · rw [h3]; exact P.j.kids.vlo y h1
      · omega
  · intro l hl
    rcases hl with hl | hl
    · rw [upd_out (P.notL B hl)]; exact P.j.kids.wlo l hl
    · rw [upd_in hl]
      rcases P.w_cases B hl with ⟨y, h1, _, h3⟩ | ⟨h1, _⟩
      · rw [h3]; exact P.j.kids.wlo y h1
      · omega
  · intro u hu x
    obtain ⟨k, e⟩ := (P.ext B).mesh
    have hat : s3.mesh.atVert.getD u [] = s.mesh.atVert.getD u [] := by
      rw [e]
      simp only
      by_cases h : u < s.mesh.atVert.length
      · rw [List.getD_append _ _ _ _ h]
      · rw [List.getD_append_right _ _ _ _ (by omega), List.getD_eq_default _ _ (show s.mesh.atVert.length ≤ u by omega)]
        by_cases h' : u - s.mesh.atVert.length < k
        · rw [List.getD_eq_getElem _ _ (by simpa using h')]; simp
        · rw [List.getD_eq_default _ _ (by simp; omega)]
    rw [P.Q.atv u x, hat, P.j.kids.atv u hu x]
    constructor
    · rintro (⟨h1, h2, h3⟩ | h)
      · exact ⟨h1, by omega, by rw [P.Q.vert_old _ (by omega), e]; exact h3⟩
      · exact ⟨by omega, by omega, h.2.2⟩
    · rintro ⟨h1, h2, h3⟩
      by_cases hx : x < s.mesh.laths
      · rw [P.Q.vert_old _ (by omega), e] at h3
        exact .inl ⟨h1, hx, h3⟩
      · exact .inr ⟨by omega, by omega, h3⟩

theorem Split.sound : Sound s0.mesh (fun x => S x ∨ x ∈ L) (upd L (fun x => s.mesh.laths + 4 * L.idxOf x) g) s4.mesh := by
  obtain ⟨l3, l4⟩ := P.laths B
  intro x y h1 h2 h3
  by_cases hx : x < s.mesh.laths
  · obtain ⟨k, e⟩ := (P.ext B).mesh
    rw [P.Q.cv_old x (by omega), e] at h3
    have gS : ∀ z, S z → g z = upd L (fun x => s.mesh.laths + 4 * L.idxOf x) g z := fun z hz => (upd_out (P.notL B hz)).symm
    cases (P.j.cv x y h1 hx).1 h3 with
    | a k1 k2 k3 => rw [gS _ k1, gS _ k2]; exact .a (.inl k1) (.inl k2) k3
    | b k1 k2 k3 => rw [gS _ k1, gS _ k2]; exact .b (.inl k1) (.inl k2) k3
    | c k1 => rw [gS _ k1, gS _ (P.j.kids.next _ k1)]; exact .c (.inl k1)
    | d k1 => rw [gS _ k1, gS _ (P.j.kids.next _ k1)]; exact .d (.inl k1)
  · obtain ⟨i, hi, r, hr, rfl⟩ : ∃ i < L.length, ∃ r < 4, x = s3.mesh.laths + 4 * i + r := ⟨(x - s3.mesh.laths) / 4, by omega, (x - s3.mesh.laths) % 4, by omega, by omega⟩
    rw [P.Q.cv_new i hi r hr] at h3
    cases h3

end
end
end Verif.Geom.Subd
