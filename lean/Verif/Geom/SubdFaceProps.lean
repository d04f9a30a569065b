import Verif.Geom.SubdCallsLemmas
import Verif.Geom.LathProps
import Verif.Geom.SubdProps
import Mathlib.Algebra.Order.Ring.Rat
import Mathlib.Algebra.Field.Rat
/-!
# Properties of subdividing the facets of a mesh

A mesh begins as one of `Verif.Geom.Lath`; `D` are the laths of the facets of one level, of which none is subdivided yet (`Base`, and `Par` for the level before). Facets are subdivided by calls of
`SubdivideFace` in any order, and more than once (`calls`).
-/
set_option linter.unusedSectionVars false
namespace Verif.Geom.Subd
open Verif.Geom.Lath

section
variable {K E : Type} [Field K] [LinearOrder K] [IsStrictOrderedRing K] [AddCommGroup E] [Module K E]

/-- The first of the four laths made for the corner `l`: at the vertex of `l`; its facet goes on to the middle of the next edge, of the facet, and of the edge of `l`. -/
def kid (s : State K E) (l : Nat) : Nat := (s.face l).getD 0 - 2

/-- The laths of the facets of a list. -/
def Facets (m : Mesh) (Ls : List Nat) (x : Nat) : Prop := ∃ l ∈ Ls, SameFacet m l x

/-- The mesh `m'` has the laths of `m` and four for each corner in `S`, each four a facet. -/
structure Quartered (m m' : Mesh) (S : Nat → Prop) (g : Nat → Nat) : Prop where
  old : ∀ l < m.laths, m'.cf l = m.cf l ∧ m'.cv l = m.cv l ∧ m'.vert l = m.vert l ∧ m'.fvert l = m.fvert l
  range : ∀ l, S l → m.laths ≤ g l ∧ g l + 3 < m'.laths
  inj : ∀ l x, S l → S x → ∀ r < 4, ∀ q < 4, g l + r = g x + q → l = x ∧ r = q
  cover : ∀ y, m.laths ≤ y → y < m'.laths → ∃ l, S l ∧ ∃ r < 4, y = g l + r
  cf : ∀ l, S l → ∀ r < 4, m'.cf (g l + r) = g l + (r + 1) % 4

/-- Tags are those of edges and vertices: all laths of one edge have one sharpness, and all laths of one vertex. -/
structure Sym (s : State K E) (D : Nat → Prop) : Prop where
  hard : ∀ l x, D l → s.mesh.ec l = some x → s.hard l = s.hard x
  corner : ∀ l x, D l → Fan s.mesh l x → s.corner l = s.corner x

section
variable {w : Vars E} {s : State K E} {D : Nat → Prop} (B : Base w s D) (Q : Par s D) {Ls : List Nat} (hD : ∀ l ∈ Ls, D l) {fuel : Nat} (hf : s.mesh.laths + 3 ≤ fuel) {s' : State K E} {R : List (List Nat)}
include B Q hD hf

theorem calls_J : ∃ s' mv me mf fv fe ff V W F g, Subd.calls w fuel s Ls = some (s', Ls.map fun l => subs g ((s.mesh.Qfe l).getD [])) ∧ Masks w s mv me mf fv fe ff ∧
    J w s D mv me mf fv fe ff (Facets s.mesh Ls) g V W F s' ∧ ∀ l, Facets s.mesh Ls l → g l = kid s' l := by
  obtain ⟨mv, me, mf, fv, fe, ff, M⟩ := exists_masks B
  obtain ⟨s', g, V, W, F, h1, j, _⟩ := J.calls B Q M Ls (J.zero B) hD
  have e : (fun x => False ∨ ∃ l ∈ Ls, SameFacet s.mesh l x) = Facets s.mesh Ls := by funext x; simp [Facets]
  rw [e] at j
  exact ⟨s', mv, me, mf, fv, fe, ff, V, W, F, g, h1 fuel hf, M, j, fun l hl => by rw [kid, j.face_in l hl]; rfl⟩

/-- **All facets can be subdivided.** With enough fuel all calls end. -/
theorem C75_total : ∃ s' R, calls w fuel s Ls = some (s', R) := by
  obtain ⟨s', _, _, _, _, _, _, _, _, _, _, h, _⟩ := calls_J B Q hD hf
  exact ⟨_, _, h⟩

variable (h : calls w fuel s Ls = some (s', R))
include h

theorem calls_inv : ∃ mv me mf fv fe ff V W F g, R = Ls.map (fun l => subs g ((s.mesh.Qfe l).getD [])) ∧ Masks w s mv me mf fv fe ff ∧
    J w s D mv me mf fv fe ff (Facets s.mesh Ls) g V W F s' ∧ ∀ l, Facets s.mesh Ls l → g l = kid s' l := by
  obtain ⟨s1, mv, me, mf, fv, fe, ff, V, W, F, g, h1, r⟩ := calls_J B Q hD hf
  rw [h] at h1
  simp only [Option.some.injEq, Prod.mk.injEq] at h1
  obtain ⟨rfl, h2⟩ := h1
  exact ⟨mv, me, mf, fv, fe, ff, V, W, F, g, h2, r⟩

/-- **The mesh.** After the calls the links still fit together, no facet visits a vertex twice, the laths that were there keep their links, vertices, values and tags, and the new laths are four for
each corner of the facets that were subdivided. -/
theorem C75_mesh : Ok s'.mesh ∧ Simple s'.mesh ∧ Quartered s.mesh s'.mesh (Facets s.mesh Ls) (kid s') ∧ (∀ i < s.mesh.atVert.length, s'.val i = s.val i) ∧ (∀ i < s.fcount, s'.fval i = s.fval i) ∧
    ∀ l < s.mesh.laths, s'.hard l = s.hard l ∧ s'.corner l = s.corner l ∧ s'.parent l = s.parent l := by
  obtain ⟨_, _, _, _, _, _, V, W, F, g, _, _, j, hg⟩ := calls_inv B Q hD hf h
  refine ⟨j.ok B, j.simple B, ⟨fun l hl => ⟨j.same.sub.cf l hl, j.same.sub.cv l hl, j.same.sub.vert l hl, j.same.sub.fvert l hl⟩, ?_, ?_, ?_, ?_⟩, j.same.val, j.same.fval,
    fun l hl => ⟨j.same.hard l hl, j.same.corner l hl, j.parent_old l hl⟩⟩
  · intro l hl
    rw [← hg l hl]
    exact j.kids.range l hl
  · intro l x hl hx
    rw [← hg l hl, ← hg x hx]
    exact j.kids.inj l x hl hx
  · intro y h1 h2
    obtain ⟨l, hl, r, hr, e⟩ := j.kids.cover y h1 h2
    exact ⟨l, hl, r, hr, by rw [← hg l hl]; exact e⟩
  · intro l hl
    rw [← hg l hl]
    exact j.kids.cf l hl

theorem next_mem {l : Nat} (hl : Facets s.mesh Ls l) : Facets s.mesh Ls (s.mesh.cf l) := by
  obtain ⟨x, hx, hxl⟩ := hl
  exact ⟨x, hx, .trans _ _ _ hxl (.rel _ _ ⟨(B.ok.facet_lt hxl).1 (B.dom.lt x (hD x hx)), rfl⟩)⟩

/-- **Links.** The next lath around a vertex is the right one of the neighbour's facets if the neighbour was subdivided, and there is none otherwise; around the middle of an edge and of a facet the
same. -/
theorem C75_links {l : Nat} (hl : Facets s.mesh Ls l) :
    (∀ y, s'.mesh.cv (kid s' l) = some y ↔ ∃ x, s.mesh.cv l = some x ∧ Facets s.mesh Ls x ∧ y = kid s' x) ∧
    (∀ y, s'.mesh.cv (kid s' l + 1) = some y ↔ ∃ x, s.mesh.ccv l = some x ∧ Facets s.mesh Ls x ∧ y = kid s' x + 3) ∧
    s'.mesh.cv (kid s' l + 2) = some (kid s' (s.mesh.cf l) + 2) ∧
    s'.mesh.cv (kid s' (s.mesh.cf l) + 3) = some (kid s' l + 1) := by
  obtain ⟨_, _, _, _, _, _, V, W, F, g, _, _, j, hg⟩ := calls_inv B Q hD hf h
  have hcl := next_mem B Q hD hf h hl
  have r1 := j.kids.range l hl
  have r2 := j.kids.range _ hcl
  rw [← hg l hl, ← hg _ hcl]
  refine ⟨?_, ?_, (j.cv _ _ (by omega) (by omega)).2 (.c hl), (j.cv _ _ (by omega) (by omega)).2 (.d hl)⟩
  · intro y
    rw [j.cv _ _ (by omega) (by omega)]
    constructor
    · intro t
      rcases t.inv with ⟨a, b, ha, hb, e, e1, e2⟩ | ⟨a, b, ha, hb, e, e1, e2⟩ | ⟨a, ha, e1, e2⟩ | ⟨a, ha, e1, e2⟩
      · obtain ⟨rfl, _⟩ := j.kids.inj l a hl ha 0 (by omega) 0 (by omega) e1
        exact ⟨b, e, hb, by rw [← hg b hb]; exact e2⟩
      · have := (j.kids.inj l a hl ha 0 (by omega) 1 (by omega) e1).2
        omega
      · have := (j.kids.inj l a hl ha 0 (by omega) 2 (by omega) e1).2
        omega
      · have := (j.kids.inj l _ hl (j.kids.next a ha) 0 (by omega) 3 (by omega) e1).2
        omega
    · rintro ⟨x, e, hx, rfl⟩
      rw [← hg x hx]
      exact .a hl hx e
  · intro y
    rw [j.cv _ _ (by omega) (by omega)]
    constructor
    · intro t
      rcases t.inv with ⟨a, b, ha, hb, e, e1, e2⟩ | ⟨a, b, ha, hb, e, e1, e2⟩ | ⟨a, ha, e1, e2⟩ | ⟨a, ha, e1, e2⟩
      · have := (j.kids.inj l a hl ha 1 (by omega) 0 (by omega) e1).2
        omega
      · obtain ⟨rfl, _⟩ := j.kids.inj l a hl ha 1 (by omega) 1 (by omega) e1
        exact ⟨b, e, hb, by rw [← hg b hb]; exact e2⟩
      · have := (j.kids.inj l a hl ha 1 (by omega) 2 (by omega) e1).2
        omega
      · have := (j.kids.inj l _ hl (j.kids.next a ha) 1 (by omega) 3 (by omega) e1).2
        omega
    · rintro ⟨x, e, hx, rfl⟩
      rw [← hg x hx]
      exact .b hl hx e

/-- **The facets that are given back.** Each call gives the new facets of the corners of its facet in their order, the `i`-th turned `i` times; a facet that was subdivided before gives the same
again and changes nothing. -/
theorem C75_facets : R = Ls.map (fun l => (List.range ((s.mesh.Qfe l).getD []).length).map fun i => kid s' (((s.mesh.Qfe l).getD []).getD i 0) + (3 * i) % 4) ∧
    ∀ l, Facets s.mesh Ls l → ∀ f, subdivideFace K w (f + 1) s' l =
      some (s', (List.range ((s.mesh.Qfe l).getD []).length).map fun i => kid s' (((s.mesh.Qfe l).getD []).getD i 0) + (3 * i) % 4) := by
  obtain ⟨_, _, _, _, _, _, V, W, F, g, hR, _, j, hg⟩ := calls_inv B Q hD hf h
  have key : ∀ l, Facets s.mesh Ls l → subs g ((s.mesh.Qfe l).getD []) = (List.range ((s.mesh.Qfe l).getD []).length).map fun i => kid s' (((s.mesh.Qfe l).getD []).getD i 0) + (3 * i) % 4 := by
    intro l hl
    obtain ⟨x, hx, hxl⟩ := hl
    have hlN := (B.ok.facet_lt hxl).1 (B.dom.lt x (hD x hx))
    obtain ⟨L, f1, _, _, f4⟩ := B.ok.facet_mem hlN
    rw [f1, Option.getD_some, subs]
    refine List.map_congr_left ?_
    intro i hi
    have hi : i < L.length := by simpa using hi
    rw [hg]
    rw [List.getD_eq_getElem _ _ hi]
    exact ⟨x, hx, .trans _ _ _ hxl ((f4 _).1 (List.getElem_mem hi))⟩
  constructor
  · rw [hR]
    exact List.map_congr_left fun l hl => key l ⟨l, hl, .refl _⟩
  · intro l hl f
    obtain ⟨L, e1, e2⟩ := j.again B hl f
    rw [e2, ← key l hl, e1, Option.getD_some]

/-- **Which points are one.** The new points of two corners are one exactly if the corners are at one vertex; those of edges exactly if the laths are on one edge, those of facets exactly on one facet;
points of different kinds are different, all are new, and the second lath is at the middle of the next edge. -/
theorem C75_points {l x : Nat} (hl : Facets s.mesh Ls l) (hx : Facets s.mesh Ls x) :
    (s'.mesh.vert (kid s' l) = s'.mesh.vert (kid s' x) ↔ Fan s.mesh l x) ∧
    (s'.mesh.vert (kid s' l + 3) = s'.mesh.vert (kid s' x + 3) ↔ SameEdge s.mesh l x) ∧
    (s'.mesh.vert (kid s' l + 2) = s'.mesh.vert (kid s' x + 2) ↔ SameFacet s.mesh l x) ∧
    s'.mesh.vert (kid s' l) ≠ s'.mesh.vert (kid s' x + 3) ∧ s'.mesh.vert (kid s' l) ≠ s'.mesh.vert (kid s' x + 2) ∧ s'.mesh.vert (kid s' l + 3) ≠ s'.mesh.vert (kid s' x + 2) ∧
    s'.mesh.vert (kid s' l + 1) = s'.mesh.vert (kid s' (s.mesh.cf l) + 3) ∧
    s.mesh.atVert.length ≤ s'.mesh.vert (kid s' l) ∧ s.mesh.atVert.length ≤ s'.mesh.vert (kid s' l + 2) ∧ s.mesh.atVert.length ≤ s'.mesh.vert (kid s' l + 3) := by
  obtain ⟨_, _, _, _, _, _, V, W, F, g, _, _, j, hg⟩ := calls_inv B Q hD hf h
  have hcl := next_mem B Q hD hf h hl
  rw [← hg l hl, ← hg _ hcl, ← hg x hx, j.kids.va l hl, j.kids.va x hx, j.kids.vd l hl, j.kids.vd x hx, j.kids.vc l hl, j.kids.vc x hx, j.kids.vb l hl, j.kids.vd _ hcl]
  exact ⟨j.kids.pts.vv l x hl hx, j.kids.pts.ww l x hl hx, j.kids.pts.ff l x hl hx, j.kids.pts.vw l x hl hx, j.kids.pts.vf l x hl hx, j.kids.pts.wf l x hl hx, rfl, j.kids.vlo l hl, j.flo l hl, j.kids.wlo l hl⟩

/-- **Tags.** The two halves of a sharp edge have the square of its sharpness, new edges inside of a facet are not sharp. -/
theorem C75_crease {l : Nat} (hl : Facets s.mesh Ls l) :
    s'.hard (kid s' l) = s.hard l * s.hard l ∧ s'.hard (kid s' l + 1) = s.hard (s.mesh.cf l) * s.hard (s.mesh.cf l) ∧ s'.hard (kid s' l + 2) = 0 ∧ s'.hard (kid s' l + 3) = 0 := by
  obtain ⟨_, _, _, _, _, _, V, W, F, g, _, _, j, hg⟩ := calls_inv B Q hD hf h
  have hlN := j.kids.lt l hl
  have hs : ∀ x < s.mesh.laths, sq (s.hard x) = s.hard x * s.hard x := by
    intro x hx
    unfold sq
    split
    · rfl
    · have := le_antisymm (not_lt.1 ‹_›) (B.h0 x hx)
      rw [this, mul_zero]
  rw [← hg l hl, ← hs l hlN, ← hs _ (B.ok.cf_lt l hlN)]
  exact j.hard_new l hl

/-- **Sharpness is again that of edges.** -/
theorem C75_crease_edges (Y : ∀ l x, D l → s.mesh.ec l = some x → s.hard l = s.hard x) : ∀ y z, s.mesh.laths ≤ y → y < s'.mesh.laths → s'.mesh.ec y = some z → s'.hard y = s'.hard z := by
  intro y z hy1 hy2 e
  obtain ⟨_, _, _, _, _, _, V, W, F, g, _, _, j, hg⟩ := calls_inv B Q hD hf h
  simp only [Mesh.ec, Option.map_eq_some_iff] at e
  obtain ⟨u, e1, rfl⟩ := e
  rcases ((j.cv y u hy1 hy2).1 e1).inv with ⟨a, b, ha, hb, e, rfl, rfl⟩ | ⟨a, b, ha, hb, e, rfl, rfl⟩ | ⟨a, ha, rfl, rfl⟩ | ⟨a, ha, rfl, rfl⟩
  · rw [j.kids.cf b hb 0 (by omega)]
    show s'.hard (g a) = s'.hard (g b + 1)
    rw [(j.hard_new a ha).1, (j.hard_new b hb).2.1, Y a _ (j.dom a ha) (B.ok.ec_of_cv e)]
  · rw [j.kids.cf b hb 3 (by omega)]
    show s'.hard (g a + 1) = s'.hard (g b)
    rw [(j.hard_new a ha).2.1, (j.hard_new b hb).1, Y b _ (j.dom b hb) (B.ok.ec_of_cv (B.ok.cv_of_ccv (j.kids.lt a ha) e))]
  · have hca := j.kids.next a ha
    rw [j.kids.cf _ hca 2 (by omega)]
    show s'.hard (g a + 2) = s'.hard (g (s.mesh.cf a) + 3)
    rw [(j.hard_new a ha).2.2.1, (j.hard_new _ hca).2.2.2]
  · have hca := j.kids.next a ha
    rw [j.kids.cf a ha 1 (by omega)]
    show s'.hard (g (s.mesh.cf a) + 3) = s'.hard (g a + 2)
    rw [(j.hard_new a ha).2.2.1, (j.hard_new _ hca).2.2.2]

theorem shared_vertex (Y : Sym s D) {l x : Nat} (hl : D l) (hx : Fan s.mesh l x) :
    createVertex K w.close s.mesh w.kv s.val s.hard s.corner x = createVertex K w.close s.mesh w.kv s.val s.hard s.corner l := by
  have hlN := B.dom.lt l hl
  have hxN := (B.ok.fan_lt hx).1 hlN
  rcases B.kv with e | e
  · rw [e, ← createVertex_hard B.ok _ _ _ _ _ hlN, ← createVertex_hard B.ok _ _ _ _ _ hxN]
    exact (C74_vertex_shared B.ok (B.simple.noLoop B.ok) (hard_nonneg B.h0) hlN hx (Y.corner l x hl hx)).symm
  · obtain ⟨pf, hp⟩ := exists_prev B.ok
    rw [(C74_varying B.ok hp s.hard s.corner (.inl e) hlN).1, (C74_varying B.ok hp s.hard s.corner (.inl e) hxN).1, e]
    simp only [Cls.index, B.ok.fan_vert hx]

theorem shared_edge (Y : Sym s D) {l x : Nat} (hl : D l) (hxN : x < s.mesh.laths) (hx : SameEdge s.mesh l x) :
    createEdgeVertex K w.close s.mesh w.kv s.val s.hard x = createEdgeVertex K w.close s.mesh w.kv s.val s.hard l := by
  have hlN := B.dom.lt l hl
  rw [sameEdge_iff B.ok hlN hxN] at hx
  rcases hx with rfl | hx
  · rfl
  rcases B.kv with e | e
  · rw [e]
    exact (C74_edge_shared B.ok hlN hx (Y.hard l x hl hx)).symm
  · obtain ⟨pf, hp⟩ := exists_prev B.ok
    rw [(C74_varying B.ok hp s.hard s.corner (.inl e) hlN).2, (C74_varying B.ok hp s.hard s.corner (.inl e) hxN).2, e]
    obtain ⟨_, h1, h2⟩ := C73_companion B.ok hlN hx
    rw [B.ok.ccf_eq (hp l hlN).1 (hp l hlN).2] at h1
    rw [B.ok.ccf_eq (hp x hxN).1 (hp x hxN).2] at h2
    simp only [Option.map_some, Option.some.injEq] at h1 h2
    simp only [Cls.index, h1, h2]
    rw [add_comm]

theorem shared_face (k : Cls) (P : Nat → E) {l x : Nat} (hlN : l < s.mesh.laths) (hx : SameFacet s.mesh l x) : createFaceVertex K s.mesh k P x = createFaceVertex K s.mesh k P l := by
  obtain ⟨L, hL⟩ := exists_facet B.ok hlN
  have hL' : IsFacet s.mesh x L := ⟨hL.1, fun y => (hL.2 y).trans ⟨fun h => .trans _ _ _ (.symm _ _ hx) h, fun h => .trans _ _ _ hx h⟩⟩
  rw [C74_face B.ok k hlN hL, C74_face B.ok k ((B.ok.facet_lt hx).1 hlN) hL']

/-- **Values.** The new points have the values that the masks give for their vertex, edge or facet, whichever lath of it was used. -/
theorem C75_values (Y : Sym s D) {l : Nat} (hl : Facets s.mesh Ls l) :
    createVertex K w.close s.mesh w.kv s.val s.hard s.corner l = some (s'.val (s'.mesh.vert (kid s' l))) ∧
    createEdgeVertex K w.close s.mesh w.kv s.val s.hard (s.mesh.cf l) = some (s'.val (s'.mesh.vert (kid s' l + 1))) ∧
    createFaceVertex K s.mesh w.kv s.val l = some (s'.val (s'.mesh.vert (kid s' l + 2))) ∧
    createEdgeVertex K w.close s.mesh w.kv s.val s.hard l = some (s'.val (s'.mesh.vert (kid s' l + 3))) := by
  obtain ⟨_, _, _, _, _, _, V, W, F, g, _, M, j, hg⟩ := calls_inv B Q hD hf h
  have hcl := next_mem B Q hD hf h hl
  have edge : ∀ l, Facets s.mesh Ls l → createEdgeVertex K w.close s.mesh w.kv s.val s.hard l = some (s'.val (W l)) := by
    intro l hl
    obtain ⟨x, h1, h2, h3⟩ := j.val_w l hl
    rw [h3, ← M.e x h2, shared_edge B Q hD hf h Y (j.dom l hl) h2 h1]
  rw [← hg l hl, j.kids.va l hl, j.kids.vb l hl, j.kids.vc l hl, j.kids.vd l hl]
  refine ⟨?_, edge _ hcl, ?_, edge l hl⟩
  · obtain ⟨x, h1, h3⟩ := j.val_v l hl
    rw [h3, ← M.v x ((B.ok.fan_lt h1).1 (j.kids.lt l hl)), shared_vertex B Q hD hf h Y (j.dom l hl) h1]
  · obtain ⟨x, h1, h3⟩ := j.val_f l hl
    rw [h3, ← M.f x ((B.ok.facet_lt h1).1 (j.kids.lt l hl)), shared_face B Q hD hf h _ _ (j.kids.lt l hl) h1]

/-- **Values at the corners of facets.** The new corners have the values that the masks give for the corner of their own facet. -/
theorem C75_facevalues {l : Nat} (hl : Facets s.mesh Ls l) :
    createVertex K w.close s.mesh w.kf s.fval s.hard s.corner l = some (s'.fval (s'.mesh.fvert (kid s' l))) ∧
    createEdgeVertex K w.close s.mesh w.kf s.fval s.hard (s.mesh.cf l) = some (s'.fval (s'.mesh.fvert (kid s' l + 1))) ∧
    createFaceVertex K s.mesh w.kf s.fval l = some (s'.fval (s'.mesh.fvert (kid s' l + 2))) ∧
    createEdgeVertex K w.close s.mesh w.kf s.fval s.hard l = some (s'.fval (s'.mesh.fvert (kid s' l + 3))) := by
  obtain ⟨_, _, _, _, _, _, V, W, F, g, _, M, j, hg⟩ := calls_inv B Q hD hf h
  have hcl := next_mem B Q hD hf h hl
  have hlN := j.kids.lt l hl
  rw [← hg l hl, j.fvert_w l hl, j.fval_v l hl, j.fval_w l hl, j.fval_w _ hcl]
  refine ⟨M.fv l hlN, M.fe _ (B.ok.cf_lt l hlN), ?_, M.fe l hlN⟩
  obtain ⟨x, h1, h3⟩ := j.fval_f l hl
  rw [h3, ← M.ff x ((B.ok.facet_lt h1).1 hlN), shared_face B Q hD hf h _ _ hlN h1]

section
variable (hA : ∀ x, D x → Facets s.mesh Ls x)
include hA

/-- **Refinement.** When all facets of the level are subdivided, the new mesh is the refinement of the old one. -/
theorem C75_refines : Refines s.mesh s'.mesh D (kid s') (fun l => kid s' l + 1) (fun l => kid s' l + 2) (fun l => kid s' l + 3) := by
  obtain ⟨_, _, G, _⟩ := C75_mesh B Q hD hf h
  refine ⟨?_, ?_, ?_, ?_, ?_, ?_, ?_, ?_, ?_, ?_, ?_⟩
  · intro l hl
    have := G.range l (hA l hl)
    refine ⟨?_, ?_, ?_, ?_⟩ <;> omega
  · intro l _
    simp
  · intro l hl x hx e
    exact (G.inj l x (hA l hl) (hA x hx) 0 (by omega) 0 (by omega) e).1
  · exact fun l hl => G.cf l (hA l hl) 0 (by omega)
  · exact fun l hl => G.cf l (hA l hl) 1 (by omega)
  · exact fun l hl => G.cf l (hA l hl) 2 (by omega)
  · exact fun l hl => G.cf l (hA l hl) 3 (by omega)
  · intro l hl
    have k := (C75_links B Q hD hf h (hA l hl)).1
    refine Option.ext fun y => ?_
    rw [k y, Option.map_eq_some_iff]
    exact ⟨fun ⟨x, a, _, c⟩ => ⟨x, a, c.symm⟩, fun ⟨x, a, c⟩ => ⟨x, a, hA x (B.dom.cv l x hl a), c.symm⟩⟩
  · intro l hl
    have k := (C75_links B Q hD hf h (hA l hl)).2.1
    refine Option.ext fun y => ?_
    rw [k y, Option.map_eq_some_iff]
    have hlN := B.dom.lt l hl
    refine ⟨fun ⟨x, a, _, c⟩ => ⟨x, a, c.symm⟩, fun ⟨x, a, c⟩ => ⟨x, a, hA x ?_, c.symm⟩⟩
    exact (B.dom.fan B.ok (.rel _ _ ⟨B.ok.ccv_lt hlN a, B.ok.cv_of_ccv hlN a⟩)).2 hl
  · exact fun l hl => (C75_links B Q hD hf h (hA l hl)).2.2.1
  · exact fun l hl => (C75_links B Q hD hf h (hA l hl)).2.2.2

/-- The laths of the next level. -/
def Next (s s' : State K E) (x : Nat) : Prop := s.mesh.laths ≤ x ∧ x < s'.mesh.laths

/-- **The next level.** The new facets are again facets none of which is subdivided, and all facets around their parents are; the facets given back are all of them, each once if each facet
was subdivided once. -/
theorem C75_next : Base w s' (Next s s') ∧ Par s' (Next s s') ∧ (Each s.mesh D Ls → Each s'.mesh (Next s s') R.flatten) ∧ ∀ l ∈ R.flatten, ∃ L, s'.mesh.Qfe l = some L ∧ L.length = 4 := by
  obtain ⟨_, _, _, _, _, _, V, W, F, g, hR, M, j, hg⟩ := calls_inv B Q hD hf h
  have e : Facets s.mesh Ls = D := by
    funext x
    exact propext ⟨j.dom x, hA x⟩
  rw [e] at j
  have b := j.base B
  refine ⟨b, j.par B, fun H => hR ▸ j.each B H, ?_⟩
  intro l hl
  rw [hR] at hl
  obtain ⟨A, hA', hl⟩ := List.mem_flatten.1 hl
  obtain ⟨x, hx, rfl⟩ := List.mem_map.1 hA'
  obtain ⟨y, hy, r, hr, rfl⟩ := j.mem_subs B (hD x hx) hl
  have hyD := (B.dom.facet B.ok hy).1 (hD x hx)
  have hrg := j.kids.range y hyD
  obtain ⟨L, f1, f2, _, f4⟩ := b.ok.facet_mem (l := g y + r) (by omega)
  refine ⟨L, f1, ?_⟩
  have : L.Perm ((List.range 4).map (g y + ·)) := by
    refine (List.perm_ext_iff_of_nodup f2 ?_).2 ?_
    · exact List.nodup_range.map fun a b h => by simpa using h
    · intro z
      rw [f4]
      constructor
      · intro hz
        obtain ⟨q, hq, rfl⟩ := j.facet_new B hyD hr hz
        exact List.mem_map.2 ⟨q, by simpa using hq, rfl⟩
      · intro hz
        obtain ⟨q, hq, rfl⟩ := List.mem_map.1 hz
        exact j.same_quad B hyD hr (by simpa using hq)
  simpa using this.length_eq

/-- **Limit points.** The limit point of a vertex without sharp edges and corners, and of one on the boundary, is that of its new point. -/
theorem C75_limit (hk : w.kv = .vertex) (Y : Sym s D) {l : Nat} (hl : D l) (hc : s.corner l ≤ 0) (hh : Inside s.mesh l → ∀ x, Fan s.mesh l x → s.hard x = 0 ∧ s.hard (s.mesh.cf x) = 0) :
    limitPoint K s'.mesh (fun x => s'.val (s'.mesh.vert x)) s'.corner (kid s' l) = limitPoint K s.mesh (fun x => s.val (s.mesh.vert x)) s.corner l := by
  obtain ⟨O', I', _⟩ := C75_mesh B Q hD hf h
  have Rf := C75_refines B Q hD hf h hA
  have hlN := B.dom.lt l hl
  have Vl : Values K w.close s.mesh s'.mesh D s.val s'.val (fun x => if x < s.mesh.laths then s.hard x else 0) s.corner (kid s') (fun l => kid s' l + 1) (fun l => kid s' l + 2) (fun l => kid s' l + 3) := by
    have ce : ∀ x < s.mesh.laths, createEdgeVertex K w.close s.mesh .vertex s.val (fun x => if x < s.mesh.laths then s.hard x else 0) x = createEdgeVertex K w.close s.mesh .vertex s.val s.hard x :=
      fun x hx => (Sub.refl s.mesh).createEdgeVertex K w.close B.ok _ (fun _ _ => rfl) (fun _ hy => if_pos hy) hx
    refine ⟨?_, ?_, ?_, ?_⟩
    · intro x hx
      rw [createVertex_hard B.ok _ _ _ _ _ (B.dom.lt x hx), ← hk]
      exact (C75_values B Q hD hf h Y (hA x hx)).1
    · intro x hx
      rw [ce _ (B.ok.cf_lt x (B.dom.lt x hx)), ← hk]
      exact (C75_values B Q hD hf h Y (hA x hx)).2.1
    · intro x hx
      rw [← hk]
      exact (C75_values B Q hD hf h Y (hA x hx)).2.2.1
    · intro x hx
      rw [ce _ (B.dom.lt x hx), ← hk]
      exact (C75_values B Q hD hf h Y (hA x hx)).2.2.2
  have hc' : s'.corner (kid s' l) ≤ 0 := by
    obtain ⟨_, _, _, _, _, _, V, W, F, g, _, _, j, hg⟩ := calls_inv B Q hD hf h
    rw [← hg l (hA l hl), (j.corner_new l (hA l hl)).1]
    unfold pos
    split
    · exact hc
    · exact le_refl _
  by_cases hi : Inside s.mesh l
  · refine limit_step_inside B.ok O' B.dom Rf B.simple.three I'.three Vl hl hi (B.simple.not_self B.ok hlN) (hard_nonneg B.h0) ?_ hc hc'
    intro x hx
    have hxN := (B.ok.fan_lt hx).1 hlN
    simp only [if_pos hxN, if_pos (B.ok.cf_lt x hxN)]
    exact hh hi x hx
  · exact limit_step_boundary B.ok O' B.dom Rf (B.simple.noLoop B.ok) Vl hl hi hc hc'

end

/-- **Order.** The values of the new points do not depend on the order of the calls, nor on which other facets were subdivided. -/
theorem C75_order (Y : Sym s D) {Ls2 : List Nat} (hD2 : ∀ l ∈ Ls2, D l) {s2 : State K E} {R2 : List (List Nat)} (h2 : calls w fuel s Ls2 = some (s2, R2)) {l : Nat} (hl : Facets s.mesh Ls l)
    (hl2 : Facets s.mesh Ls2 l) {r : Nat} (hr : r < 4) :
    s'.val (s'.mesh.vert (kid s' l + r)) = s2.val (s2.mesh.vert (kid s2 l + r)) ∧ s'.fval (s'.mesh.fvert (kid s' l + r)) = s2.fval (s2.mesh.fvert (kid s2 l + r)) ∧
    s'.hard (kid s' l + r) = s2.hard (kid s2 l + r) := by
  obtain ⟨a1, a2, a3, a4⟩ := C75_values B Q hD hf h Y hl
  obtain ⟨b1, b2, b3, b4⟩ := C75_values B Q hD2 hf h2 Y hl2
  obtain ⟨c1, c2, c3, c4⟩ := C75_facevalues B Q hD hf h hl
  obtain ⟨d1, d2, d3, d4⟩ := C75_facevalues B Q hD2 hf h2 hl2
  obtain ⟨e1, e2, e3, e4⟩ := C75_crease B Q hD hf h hl
  obtain ⟨f1, f2, f3, f4⟩ := C75_crease B Q hD2 hf h2 hl2
  have h1 : r = 0 ∨ r = 1 ∨ r = 2 ∨ r = 3 := by omega
  rcases h1 with rfl | rfl | rfl | rfl
  · exact ⟨Option.some.inj (a1.symm.trans b1), Option.some.inj (c1.symm.trans d1), e1.trans f1.symm⟩
  · exact ⟨Option.some.inj (a2.symm.trans b2), Option.some.inj (c2.symm.trans d2), e2.trans f2.symm⟩
  · exact ⟨Option.some.inj (a3.symm.trans b3), Option.some.inj (c3.symm.trans d3), e3.trans f3.symm⟩
  · exact ⟨Option.some.inj (a4.symm.trans b4), Option.some.inj (c4.symm.trans d4), e4.trans f4.symm⟩

/-- **No corners.** Without sharp corners there are none on the next level. -/
theorem C75_corners (hc : ∀ l, D l → s.corner l = 0) : ∀ y, s.mesh.laths ≤ y → y < s'.mesh.laths → s'.corner y = 0 := by
  intro y hy1 hy2
  obtain ⟨_, _, _, _, _, _, V, W, F, g, _, _, j, hg⟩ := calls_inv B Q hD hf h
  obtain ⟨l, hl, r, hr, rfl⟩ := j.kids.cover y hy1 hy2
  have h0 : pos (s.corner l) = 0 := by rw [hc l (j.dom l hl)]; simp [pos]
  obtain ⟨h1, h2, h3, h4⟩ := j.corner_new l hl
  have hr' : r = 0 ∨ r = 1 ∨ r = 2 ∨ r = 3 := by omega
  rcases hr' with rfl | rfl | rfl | rfl
  · exact h1.trans h0
  · exact h2.trans h0
  · exact h3
  · exact h4

omit h in
/-- **Fuel.** The bound of the loops does not matter. -/
theorem C75_fuel {fuel2 : Nat} (hf2 : s.mesh.laths + 3 ≤ fuel2) : calls w fuel2 s Ls = calls w fuel s Ls := by
  obtain ⟨mv, me, mf, fv, fe, ff, M⟩ := exists_masks B
  obtain ⟨s', g, V, W, F, h1, _⟩ := J.calls B Q M Ls (J.zero B) hD
  rw [h1 fuel hf, h1 fuel2 hf2]

end

/-! ## Levels -/

/-- All facets of the list, then all facets that come of them, and so on. -/
def levels (w : Vars E) (fuel : Nat) : Nat → State K E → List Nat → Option (State K E × List Nat)
  | 0, s, Ls => some (s, Ls)
  | n + 1, s, Ls => (calls w fuel s Ls).bind fun (s, R) => levels w fuel n s R.flatten

/-- The number of edges of all facets of the list. -/
def edges (m : Mesh) (Ls : List Nat) : Nat := (Ls.map fun l => ((m.Qfe l).getD []).length).sum

/-- What holds of each level. -/
structure Level (w : Vars E) (s : State K E) (D : Nat → Prop) (Ls : List Nat) : Prop where
  base : Base w s D
  par : Par s D
  each : Each s.mesh D Ls

/-- One level after another. -/
theorem level_next {w : Vars E} {s : State K E} {D : Nat → Prop} {Ls : List Nat} (H : Level w s D Ls) : ∃ s' R, (∀ fuel, s.mesh.laths + 3 ≤ fuel → calls w fuel s Ls = some (s', R)) ∧
    Level w s' (Next s s') R.flatten ∧ R.flatten.length = edges s.mesh Ls ∧ edges s'.mesh R.flatten = 4 * R.flatten.length ∧
    ((∀ l x, D l → s.mesh.ec l = some x → s.hard l = s.hard x) → ∀ l x, Next s s' l → s'.mesh.ec l = some x → s'.hard l = s'.hard x) ∧
    ((∀ l, D l → s.corner l = 0) → ∀ l, Next s s' l → s'.corner l = 0) := by
  obtain ⟨s', R, h⟩ := C75_total H.base H.par H.each.dom (le_refl (s.mesh.laths + 3))
  have hA : ∀ x, D x → Facets s.mesh Ls x := H.each.all
  obtain ⟨b, q, e, r⟩ := C75_next H.base H.par H.each.dom (le_refl _) h hA
  refine ⟨s', R, fun fuel hf => ?_, ⟨b, q, e H.each⟩, ?_, ?_, ?_, ?_⟩
  · rw [C75_fuel H.base H.par H.each.dom (le_refl _) hf]
    exact h
  · rw [(C75_facets H.base H.par H.each.dom (le_refl _) h).1, List.length_flatten, List.map_map, edges]
    congr 1
    refine List.map_congr_left fun l _ => ?_
    simp
  · have : R.flatten.map (fun l => ((s'.mesh.Qfe l).getD []).length) = R.flatten.map fun _ => 4 := by
      refine List.map_congr_left fun l hl => ?_
      obtain ⟨L, h1, h2⟩ := r l hl
      rw [h1, Option.getD_some, h2]
    rw [edges, this, List.map_const', List.sum_replicate, smul_eq_mul, Nat.mul_comm]
  · intro Y l x hl
    exact C75_crease_edges H.base H.par H.each.dom (le_refl _) h Y l x hl.1 hl.2
  · intro Y l hl
    exact C75_corners H.base H.par H.each.dom (le_refl _) h Y l hl.1 hl.2

/-- **Levels.** All facets can be subdivided any number of times. Each level has facets that fit together, of which none is subdivided, each once in the list; from the first level on all are
quadrilaterals, four for each one of the level before. Without sharp corners sharpness stays that of edges. -/
theorem C75_levels {w : Vars E} {s : State K E} {D : Nat → Prop} {Ls : List Nat} (H : Level w s D Ls) (n : Nat) : ∃ f0 s' D' Ls', (∀ fuel, f0 ≤ fuel → levels w fuel (n + 1) s Ls = some (s', Ls')) ∧
    Level w s' D' Ls' ∧ Ls'.length = 4 ^ n * edges s.mesh Ls ∧ edges s'.mesh Ls' = 4 * Ls'.length ∧
    ((∀ l, D l → s.corner l = 0) → (∀ l x, D l → s.mesh.ec l = some x → s.hard l = s.hard x) → Sym s' D' ∧ ∀ l, D' l → s'.corner l = 0) := by
  induction n generalizing s D Ls with
  | zero =>
    obtain ⟨s', R, h1, h2, h3, h4, h5, h6⟩ := level_next H
    refine ⟨s.mesh.laths + 3, s', Next s s', R.flatten, fun fuel hf => ?_, h2, ?_, h4, ?_⟩
    · simp only [levels, h1 fuel hf, Option.bind_some]
    · simpa using h3
    · intro hc hh
      refine ⟨⟨h5 hh, ?_⟩, h6 hc⟩
      intro l x hl hx
      rw [h6 hc l hl, h6 hc x ((h2.base.dom.fan h2.base.ok hx).1 hl)]
  | succ n ih =>
    obtain ⟨s', R, h1, h2, h3, h4, h5, h6⟩ := level_next H
    obtain ⟨f0, s2, D2, Ls2, g1, g2, g3, g4, g5⟩ := ih h2
    refine ⟨max f0 (s.mesh.laths + 3), s2, D2, Ls2, fun fuel hf => ?_, g2, ?_, g4, fun hc hh => g5 (h6 hc) (h5 hh)⟩
    · rw [levels, h1 fuel (le_trans (le_max_right _ _) hf), Option.bind_some]
      exact g1 fuel (le_trans (le_max_left _ _) hf)
    · rw [g3, h4, h3, pow_succ]
      ring

/-! ## Meshes as they are given -/

/-- A state in which nothing was subdivided. -/
structure Fresh (w : Vars E) (s : State K E) : Prop where
  kv : w.kv = .vertex ∨ w.kv = .varying
  kf : w.kf = .faceVertex ∨ w.kf = .faceVarying
  hard : ∀ l < s.mesh.laths, 0 ≤ s.hard l
  fvert : ∀ l < s.mesh.laths, s.mesh.fvert l < s.fcount
  none : ∀ l < s.mesh.laths, s.parent l = none ∧ s.child l = none ∧ s.mid l = none ∧ s.face l = none

theorem facet_block {m : Mesh} {p k : Nat} (O : Ok m) (hk : 0 < k) (hb : p + k ≤ m.laths) (hc : ∀ i < k, m.cf (p + i) = p + (i + k - 1) % k) {x y : Nat} (h : SameFacet m x y) :
    (∃ i < k, x = p + i) ↔ ∃ i < k, y = p + i := by
  refine mem_of_eqvGen (A := fun z => ∃ i < k, z = p + i) ?_ h
  rintro a b ⟨ha, rfl⟩
  constructor
  · rintro ⟨i, hi, rfl⟩
    exact ⟨_, Nat.mod_lt _ hk, hc i hi⟩
  · rintro ⟨i, hi, e⟩
    by_cases h1 : i + 1 < k
    · refine ⟨i + 1, h1, O.cf_inj _ ha _ (by omega) ?_⟩
      rw [e, hc (i + 1) h1, show i + 1 + k - 1 = i + k by omega, Nat.add_mod_right, Nat.mod_eq_of_lt hi]
    · refine ⟨0, hk, O.cf_inj _ ha _ (by omega) ?_⟩
      rw [e, hc 0 hk, show 0 + k - 1 = k - 1 by omega, Nat.mod_eq_of_lt (by omega)]
      omega

/-- **Meshes of good facets** can be subdivided: their facets are the first level. -/
theorem C75_built (fv : Bool) {n : Nat} {faces : List (List Nat)} (G : Good n faces) : ∃ m, Mesh.build fv n faces = some m ∧
    ∀ (w : Vars E) (s : State K E), s.mesh = m → Fresh w s → Level w s (fun l => l < m.laths) m.facets ∧ edges m m.facets = m.laths := by
  obtain ⟨r, m, ha, e, I⟩ := build_ok G fv
  obtain ⟨m1, e1, O, N⟩ := C73_ok fv G
  obtain ⟨m2, e2, hfac, hcor⟩ := C73_corners fv G
  rw [e] at e1 e2
  cases e1
  cases e2
  have htot : m.laths = total faces := by
    obtain ⟨m3, e3, h3, _⟩ := C73_links fv G
    rw [e] at e3
    cases e3
    rw [h3, flatMap_edges_length]
  have block : ∀ pre vs post, faces = pre ++ vs :: post → total pre + vs.length ≤ m.laths := by
    rintro pre vs post rfl
    rw [htot]
    simp [total]
  have hcf : ∀ pre vs post, faces = pre ++ vs :: post → ∀ i < vs.length, m.cf (total pre + i) = total pre + (i + vs.length - 1) % vs.length := fun pre vs post h i hi => (hcor pre vs post h i hi).2.1
  have h3 : ∀ pre vs post, faces = pre ++ vs :: post → 3 ≤ vs.length := fun pre vs post h => G.three vs (by rw [h]; simp)
  have conn : ∀ pre vs post, faces = pre ++ vs :: post → ∀ i < vs.length, SameFacet m (total pre) (total pre + i) := by
    intro pre vs post h i
    have hb := block pre vs post h
    have hk := h3 pre vs post h
    induction i with
    | zero => intro _; exact .refl _
    | succ i ih =>
      intro hi
      refine .trans _ _ _ (ih (by omega)) (.symm _ _ (.rel _ _ ⟨by omega, ?_⟩))
      rw [hcf pre vs post h (i + 1) hi, show i + 1 + vs.length - 1 = i + vs.length by omega, Nat.add_mod_right, Nat.mod_eq_of_lt (by omega)]
  have simple : Simple m := by
    constructor
    · intro x y hx h ev
      obtain ⟨pre, vs, post, i, hfs, hi, rfl⟩ := split_total faces x (by rw [← htot]; exact hx)
      have hk := h3 pre vs post hfs
      obtain ⟨q, hq, rfl⟩ := (facet_block O (by omega) (block pre vs post hfs) (hcf pre vs post hfs) h).1 ⟨i, hi, rfl⟩
      have a1 := (hcor pre vs post hfs i hi).1
      have a2 := (hcor pre vs post hfs q hq).1
      have : vs[i] = vs[q] := by
        rw [← a1, ← a2]
        exact congrArg (fun v => m.src.getD v 0) ev
      rw [((G.nodup vs (by rw [hfs]; simp)).getElem_inj_iff).1 this]
    · intro x hx h
      obtain ⟨pre, vs, post, i, hfs, hi, rfl⟩ := split_total faces x (by rw [← htot]; exact hx)
      have hk := h3 pre vs post hfs
      rw [hcf pre vs post hfs i hi, hcf pre vs post hfs _ (Nat.mod_lt _ (by omega))] at h
      have h : ((i + vs.length - 1) % vs.length + vs.length - 1) % vs.length = i := by omega
      by_cases h1 : 1 ≤ i
      · rw [show i + vs.length - 1 = (i - 1) + vs.length by omega, Nat.add_mod_right, Nat.mod_eq_of_lt (show i - 1 < vs.length by omega)] at h
        by_cases h2 : 2 ≤ i
        · rw [show i - 1 + vs.length - 1 = (i - 2) + vs.length by omega, Nat.add_mod_right, Nat.mod_eq_of_lt (by omega)] at h
          omega
        · rw [show i - 1 + vs.length - 1 = vs.length - 1 by omega, Nat.mod_eq_of_lt (by omega)] at h
          omega
      · obtain rfl : i = 0 := by omega
        rw [show 0 + vs.length - 1 = vs.length - 1 by omega, Nat.mod_eq_of_lt (show vs.length - 1 < vs.length by omega),
          show vs.length - 1 + vs.length - 1 = (vs.length - 2) + vs.length by omega, Nat.add_mod_right, Nat.mod_eq_of_lt (by omega)] at h
        omega
  have hvert : ∀ l < m.laths, m.vert l < m.atVert.length := by
    intro l hl
    by_contra hn
    have := (I.at_mem (m.vert l) l).2 ⟨by rw [← I.laths]; exact hl, rfl⟩
    rw [List.getD_eq_default _ _ (by omega)] at this
    simp at this
  have hpre : ∀ k < faces.length, ∃ vs post, faces = faces.take k ++ vs :: post := by
    intro k hk
    exact ⟨faces[k], faces.drop (k + 1), by rw [List.getElem_cons_drop, List.take_append_drop]⟩
  have each : Each m (fun l => l < m.laths) m.facets := by
    rw [hfac]
    constructor
    · intro l hl
      obtain ⟨k, hk, rfl⟩ := List.mem_map.1 hl
      obtain ⟨vs, post, hfs⟩ := hpre k (by simpa using hk)
      have := block _ vs post hfs
      have := h3 _ vs post hfs
      simp only [total] at *
      omega
    · intro x hx
      obtain ⟨pre, vs, post, i, hfs, hi, rfl⟩ := split_total faces x (by rw [← htot]; exact hx)
      refine ⟨total pre, List.mem_map.2 ⟨pre.length, ?_, ?_⟩, conn pre vs post hfs i hi⟩
      · rw [hfs]; simp
      · rw [hfs, List.take_left]; rfl
    · rw [List.pairwise_map]
      refine (List.pairwise_lt_range (n := faces.length)).imp_of_mem ?_
      intro a b ha hb hab h
      obtain ⟨vs, post, hfs⟩ := hpre a (by simpa using ha)
      have hk := h3 _ vs post hfs
      obtain ⟨i, hi, e⟩ := (facet_block O (by omega) (block _ vs post hfs) (hcf _ vs post hfs) h).1 ⟨0, by omega, rfl⟩
      have hb : b < faces.length := by simpa using hb
      have : total (faces.take a) + vs.length ≤ total (faces.take b) := by
        have h1 : faces.take (a + 1) = faces.take a ++ [vs] := by
          have h2 : a < faces.length := by omega
          have h4 : faces[a] = vs := by
            have h5 : faces[a]? = some vs := by
              conv_lhs => rw [hfs]
              rw [List.getElem?_append_right (by simp)]
              simp [min_eq_left h2.le]
            rw [List.getElem?_eq_getElem h2] at h5
            exact Option.some.inj h5
          rw [List.take_succ_eq_append_getElem h2, h4]
        have h2 : faces.take b = faces.take (a + 1) ++ (faces.drop (a + 1)).take (b - (a + 1)) := by
          rw [← List.take_add]
          congr 1
          omega
        rw [h2, h1]
        simp [total]
      simp only [total] at *
      omega
  refine ⟨m, e, fun w s hs Fr => ?_⟩
  subst hs
  refine ⟨⟨⟨O, simple, ⟨fun _ h => h, fun l hl => ⟨fun _ => hl, fun _ => O.cf_lt l hl⟩, fun l x hl e => O.cv_lt l hl x e⟩, Fr.kv, Fr.kf, Fr.hard, hvert, Fr.fvert, fun l hl => (Fr.none l hl).2.1,
    fun l hl => (Fr.none l hl).2.2.1, fun l hl => (Fr.none l hl).2.2.2⟩, fun l hl => .inl (Fr.none l hl).1, each⟩, ?_⟩
  rw [htot, edges, hfac, List.map_map, total]
  congr 1
  refine List.ext_getElem (by simp) ?_
  intro k h1 h2
  have hk : k < faces.length := by simpa using h1
  obtain ⟨vs, post, hfs⟩ := hpre k hk
  have hkk := h3 _ vs post hfs
  have hv : faces[k] = vs := by
    have h5 : faces[k]? = some vs := by
      conv_lhs => rw [hfs]
      rw [List.getElem?_append_right (by simp)]
      simp [min_eq_left hk.le]
    rw [List.getElem?_eq_getElem hk] at h5
    exact Option.some.inj h5
  simp only [List.getElem_map, List.getElem_range, Function.comp_apply, hv]
  have hb := block _ vs post hfs
  obtain ⟨L, f1, f2, _, f4⟩ := O.facet_mem (l := total (faces.take k)) (by omega)
  show ((s.mesh.Qfe (total (faces.take k))).getD []).length = vs.length
  rw [f1, Option.getD_some]
  have : L.Perm ((List.range vs.length).map (total (faces.take k) + ·)) := by
    refine (List.perm_ext_iff_of_nodup f2 (List.nodup_range.map fun a b h => by simpa using h)).2 ?_
    intro z
    rw [f4]
    constructor
    · intro hz
      obtain ⟨q, hq, rfl⟩ := (facet_block O (by omega) hb (hcf _ vs post hfs) hz).1 ⟨0, by omega, rfl⟩
      exact List.mem_map.2 ⟨q, by simpa using hq, rfl⟩
    · intro hz
      obtain ⟨q, hq, rfl⟩ := List.mem_map.1 hz
      exact conn _ vs post hfs q (by simpa using hq)
  simpa using this.length_eq

end

/-! ## What is not so -/

/-- Four squares around a vertex, the values of `squares`, and tags. -/
def four (hard corner : Mesh → Nat → ℚ) (m : Mesh) : State ℚ ℚ :=
  ⟨m, fun _ => none, fun _ => none, fun _ => none, fun _ => none, hard m, corner m, squares, squares, 16⟩

def plain : Vars ℚ := ⟨fun a b => a == b, .vertex, .faceVarying⟩

/-- The vertex in the middle is a sharp corner. -/
def tip (m : Mesh) (l : Nat) : ℚ := if m.vert l = 4 then 1 else 0

theorem four_fresh {hard corner : Mesh → Nat → ℚ} (h0 : ∀ m l, 0 ≤ hard m l) {m : Mesh} (e : Mesh.build true 9 grid = some m) : Fresh plain (four hard corner m) := by
  have h1 : (Mesh.build true 9 grid).map (fun m => (m.laths, (List.range 16).map m.fvert)) = some (16, List.range 16) := by decide +kernel
  rw [e] at h1
  simp only [Option.map_some, Option.some.injEq, Prod.mk.injEq] at h1
  refine ⟨.inl rfl, .inr rfl, fun l _ => h0 m l, ?_, fun _ _ => ⟨rfl, rfl, rfl, rfl⟩⟩
  intro l hl
  have hl : l < 16 := by rw [← h1.1]; exact hl
  have := congrArg (fun L => L[l]?) h1.2
  simp only [List.getElem?_map, List.getElem?_range hl, Option.map_some, Option.some.injEq] at this
  show m.fvert l < 16
  omega

/-- **Sharp corners are not those of vertices (violated).** `AddSharpCorner` marks the laths of all edges at the new vertex, also that of the middle of the next edge: the middle of an edge at a sharp
corner is a sharp corner for one of the laths there and none for the others. -/
theorem C75_corner_violated : ¬ ∀ (s s' : State ℚ ℚ) (D : Nat → Prop) (Ls : List Nat) (R : List (List Nat)) (fuel : Nat), Level plain s D Ls → Sym s D → s.mesh.laths + 3 ≤ fuel →
    calls plain fuel s Ls = some (s', R) → Sym s' (Next s s') := by
  intro H
  obtain ⟨m, e, hl⟩ := C75_built (K := ℚ) (E := ℚ) true grid_good
  have e1 : (Mesh.build true 9 grid).map (fun m => m.laths) = some 16 := by decide +kernel
  rw [e] at e1
  simp only [Option.map_some, Option.some.injEq] at e1
  obtain ⟨lv, _⟩ := hl plain (four (fun _ _ => 0) tip m) rfl (four_fresh (fun _ _ => le_refl _) e)
  have hf : (four (fun _ _ => 0) tip m).mesh.laths + 3 ≤ 19 := by
    show m.laths + 3 ≤ 19
    omega
  obtain ⟨s', R, h⟩ := C75_total lv.base lv.par lv.each.dom hf
  have Y := H _ s' _ _ R 19 lv ⟨fun _ _ _ _ => rfl, fun l x _ hx => ?_⟩ hf h
  · have k : (Mesh.build true 9 grid).bind (fun m => (calls plain 19 (four (fun _ _ => 0) tip m) m.facets).map fun p => (p.1.mesh.laths, p.1.mesh.cv 31, p.1.corner 31, p.1.corner 25)) =
        some (80, some 25, 0, 1) := by decide +kernel
    rw [e, Option.bind_some, h] at k
    simp only [Option.map_some, Option.some.injEq, Prod.mk.injEq] at k
    obtain ⟨k1, k2, k3, k4⟩ := k
    have := Y.corner 31 25 ⟨by show m.laths ≤ 31; omega, by omega⟩ (.rel _ _ ⟨by omega, k2⟩)
    rw [k3, k4] at this
    exact absurd this (by decide)
  · show tip m l = tip m x
    have : m.vert x = m.vert l := lv.base.ok.fan_vert hx
    simp only [tip, this]

/-- **… so that the surface depends on the order (violated).** The value of the new point of one vertex of the first level after two facets there are subdivided, in both orders. -/
theorem C75_order_violated : (Mesh.build true 9 grid).bind (fun m => (calls plain 19 (four (fun _ _ => 0) tip m) m.facets).bind fun p =>
    (calls plain 83 p.1 [25, 37]).bind fun a => (calls plain 83 p.1 [37, 25]).bind fun b => (a.1.child 25).bind fun x => (b.1.child 25).map fun y =>
      (p.1.mesh.vert 25, a.1.val (a.1.mesh.vert x), b.1.val (b.1.mesh.vert y))) = some (13, 35 / 4, 567 / 64) := by decide +kernel

/-- The edges that go through the middle from one side to the other are sharp. -/
def ridge (_ : Mesh) (l : Nat) : ℚ := if l = 2 ∨ l = 8 ∨ l = 12 ∨ l = 6 then 1 else 0

/-- **Limit points of sharp edges are not limits (violated).** `limitPoint` has no mask for sharp edges: subdividing moves the limit point. -/
theorem C75_limit_violated : ¬ ∀ (s s' : State ℚ ℚ) (D : Nat → Prop) (Ls : List Nat) (R : List (List Nat)) (fuel l : Nat), Level plain s D Ls → Sym s D → (∀ x, s.corner x = 0) → s.mesh.laths + 3 ≤ fuel →
    calls plain fuel s Ls = some (s', R) → D l →
    limitPoint ℚ s'.mesh (fun x => s'.val (s'.mesh.vert x)) s'.corner (kid s' l) = limitPoint ℚ s.mesh (fun x => s.val (s.mesh.vert x)) s.corner l := by
  intro H
  obtain ⟨m, e, hl⟩ := C75_built (K := ℚ) (E := ℚ) true grid_good
  have e1 : (Mesh.build true 9 grid).map (fun m => (m.laths, (List.range 16).all fun l => (m.ec l).all fun x => ridge m l == ridge m x)) = some (16, true) := by decide +kernel
  rw [e] at e1
  simp only [Option.map_some, Option.some.injEq, Prod.mk.injEq, List.all_eq_true, Option.all_eq_true, beq_iff_eq] at e1
  obtain ⟨lv, _⟩ := hl plain (four ridge (fun _ _ => 0) m) rfl (four_fresh (fun _ l => by unfold ridge; split <;> decide) e)
  have hf : (four ridge (fun _ _ => 0) m).mesh.laths + 3 ≤ 19 := by
    show m.laths + 3 ≤ 19
    omega
  obtain ⟨s', R, h⟩ := C75_total lv.base lv.par lv.each.dom hf
  have Y := H _ s' _ _ R 19 2 lv ⟨fun l x hl hx => e1.2 l (by rw [List.mem_range, ← e1.1]; exact hl) x hx, fun _ _ _ _ => rfl⟩ (fun _ => rfl) hf h (by omega)
  have k : (Mesh.build true 9 grid).bind (fun m => (calls plain 19 (four ridge (fun _ _ => 0) m) m.facets).map fun p =>
      [limitPoint ℚ m (fun x => squares (m.vert x)) (fun _ => 0) 2, limitPoint ℚ p.1.mesh (fun x => p.1.val (p.1.mesh.vert x)) p.1.corner (kid p.1 2)]) = some [some (58 / 3), some (107 / 6)] := by
    decide +kernel
  rw [e, Option.bind_some, h] at k
  simp only [Option.map_some, Option.some.injEq, List.cons.injEq, and_true] at k
  rw [k.2] at Y
  have := Y.trans k.1
  exact absurd this (by decide +kernel)

/-! ## The hypotheses can be met -/

/-- The level of `C75_total` and all the others. -/
example : ∃ (s : State ℚ ℚ) (D : Nat → Prop) (Ls : List Nat), Level plain s D Ls ∧ Sym s D ∧ (∀ l, D l → s.corner l = 0) ∧ (∃ l, D l) := by
  obtain ⟨m, e, hl⟩ := C75_built (K := ℚ) (E := ℚ) true grid_good
  have e1 : (Mesh.build true 9 grid).map (fun m => m.laths) = some 16 := by decide +kernel
  rw [e] at e1
  simp only [Option.map_some, Option.some.injEq] at e1
  exact ⟨_, _, _, (hl plain (four (fun _ _ => 0) (fun _ _ => 0) m) rfl (four_fresh (fun _ _ => le_refl _) e)).1, ⟨fun _ _ _ _ => rfl, fun _ _ _ _ => rfl⟩, fun _ _ => rfl, 0, by omega⟩

/-- Three calls, two of them for one facet: the facets that they give, and the values at the four laths of the corner in the middle. -/
example : (Mesh.build true 9 grid).bind (fun m => (calls plain 19 (four (fun _ _ => 0) (fun _ _ => 0) m) [3, 0, 4]).map fun p =>
    (p.2, p.1.mesh.laths, (List.range 4).map fun r => p.1.val (p.1.mesh.vert (kid p.1 2 + r)))) =
    some ([[16, 23, 26, 29], [28, 19, 22, 25], [32, 39, 42, 45]], 48, [37 / 2, 35 / 4, 13 / 2, 59 / 4]) := by decide +kernel

/-- Two levels. -/
example : (Mesh.build true 9 grid).bind (fun m => (levels plain 100 2 (four ridge (fun _ _ => 0) m) m.facets).map fun p => (p.2.length, p.1.mesh.laths)) = some (64, 336) := by decide +kernel

end Verif.Geom.Subd
