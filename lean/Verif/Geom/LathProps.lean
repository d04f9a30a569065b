import Verif.Geom.LathFacetLemmas
/-!
# Properties of laths and of the mesh of a subdivision surface (C73)

`Ok m` (`LathLemmas`) says that `cf` permutes the laths and that a link `cv` goes to a lath of the same vertex and has a link back across the edge. `Fan`, `SameFacet` and `SameEdge` say
that links `cv`, links `cf`, or an edge connect two laths. `Good n faces` (`LathFacetLemmas`) says that facets have three or more distinct vertices below `n` and that no edge occurs twice in the
same direction.
-/
namespace Verif.Geom.Lath
open Mesh

/-- A grid of two by two facets. -/
abbrev grid : List (List Nat) := [[0, 1, 4, 3], [1, 2, 5, 4], [3, 4, 7, 6], [4, 5, 8, 7]]

theorem grid_good : Good 9 grid := ⟨by decide, by decide, by decide, by decide⟩

/-- Two triangles that meet in one vertex. -/
abbrev bowTie : List (List Nat) := [[0, 1, 2], [0, 3, 4]]

theorem bowTie_good : Good 5 bowTie := ⟨by decide, by decide, by decide, by decide⟩

/-- The sides of a tetrahedron at one vertex, and one more triangle at that vertex. -/
abbrev spike : List (List Nat) := [[0, 1, 2], [0, 2, 3], [0, 3, 1], [0, 4, 5]]

theorem spike_good : Good 6 spike := ⟨by decide, by decide, by decide, by decide⟩

/-! ## Building -/

/-- The links in terms of those of the facets. -/
theorem fan_iff {r m : Mesh} {pf : Nat → Nat} (I : Inv r pf m.atVert.length m) (l x : Nat) : Fan m l x ↔ MFan r pf l x := by
  constructor
  · intro h
    refine Relation.EqvGen.mono (?_ : ∀ a b, _ → _) _ _ h
    rintro a b ⟨ha, e⟩
    exact I.sound a (I.laths ▸ ha) b e
  · intro h
    refine Relation.EqvGen.mono (?_ : ∀ a b, _ → _) _ _ h
    intro a b e
    exact ⟨I.laths ▸ e.1, (I.cv_iff e.1 b).2 e⟩

/-- **Links.** `Finalise` ends, and `cv` links `l` to `x` if and only if the edge that ends at `x` is the edge that starts at `l`, in the other direction. -/
theorem C73_links (fv : Bool) {n : Nat} {faces : List (List Nat)} (G : Good n faces) : ∃ m, build fv n faces = some m ∧ m.laths = (faces.flatMap edgesOf).length ∧
    ∀ l < m.laths, ∀ x, m.cv l = some x ↔ x < m.laths ∧ ∃ a b, (faces.flatMap edgesOf)[l]? = some (a, b) ∧ (faces.flatMap edgesOf)[m.cf x]? = some (b, a) := by
  obtain ⟨r, m, h, e, I⟩ := build_ok G fv
  have B := facet_base G h
  refine ⟨m, e, by rw [flatMap_edges_length, I.laths, r_laths G h], ?_⟩
  intro l hl x
  rw [I.laths] at hl ⊢
  rw [I.cv_iff hl x, I.cf]
  constructor
  · intro k
    refine ⟨k.2.1, _, _, edge_at G h hl, ?_⟩
    rw [edge_at G h (B.cf_lt x k.2.1), B.pf_cf x k.2.1, k.2.2.1, k.2.2.2]
  · rintro ⟨hx, a, b, h1, h2⟩
    rw [edge_at G h hl] at h1
    rw [edge_at G h (B.cf_lt x hx), B.pf_cf x hx] at h2
    cases h1
    injection h2 with h2
    injection h2 with h3 h4
    exact ⟨hl, hx, h4, h3⟩

/-- **Corners.** Lath `i` of a facet stands at the vertex `i` of the facet, or at a copy of it; `cf` and `ccf` go to the vertices before and after it; `m_apFacets` has the first lath
of each facet. -/
theorem C73_corners (fv : Bool) {n : Nat} {faces : List (List Nat)} (G : Good n faces) : ∃ m, build fv n faces = some m ∧
    m.facets = (List.range faces.length).map (fun k => ((faces.take k).map List.length).sum) ∧
    ∀ pre vs post, faces = pre ++ vs :: post → ∀ i (hi : i < vs.length),
      m.src.getD (m.vert ((pre.map List.length).sum + i)) 0 = vs[i] ∧
      m.cf ((pre.map List.length).sum + i) = (pre.map List.length).sum + (i + vs.length - 1) % vs.length ∧
      m.ccf ((pre.map List.length).sum + i) = some ((pre.map List.length).sum + (i + 1) % vs.length) := by
  obtain ⟨r, m, h, e, I⟩ := build_ok G fv
  have B := facet_base G h
  refine ⟨m, e, ?_, ?_⟩
  · rw [I.facets, h.facets]; simp [Mesh.prepare, total]
  · intro pre vs post hf i hi
    have hlt := block_lt G h hf hi
    refine ⟨?_, ?_, ?_⟩
    · have := I.src _ hlt
      rw [(new_at G h hf hi).1] at this
      exact this
    · rw [I.cf]; exact (new_at G h hf hi).2.1
    · refine (I.ok B).ccf_eq ?_ ?_
      · rw [I.laths]; exact block_lt G h hf (Nat.mod_lt _ (by omega))
      · rw [I.cf]; exact next_at G h hf hi

/-- **The links fit together.** -/
theorem C73_ok (fv : Bool) {n : Nat} {faces : List (List Nat)} (G : Good n faces) : ∃ m, build fv n faces = some m ∧ Ok m ∧ NoLoop m := by
  obtain ⟨r, m, h, e, I⟩ := build_ok G fv
  have B := facet_base G h
  refine ⟨m, e, I.ok B, ?_⟩
  intro l hl k
  rw [I.laths] at hl
  rw [I.cf] at k
  exact facet_loop G h hl (I.i2 _ (B.cf_lt l hl) _ hl k)

/-- **Vertices (partial).** Laths of one fan have one vertex, a vertex that was not in the input has the values of the given one, and laths of one vertex are in one fan unless one of their
fans is closed. Without the last condition this is false, see `C73_vertices_violated`. -/
theorem C73_vertices_partial (fv : Bool) {n : Nat} {faces : List (List Nat)} (G : Good n faces) : ∃ m, build fv n faces = some m ∧
    (∀ l x, Fan m l x → m.vert l = m.vert x) ∧
    (∀ l < m.laths, ∃ a b, (faces.flatMap edgesOf)[l]? = some (a, b) ∧ m.src.getD (m.vert l) 0 = a) ∧
    (∀ l < m.laths, ∀ x < m.laths, m.vert l = m.vert x → Fan m l x ∨ (∀ y, Fan m l y → m.cv y ≠ none) ∨ (∀ y, Fan m x y → m.cv y ≠ none)) := by
  obtain ⟨r, m, h, e, I⟩ := build_ok G fv
  have B := facet_base G h
  refine ⟨m, e, fun l x hf => ((I.ok B).fan_vert hf).symm, ?_, ?_⟩
  · intro l hl
    rw [I.laths] at hl
    exact ⟨_, _, edge_at G h hl, I.src l hl⟩
  · intro l hl x hx k
    rw [I.laths] at hl hx
    have hlt : m.vert l < m.atVert.length := by
      by_contra hge
      have := (I.at_mem (m.vert l) l).2 ⟨hl, rfl⟩
      rw [List.getD_eq_default _ _ (by omega)] at this
      cases this
    have hclosed : ∀ z, Closed r (pfOf r) z → ∀ y, Fan m z y → m.cv y ≠ none := by
      intro z hz y hy
      obtain ⟨w, hw⟩ := hz y ((fan_iff I z y).1 hy)
      rw [(I.cv_iff hw.1 w).2 hw]; simp
    rcases I.fan l hl x hx k hlt with a | a | a
    · exact Or.inl ((fan_iff I l x).2 a)
    · exact Or.inr (Or.inl (hclosed l a))
    · exact Or.inr (Or.inr (hclosed x a))

/-- **Vertices (violated).** The lath where a closed fan starts is counted twice. If there is one more lath at the vertex, it is not found: it stays at the vertex although it is in another fan. -/
theorem C73_vertices_violated : Good 6 spike ∧ ∃ m, build true 6 spike = some m ∧ m.vert 9 = m.vert 0 ∧ ¬ Fan m 9 0 := by
  refine ⟨spike_good, ?_⟩
  obtain ⟨r, m, _, e, _⟩ := build_ok spike_good true
  refine ⟨m, e, ?_, ?_⟩
  · have h1 : (build true 6 spike).map (fun m => (m.vert 9, m.vert 0)) = some (0, 0) := by decide +kernel
    rw [e] at h1
    simp at h1
    rw [h1.1, h1.2]
  · have h1 : (build true 6 spike).map (fun m => (m.laths, (List.range 12).map m.cv)) =
        some (12, [some 6, none, some 4, some 0, none, some 7, some 3, none, some 1, none, none, none]) := by decide +kernel
    rw [e] at h1
    simp only [Option.map_some, Option.some.injEq, Prod.mk.injEq] at h1
    obtain ⟨h1, h2⟩ := h1
    have hcv : ∀ l < 12, m.cv l = ([some 6, none, some 4, some 0, none, some 7, some 3, none, some 1, none, none, none] : List (Option Nat)).getD l none := by
      intro l hl
      rw [← h2]
      simp [List.getD_eq_getElem?_getD, hl]
    intro hf
    have : (9 = 9) ↔ (0 = 9) := by
      refine mem_of_eqvGen (A := fun y => y = 9) ?_ hf
      rintro a b ⟨ha, hab⟩
      rw [h1] at ha
      rw [hcv a ha] at hab
      have key : ∀ a < 12, ([some 6, none, some 4, some 0, none, some 7, some 3, none, some 1, none, none, none] : List (Option Nat)).getD a none ≠ some 9 := by decide
      have key2 : ([some 6, none, some 4, some 0, none, some 7, some 3, none, some 1, none, none, none] : List (Option Nat)).getD 9 none = none := by decide
      constructor
      · rintro rfl; rw [key2] at hab; cases hab
      · rintro rfl; exact absurd hab (key a ha)
    simp at this

/-- **Manifolds.** If all laths at each vertex are in one fan, no lath is moved: each has its given vertex and its given face vertex. -/
theorem C73_manifold (fv : Bool) {n : Nat} {faces : List (List Nat)} (G : Good n faces) : ∃ m, build fv n faces = some m ∧
    ((∀ l < m.laths, ∀ x < m.laths, m.src.getD (m.vert l) 0 = m.src.getD (m.vert x) 0 → Fan m l x) →
      ∀ l < m.laths, (∃ b, (faces.flatMap edgesOf)[l]? = some (m.vert l, b)) ∧ m.fvert l = l) := by
  obtain ⟨r, m, h, e, I⟩ := build_ok G fv
  have B := facet_base G h
  refine ⟨m, e, fun hm l hl => ?_⟩
  rw [I.laths] at hl hm
  obtain ⟨x, hx, hxv⟩ := I.stay l hl
  have hn : r.atVert.length = n := by
    have := (facet_inv G h).srclen
    rw [h.src] at this
    simpa [Mesh.prepare] using this.symm
  have hV : r.vert l < r.atVert.length := by
    by_contra hge
    have := ((facet_inv G h).at_mem (r.vert l) l).2 ⟨hl, rfl⟩
    rw [List.getD_eq_default _ _ (by omega)] at this
    cases this
  have hk := I.keep x hx (by omega)
  have hfan := hm x hx l hl (by rw [I.src x hx, I.src l hl, ← hk.1, hxv])
  have hv : m.vert l = m.vert x := (I.ok B).fan_vert hfan
  have hkl := I.keep l hl (by omega)
  refine ⟨⟨_, by rw [edge_at G h hl, hkl.1]⟩, ?_⟩
  rw [hkl.2]
  rw [r_laths G h] at hl
  obtain ⟨pre, vs, post, i, hf, hi, rfl⟩ := split_total faces l hl
  exact (new_at G h hf hi).2.2

example : ∃ m, build true 9 grid = some m ∧ m.laths = 16 ∧ (List.range 16).map m.vert = grid.flatten := by
  obtain ⟨m, e, _⟩ := C73_links true grid_good
  refine ⟨m, e, ?_⟩
  have h1 : (build true 9 grid).map (fun m => (m.laths, (List.range 16).map m.vert)) = some (16, grid.flatten) := by decide +kernel
  rw [e] at h1
  simpa using h1

/-- **Face vertices (partial).** A lath at a vertex of the input has its own face varying value. Laths that were moved may not, see `C73_facevarying_violated`. -/
theorem C73_facevarying_partial (fv : Bool) {n : Nat} {faces : List (List Nat)} (G : Good n faces) : ∃ m, build fv n faces = some m ∧
    ∀ l < m.laths, m.vert l < n → m.fsrc.getD (m.fvert l) 0 = l := by
  obtain ⟨r, m, h, e, I⟩ := build_ok G fv
  refine ⟨m, e, fun l hl hv => ?_⟩
  rw [I.laths] at hl
  have hn : r.atVert.length = n := by
    have := (facet_inv G h).srclen
    rw [h.src] at this
    simpa [Mesh.prepare] using this.symm
  rw [(I.keep l hl (by omega)).2]
  have hf : r.fvert l = l := by
    rw [r_laths G h] at hl
    obtain ⟨pre, vs, post, i, hf, hi, rfl⟩ := split_total faces l hl
    exact (new_at G h hf hi).2.2
  rw [hf]
  obtain ⟨t, ht⟩ := I.fsrc
  have hlen : l < total faces := by rw [← r_laths G h]; exact hl
  rw [← ht, h.fsrc]
  simp only [Mesh.prepare]
  rw [List.getD_append _ _ _ _ (by simpa using hlen)]
  simp [List.getD_eq_getElem?_getD, hlen]

/-- **Face vertices (violated).** The laths that are moved to a new vertex get one face vertex, with the value of a lath that stays. -/
theorem C73_facevarying_violated : Good 5 bowTie ∧
    (build true 5 bowTie).map (fun m => (m.vert 3, m.src.getD (m.vert 3) 0, m.fsrc.getD (m.fvert 3) 0)) = some (5, 0, 0) := by
  exact ⟨bowTie_good, by decide +kernel⟩

/-! ## Neighbours -/

/-- **Around a facet.** `ccf` is the inverse of `cf`. -/
theorem C73_ccf {m : Mesh} (h : Ok m) {l x : Nat} (hx : x < m.laths) (e : m.cf x = l) : m.ccf l = some x := h.ccf_eq hx e

/-- **Around a vertex.** `ccv` is the inverse of `cv`. -/
theorem C73_ccv {m : Mesh} (h : Ok m) {l x : Nat} (hl : l < m.laths) (hx : x < m.laths) : m.ccv x = some l ↔ m.cv l = some x := h.ccv_iff hl hx

/-- **Companions.** The companion of the companion of an edge is the edge, and its ends are exchanged. -/
theorem C73_companion {m : Mesh} (h : Ok m) {l x : Nat} (hl : l < m.laths) (e : m.ec l = some x) :
    m.ec x = some l ∧ (m.ccf l).map m.vert = some (m.vert x) ∧ (m.ccf x).map m.vert = some (m.vert l) := by
  have key : ∀ l < m.laths, ∀ x, m.ec l = some x → (m.ccf x).map m.vert = some (m.vert l) := by
    intro l hl x e
    simp only [Mesh.ec, Option.map_eq_some_iff] at e
    obtain ⟨y, e1, e2⟩ := e
    rw [h.ccf_eq (h.cv_lt l hl y e1) e2, Option.map_some, h.cv_vert l hl y e1]
  have hb := h.ec_ec hl e
  exact ⟨hb, key x (h.ec_lt hl e) l hb, key l hl x e⟩

/-- **Laths of a facet.** `Qfe` has each lath of the facet once, beginning with the given one, each followed by the next clockwise. -/
theorem C73_facet {m : Mesh} (h : Ok m) {l : Nat} (hl : l < m.laths) : ∃ L, m.Qfe l = some L ∧ L.Nodup ∧ L.head? = some l ∧ (∀ x, x ∈ L ↔ SameFacet m l x) ∧
    List.IsChain (fun a b => m.cf a = b) L := by
  obtain ⟨L, e1, e2, e3, e4⟩ := h.facet_mem hl
  obtain ⟨a, z, f1, _, _, f4, _⟩ := h.face hl
  rw [e1] at f1; cases f1
  exact ⟨_, e1, e2, e3, e4, f4⟩

/-- **Facets at a vertex.** `Qvf` has each lath of the fan once, beginning with the given one. -/
theorem C73_fan {m : Mesh} (h : Ok m) {l : Nat} (hl : l < m.laths) : ∃ F, m.Qvf l = some F ∧ F.Nodup ∧ F.head? = some l ∧ ∀ x, x ∈ F ↔ Fan m l x := by
  obtain ⟨F, e1, e2, e3, _, e5, _⟩ := h.fan_all hl
  exact ⟨F, e1, e2, e3, e5⟩

/-- **Edges at a vertex.** `Qve` has each edge of the fan once: both edges of each lath are there, no two entries are the same edge, and there is one more edge than facets exactly at a boundary. -/
theorem C73_edges {m : Mesh} (h : Ok m) (hn : NoLoop m) {l : Nat} (hl : l < m.laths) : ∃ F L, m.Qvf l = some F ∧ m.Qve l = some L ∧
    L.Pairwise (fun x y => ¬ SameEdge m x y) ∧ (∀ x, Fan m l x → (∃ y ∈ L, SameEdge m x y) ∧ ∃ y ∈ L, SameEdge m (m.cf x) y) ∧
    (∀ y ∈ L, Fan m l y ∨ ∃ x, Fan m l x ∧ m.cf x = y) ∧
    L.length = F.length + (if m.isBoundaryVertex l = some true then 1 else 0) := by
  obtain ⟨F, L, e1, e2, e3, e4, e5, e6⟩ := h.edges hn hl
  obtain ⟨b, hb, hb2⟩ := h.boundary hl
  refine ⟨F, L, e1, e2, e3, e4, fun y hy => (e5 y hy).imp id (fun ⟨x, a, _, c⟩ => ⟨x, a, c⟩), ?_⟩
  rcases e6 with ⟨a, c⟩ | ⟨a, c⟩
  · have : b ≠ true := fun hbt => by obtain ⟨x, hx, hx2⟩ := hb2.1 hbt; exact c x hx hx2
    rw [hb, if_neg (by simpa using this), a]; rfl
  · rw [hb, if_pos (by rw [hb2.2 c]), a]

/-- **Vertices around a vertex.** `Qvv` has the vertices at the other ends of the edges of `Qve`, in the same order. -/
theorem C73_neighbours {m : Mesh} (h : Ok m) (hn : NoLoop m) {l : Nat} (hl : l < m.laths) : ∃ L R, m.Qve l = some L ∧ m.Qvv l = some R ∧
    List.Forall₂ (fun x y => (Fan m l x ∧ m.cf y = x) ∨ (y = x ∧ ∃ s, Fan m l s ∧ m.cf s = x)) L R ∧
    ∀ v, v ∈ R.map m.vert ↔ ∃ x, Fan m l x ∧ (v = m.vert (m.cf x) ∨ ∃ y < m.laths, m.cf y = x ∧ v = m.vert y) := by
  obtain ⟨L, R, e1, e2, e3⟩ := h.neighbours hn hl
  obtain ⟨R', f1, f2⟩ := h.neighbours_all hn hl
  rw [e2] at f1; cases f1
  refine ⟨L, R, e1, e2, e3.imp ?_, f2⟩
  rintro x y (⟨a, _, c⟩ | a)
  · exact Or.inl ⟨a, c⟩
  · exact Or.inr a

/-- **Edges at an edge.** `Qee` has the edges at both ends, and the edge itself not again. -/
theorem C73_edge_edges {m : Mesh} (h : Ok m) (hn : NoLoop m) {l x : Nat} (hx : x < m.laths) (hxl : m.cf x = l) : ∃ L1 L2 R, m.Qve l = some L1 ∧ m.Qve x = some L2 ∧ m.Qee l = some R ∧
    ∀ y, y ∈ R ↔ y ∈ L1 ∨ (y ∈ L2 ∧ ¬ SameEdge m l y) := h.ee hn hx hxl

/-- **Facets at a facet.** `Qff` has each facet that shares a vertex with the facet once, and no other. -/
theorem C73_facets {m : Mesh} (h : Ok m) (hn : NoLoop m) {l : Nat} (hl : l < m.laths) : ∃ R, m.Qff l = some R ∧ R.Pairwise (fun x y => ¬ SameFacet m x y) ∧
    (∀ x z, SameFacet m l x → Fan m x z → ∃ y ∈ R, SameFacet m y z) ∧
    (∀ y ∈ R, ∃ x z, SameFacet m l x ∧ Fan m x z ∧ SameFacet m y z) := h.facets hn hl

/-- **Boundaries.** `isBoundaryVertex` says whether there is an edge of the fan without companion. -/
theorem C73_boundary {m : Mesh} (h : Ok m) {l : Nat} (hl : l < m.laths) : ∃ b, m.isBoundaryVertex l = some b ∧ (b = true ↔ ∃ x, Fan m l x ∧ m.ec x = none) := by
  obtain ⟨b, e1, e2⟩ := h.boundary hl
  refine ⟨b, e1, e2.trans ?_⟩
  obtain ⟨F, _, _, _, f4, f5, f6⟩ := h.fan_all hl
  have hec : ∀ x, m.ec x = none ↔ m.cv x = none := by intro x; simp [Mesh.ec]
  rcases f6 with ⟨_, g1, g2⟩ | ⟨z, s, hz, hs, _, g1, g2, _⟩
  · constructor
    · rintro ⟨x, hx, e⟩
      obtain ⟨y, hy, e'⟩ := g2 x ((f5 x).2 hx)
      rw [h.ccv_of_cv (f4 y hy) e'] at e; cases e
    · rintro ⟨x, hx, e⟩
      obtain ⟨y, hy, e'⟩ := g1 x ((f5 x).2 hx)
      rw [(hec x).1 e] at e'; cases e'
  · exact ⟨fun _ => ⟨z, (f5 z).1 hz, (hec z).2 g2⟩, fun _ => ⟨s, (f5 s).1 hs, g1⟩⟩

/-- **Corners of the surface.** `isCornerVertex` says that the lath is alone in an open fan. -/
theorem C73_corner {m : Mesh} (h : Ok m) {l : Nat} (hl : l < m.laths) : m.isCornerVertex l = true ↔ m.ec l = none ∧ ∀ x, Fan m l x → x = l := by
  rw [h.corner hl]; simp [Mesh.ec]

example : ∃ m, build true 9 grid = some m ∧ Ok m ∧ NoLoop m := C73_ok true grid_good

example : (build true 9 grid).map (fun m => (m.Qve 2, m.Qvv 2, m.Qve 1, m.Qvv 1)) =
    some (some [2, 9, 12, 7], some [3, 10, 13, 4], some [1, 4, 0], some [2, 5, 0]) := by decide +kernel

end Verif.Geom.Lath
