import Verif.Geom.SubdLimitLemmas
import Verif.Geom.LathProps
import Mathlib.Algebra.Module.LinearMap.Defs
import Mathlib.Algebra.Order.Ring.Rat
import Mathlib.Algebra.Field.Rat
import Mathlib.Tactic.Positivity
/-!
# Properties of the masks of a subdivision surface (C74)

`Ok` and `NoLoop` are from C73, which proves that meshes that `Finalise` builds have them. `IsFacet m l L` and `IsFan m l L` say that `L` lists the laths of the facet or of the vertex of `l` once each,
`Inside m l` that the vertex is not on the boundary, and `Prev m pf` that `pf` is the inverse of `cf`, so that the edge of `l` goes from `l` to `pf l` (`SubdLemmas`).
`smooth` is the mask of a smooth vertex (`SubdMaskLemmas`), `Largest h r k` says that `k` is the largest sharpness of the edges `r`.
-/
set_option linter.unusedSectionVars false
namespace Verif.Geom.Subd
open Verif.Geom.Lath

section
variable {K E : Type} [Field K] [LinearOrder K] [IsStrictOrderedRing K] [AddCommGroup E] [Module K E]
variable {m : Mesh} (O : Ok m) {close : E → E → Bool} {P : Nat → E} {fp : Nat → E} {pf : Nat → Nat}
include O

/-! ## Facets and edges -/

/-- **Facets.** The new point of a facet is the average of its corners, for every class of variables. -/
theorem C74_face (k : Cls) {l : Nat} (hl : l < m.laths) {L : List Nat} (hL : IsFacet m l L) :
    createFaceVertex K m k P l = some ((L.length : K)⁻¹ • (L.map fun x => P (k.index m x)).sum) :=
  facePoint_eq O hl hL

/-- **Edges.** The new point of an edge inside of the mesh goes from the average of its ends and the two facets to its middle as the sharpness goes from zero to one; on the boundary it is the middle. -/
theorem C74_edge (hf : ∀ x < m.laths, createFaceVertex K m .vertex P x = some (fp x)) (hp : Prev m pf) (h : Nat → K) {l : Nat} (hl : l < m.laths) :
    createEdgeVertex K close m .vertex P h l = some (match m.ec l with
      | some x => h l • ((2 : K)⁻¹ • (P (m.vert l) + P (m.vert (pf l)))) + (1 - h l) • ((4 : K)⁻¹ • (P (m.vert l) + P (m.vert (pf l)) + fp l + fp x))
      | none => (2 : K)⁻¹ • (P (m.vert l) + P (m.vert (pf l)))) := by
  cases e : m.ec l with
  | some x =>
    simp only [createEdgeVertex, e, Option.isSome_some, if_true]
    exact edgePoint_eq O (v := fun x => P (m.vert x)) hf hp h hl e
  | none =>
    simp only [createEdgeVertex, e, Option.isSome_none, Bool.false_eq_true, if_false]
    exact midPoint_eq O hp hl

/-- **Both sides of an edge.** The companion gives the same new point. -/
theorem C74_edge_shared {h : Nat → K} {l x : Nat} (hl : l < m.laths) (e : m.ec l = some x) (hh : h l = h x) :
    createEdgeVertex K close m .vertex P h l = createEdgeVertex K close m .vertex P h x := by
  obtain ⟨pf, hp⟩ := exists_prev O
  obtain ⟨fp, hf⟩ := exists_fp K O (fun x => P (m.vert x))
  have hx := O.ec_lt hl e
  have e' := O.ec_ec hl e
  rw [C74_edge O hf hp h hl, C74_edge O hf hp h hx, e, e']
  -- the ends
  have hends : ∀ {a b : Nat}, a < m.laths → m.ec a = some b → P (m.vert (pf b)) = P (m.vert a) := by
    intro a b ha hab
    simp only [Mesh.ec, Option.map_eq_some_iff] at hab
    obtain ⟨w, w1, w2⟩ := hab
    rw [pf_unique O hp (O.cv_lt _ ha _ w1) w2, O.cv_vert _ ha _ w1]
  simp only
  rw [hends hl e, ← hends hx e', hh]
  congr 1
  module

/-- **Face varying edges.** A facevertex variable whose values at the ends differ between the two facets is interpolated along the edge; otherwise the edge is like the edge of a vertex variable. -/
theorem C74_edge_facevertex (hf : ∀ x < m.laths, createFaceVertex K m .faceVertex P x = some (fp x)) (hp : Prev m pf) (h : Nat → K) {l y : Nat} (hl : l < m.laths) (e : m.cv l = some y) :
    createEdgeVertex K close m .faceVertex P h l = some (
      if close (P (m.fvert l)) (P (m.fvert y)) ∧ close (P (m.fvert (m.cf y))) (P (m.fvert (pf l))) then
        h l • ((2 : K)⁻¹ • (P (m.fvert l) + P (m.fvert (pf l)))) + (1 - h l) • ((4 : K)⁻¹ • (P (m.fvert l) + P (m.fvert (pf l)) + fp l + fp (m.cf y)))
      else (2 : K)⁻¹ • (P (m.fvert l) + P (m.fvert (pf l)))) := by
  have hec : m.ec l = some (m.cf y) := by simp [Mesh.ec, e]
  have hcN : m.cf y < m.laths := O.ec_lt hl hec
  have hcv : m.cv (m.cf y) = some (pf l) := by
    have := O.ec_ec hl hec
    simp only [Mesh.ec, Option.map_eq_some_iff] at this
    obtain ⟨w, w1, w2⟩ := this
    rw [w1, pf_unique O hp (O.cv_lt _ hcN _ w1) w2]
  simp only [createEdgeVertex, Cls.index, hec, Option.isSome_some, Bool.true_and, discontinuousEdge, e, hcv, Option.all_some]
  by_cases c1 : close (P (m.fvert l)) (P (m.fvert y)) = true ∧ close (P (m.fvert (m.cf y))) (P (m.fvert (pf l))) = true
  · rw [if_pos c1, if_pos (by simp [c1.1, c1.2])]
    exact edgePoint_eq O (v := fun x => P (m.fvert x)) hf hp h hl hec
  · rw [if_neg c1, if_neg (by simp only [Bool.not_eq_true', Bool.or_eq_false_iff, Bool.not_eq_false']; exact c1)]
    exact midPoint_eq O hp hl

/-- **Varying variables** are interpolated along edges and unchanged at vertices. -/
theorem C74_varying (hp : Prev m pf) (h c : Nat → K) {k : Cls} (hk : k = .varying ∨ k = .faceVarying) {l : Nat} (hl : l < m.laths) :
    createVertex K close m k P h c l = some (P (k.index m l)) ∧
    createEdgeVertex K close m k P h l = some ((2 : K)⁻¹ • (P (k.index m l) + P (k.index m (pf l)))) := by
  rcases hk with rfl | rfl
  · exact ⟨rfl, midPoint_eq O (v := fun x => P (m.vert x)) hp hl⟩
  · exact ⟨rfl, midPoint_eq O (v := fun x => P (m.fvert x)) hp hl⟩

/-! ## Vertices -/

theorem boundary_false {l : Nat} (hl : l < m.laths) (hi : Inside m l) : m.isBoundaryVertex l = some false := by
  obtain ⟨b, hb, hb2⟩ := O.boundary hl
  cases b
  · exact hb
  · obtain ⟨x, hx, hx2⟩ := hb2.1 rfl
    exact absurd hx2 (hi x hx)

theorem boundary_true {l x : Nat} (hl : l < m.laths) (hx : Fan m l x) (hx2 : m.ccv x = none) : m.isBoundaryVertex l = some true := by
  obtain ⟨b, hb, hb2⟩ := O.boundary hl
  rw [hb, hb2.2 ⟨x, hx, hx2⟩]

/-- **Boundaries.** A vertex on the boundary moves to (e1 + e2 + 6 v) / 8 for its neighbours on the boundary. A vertex of one facet stays. -/
theorem C74_boundary (N : NoLoop m) (hp : Prev m pf) (h c : Nat → K) {l z s : Nat} (hl : l < m.laths) (hz : Fan m l z) (hz2 : m.cv z = none) (hs : Fan m l s) (hs2 : m.ccv s = none) :
    createVertex K close m .vertex P h c l =
      some (if z = s then P (m.vert l) else (8 : K)⁻¹ • (P (m.vert (pf z)) + P (m.vert (m.cf s)) + (6 : K) • P (m.vert l))) := by
  simp only [createVertex, vertexPoint, boundary_true O hl hs hs2, Option.bind_some, if_true]
  exact boundaryPoint_eq O N hp hl hz hz2 hs hs2

/-- **Sharp corners** inside of the mesh stay. -/
theorem C74_sharp (h : Nat → K) {c : Nat → K} {l : Nat} (hl : l < m.laths) (hi : Inside m l) (hc : 0 < c l) : createVertex K close m .vertex P h c l = some (P (m.vert l)) := by
  simp only [createVertex, vertexPoint, boundary_false O hl hi, Option.bind_some, Bool.false_eq_true, if_false, if_pos hc, Cls.index]

/-- **Creases.** For any order of the edges of a vertex inside of the mesh by sharpness, with the two hardest edges `e1` and `e2` and the sharpness `k` of the third: the new point is the blend of the smooth
position, the position on the curve through `e1` and `e2`, and the vertex itself, with weights 1 - h2, h2 - h3, h3. -/
theorem C74_crease (hf : ∀ x < m.laths, createFaceVertex K m .vertex P x = some (fp x)) (hp : Prev m pf) {h c : Nat → K} (h0 : ∀ x, 0 ≤ h x) {l : Nat} (hl : l < m.laths) (hi : Inside m l) (hc : c l ≤ 0)
    {e1 e2 : Nat} {r : List Nat} {k : K} (hF : IsFan m l (e1 :: e2 :: r)) (he : h e2 ≤ h e1) (hr : ∀ x ∈ r, h x ≤ h e2) (hk : Largest h r k) :
    createVertex K close m .vertex P h c l = some ((1 - h e2) • smooth (K := K) fp pf (fun x => P (m.vert x)) l (e1 :: e2 :: r) +
      (h e2 - k) • ((8 : K)⁻¹ • (P (m.vert (pf e1)) + P (m.vert (pf e2)) + (6 : K) • P (m.vert l))) + k • P (m.vert l)) := by
  simp only [createVertex, vertexPoint, boundary_false O hl hi, Option.bind_some, Bool.false_eq_true, if_false, if_neg (not_lt.2 hc)]
  exact creasePoint_eq O (v := fun x => P (m.vert x)) hf hp h0 hl hi hF he hr hk

/-- **Smooth vertices.** With at most one sharp edge, the new point is Q / n + 2 R / n + (n - 3) S / n. -/
theorem C74_smooth (hf : ∀ x < m.laths, createFaceVertex K m .vertex P x = some (fp x)) (hp : Prev m pf) {h c : Nat → K} (h0 : ∀ x, 0 ≤ h x) {l : Nat} (hl : l < m.laths) (hi : Inside m l) (hc : c l ≤ 0)
    {e : Nat} {r : List Nat} (hF : IsFan m l (e :: r)) (hr : ∀ x ∈ r, h x = 0) (hne : r ≠ []) :
    createVertex K close m .vertex P h c l = some (smooth (K := K) fp pf (fun x => P (m.vert x)) l (e :: r)) := by
  obtain ⟨e2, r, rfl⟩ := List.exists_cons_of_ne_nil hne
  have h2 : h e2 = 0 := hr e2 (by simp)
  have hk : Largest h r 0 := by
    cases r with
    | nil => exact Or.inl ⟨rfl, rfl⟩
    | cons x r => exact Or.inr ⟨⟨x, by simp, hr x (by simp)⟩, fun y hy => (hr y (List.mem_cons_of_mem _ hy)).le⟩
  rw [C74_crease O hf hp h0 hl hi hc hF (by rw [h2]; exact h0 e) (by intro x hx; rw [h2]; exact (hr x (by simp [hx])).le) hk, h2]
  congr 1
  module

/-- **Every lath of a vertex** gives the same new point. -/
theorem C74_vertex_shared (N : NoLoop m) {h c : Nat → K} (h0 : ∀ x, 0 ≤ h x) {l x : Nat} (hl : l < m.laths) (hx : Fan m l x) (hc : c l = c x) :
    createVertex K close m .vertex P h c l = createVertex K close m .vertex P h c x := by
  obtain ⟨pf, hp⟩ := exists_prev O
  obtain ⟨fp, hf⟩ := exists_fp K O (fun x => P (m.vert x))
  have hxN := (O.fan_lt hx).1 hl
  have hv : m.vert x = m.vert l := O.fan_vert hx
  by_cases hi : Inside m l
  · have hi' : Inside m x := fun y hy => hi y (.trans _ _ _ hx hy)
    by_cases hcl : 0 < c l
    · rw [C74_sharp O h hl hi hcl, C74_sharp O h hxN hi' (hc ▸ hcl), hv]
    · by_cases hlx : l = x
      · rw [hlx]
      · obtain ⟨L, hL⟩ := exists_fan O hl
        have h2 : 2 ≤ L.length := by
          have : [l, x] ⊆ L := by
            intro z hz; simp at hz
            rcases hz with rfl | rfl
            · exact (hL.2 _).2 (.refl _)
            · exact (hL.2 _).2 hx
          simpa using (List.subperm_of_subset (by simp [hlx]) this).length_le
        obtain ⟨e1, e2, r, q, hpm, hq1, hq2, hq3⟩ := exists_order h h2
        have hF : IsFan m l (e1 :: e2 :: r) := ⟨hpm.nodup_iff.1 hL.1, fun x => by rw [← hpm.mem_iff]; exact hL.2 x⟩
        have hF' := hF.of_fan hx
        rw [C74_crease O hf hp h0 hl hi (not_lt.1 hcl) hF hq1 hq2 hq3, C74_crease O hf hp h0 hxN hi' (hc ▸ not_lt.1 hcl) hF' hq1 hq2 hq3]
        simp only [smooth, hv]
  · obtain ⟨y, hy⟩ := not_forall.1 hi
    push Not at hy
    obtain ⟨F, z, s, _, hF, hz, hs, _, hs2, hz2, _⟩ := open_fan O hl ⟨y, hy⟩
    have hz := (hF.2 z).1 hz
    have hs := (hF.2 s).1 hs
    rw [C74_boundary O N hp h c hl hz hz2 hs hs2, C74_boundary O N hp h c hxN (.trans _ _ _ (.symm _ _ hx) hz) hz2 (.trans _ _ _ (.symm _ _ hx) hs) hs2, hv]

/-- **Face varying vertices.** If the facets do not agree on the value at the vertex, each keeps its own; if they agree, the value is that of a vertex variable with the values of the facets. -/
theorem C74_facevertex (h c : Nat → K) {l : Nat} (hl : l < m.laths) :
    ((∃ x, Fan m l x ∧ close (P (m.fvert l)) (P (m.fvert x)) = false) → createVertex K close m .faceVertex P h c l = some (P (m.fvert l))) ∧
    ((∀ x, Fan m l x → close (P (m.fvert l)) (P (m.fvert x)) = true) → createVertex K close m .faceVertex P h c l = vertexPoint K m (fun x => P (m.fvert x)) h c l) := by
  obtain ⟨F, e1, e2, e3, _, e5, _⟩ := O.fan_all hl
  constructor
  · rintro ⟨x, hx, hx2⟩
    have : F.any (fun x => !close (P (m.fvert l)) (P (m.fvert x))) = true := List.any_eq_true.2 ⟨x, (e5 x).2 hx, by simp [hx2]⟩
    simp only [createVertex, Cls.index, discontinuousVertex, e1, Option.map_some, Option.bind_some, this, if_true]
  · intro hx
    have : F.any (fun x => !close (P (m.fvert l)) (P (m.fvert x))) = false := by
      rw [List.any_eq_false]
      intro x hxF; simp [hx x ((e5 x).1 hxF)]
    simp only [createVertex, Cls.index, discontinuousVertex, e1, Option.map_some, Option.bind_some, this, Bool.false_eq_true, if_false]

/-- **Quadrilaterals.** Where all facets of a smooth vertex have four corners, the mask is that of Catmull and Clark: for valence four it is (36 v + 6 Σ e + Σ f) / 64, that of bicubic B-splines. -/
theorem C74_regular {h c : Nat → K} (h0 : ∀ x, h x = 0) {l : Nat} (hl : l < m.laths) (hi : Inside m l) (hc : c l ≤ 0) (hp : Prev m pf) {L : List Nat} (hF : IsFan m l L) (h2 : 2 ≤ L.length)
    (hq : ∀ x ∈ L, IsFacet m x [x, m.cf x, m.cf (m.cf x), pf x]) :
    createVertex K close m .vertex P h c l = some ((1 - 7 / (4 * (L.length : K))) • P (m.vert l) + (3 / (2 * (L.length : K) ^ 2)) • (L.map fun x => P (m.vert (pf x))).sum +
      (1 / (4 * (L.length : K) ^ 2)) • (L.map fun x => P (m.vert (m.cf (m.cf x)))).sum) := by
  obtain ⟨fp, hf⟩ := exists_fp K O (fun x => P (m.vert x))
  have hN : ∀ x ∈ L, x < m.laths := fun x hx => (O.fan_lt ((hF.2 x).1 hx)).1 hl
  have hfp : ∀ x ∈ L, fp x = (4 : K)⁻¹ • (P (m.vert l) + P (m.vert (m.cf x)) + P (m.vert (m.cf (m.cf x))) + P (m.vert (pf x))) := by
    intro x hx
    have h1 := hf x (hN x hx)
    rw [facePoint_eq O (hN x hx) (hq x hx)] at h1
    rw [← Option.some.inj h1]
    simp only [List.map_cons, List.map_nil, List.sum_cons, List.sum_nil, List.length_cons, List.length_nil, O.fan_vert ((hF.2 x).1 hx)]
    push_cast
    match_scalars <;> norm_num
  obtain ⟨e, r, rfl⟩ := List.exists_cons_of_ne_nil (l := L) (by rintro rfl; simp at h2)
  have hne : r ≠ [] := by rintro rfl; simp at h2
  rw [C74_smooth O hf hp (fun x => (h0 x).ge) hl hi hc hF (fun x _ => h0 x) hne]
  congr 1
  generalize hL : e :: r = L at *
  have hn : (L.length : K) ≠ 0 := Nat.cast_ne_zero.2 (by omega)
  have s1 : (L.map fun x => P (m.vert (m.cf x))).sum = (L.map fun x => P (m.vert (pf x))).sum :=
    ends_perm O hp (fun x y e => by rw [O.fan_vert e]) hl hi hF (v := fun x => P (m.vert x))
  have s2 : (L.map fp).sum = (4 : K)⁻¹ • ((L.length : K) • P (m.vert l) + (L.map fun x => P (m.vert (m.cf x))).sum + (L.map fun x => P (m.vert (m.cf (m.cf x)))).sum + (L.map fun x => P (m.vert (pf x))).sum) := by
    rw [List.map_congr_left hfp]
    clear hF h2 hq hN hfp s1 hL hn
    induction L with
    | nil => simp
    | cons x L ih => simp only [List.map_cons, List.sum_cons, ih, List.length_cons, Nat.cast_add, Nat.cast_one]; module
  have s3 : (L.map fun x => (2 : K)⁻¹ • (P (m.vert l) + P (m.vert (pf x)))).sum = (2 : K)⁻¹ • ((L.length : K) • P (m.vert l) + (L.map fun x => P (m.vert (pf x))).sum) := by
    clear hF h2 hq hN hfp s1 hL hn s2
    induction L with
    | nil => simp
    | cons x L ih => simp only [List.map_cons, List.sum_cons, ih, List.length_cons, Nat.cast_add, Nat.cast_one]; module
  simp only [smooth]
  rw [s3, s2, s1]
  generalize (L.map fun x => P (m.vert (pf x))).sum = A
  generalize (L.map fun x => P (m.vert (m.cf (m.cf x)))).sum = B
  generalize (L.length : K) = n at hn ⊢
  match_scalars
  all_goals field_simp
  all_goals ring

/-! ## Limit points -/

/-- **Limit points inside of the mesh.** The mask is (n² v + Σ (4 e + f)) / (n (n + 5)), where f is the fourth corner of the facet, or for facets that do not have four corners the point that together with v and its two neighbours has
the same average as the facet. -/
theorem C74_limit (hf : ∀ x < m.laths, createFaceVertex K m .vertex P x = some (fp x)) (hp : Prev m pf) (hd : ∀ x < m.laths, m.cf (m.cf x) ≠ x)
    {c : Nat → K} {l : Nat} (hl : l < m.laths) (hi : Inside m l) (hc : c l ≤ 0) {L : List Nat} (hL : IsFan m l L) :
    limitPoint K m (fun x => P (m.vert x)) c l = some (((L.length : K) * (L.length + 5))⁻¹ • (((L.length : K) ^ 2) • P (m.vert l) +
      (L.map fun x => (4 : K) • P (m.vert (pf x)) + ((4 : K) • fp x - P (m.vert l) - P (m.vert (m.cf x)) - P (m.vert (pf x)))).sum)) :=
  limit_inside O (v := fun x => P (m.vert x)) hf hp hd (fun x y e => by rw [O.fan_vert e]) hl hi hc hL

/-- **Limit points on the boundary.** The mask is (4 v + e1 + e2) / 6; a vertex of one facet stays. -/
theorem C74_limit_boundary (hp : Prev m pf) {c : Nat → K} {l z s : Nat} (hl : l < m.laths) (hc : c l ≤ 0) (hz : Fan m l z) (hz2 : m.cv z = none) (hs : Fan m l s) (hs2 : m.ccv s = none) :
    limitPoint K m (fun x => P (m.vert x)) c l = some (if z = s then P (m.vert l) else ((6 : K)⁻¹) • ((4 : K) • P (m.vert l) + P (m.vert (pf z)) + P (m.vert (m.cf s)))) :=
  limit_boundary O hp hl hc hz hz2 hs hs2

omit O [IsStrictOrderedRing K] in
/-- **Sharp corners** are their own limit points. -/
theorem C74_limit_sharp {c : Nat → K} {l : Nat} (hc : 0 < c l) (v : Nat → E) : limitPoint K m v c l = some (v l) := by
  simp [limitPoint, hc]

/-! ## Affine maps -/

omit [LinearOrder K] [IsStrictOrderedRing K] O in
theorem sum_affine {E' : Type} [AddCommGroup E'] [Module K E'] (T : E →ₗ[K] E') (t : E') (f : Nat → E) (L : List Nat) :
    (L.map fun x => T (f x) + t).sum = T (L.map f).sum + (L.length : K) • t := by
  induction L with
  | nil => simp
  | cons x L ih => simp only [List.map_cons, List.sum_cons, ih, List.length_cons, Nat.cast_add, Nat.cast_one, map_add]; module

/-- **Affine maps.** Moving the corners of a facet by an affine map moves the new point in the same way. -/
theorem C74_affine_face {E' : Type} [AddCommGroup E'] [Module K E'] (T : E →ₗ[K] E') (t : E') (k : Cls) {l : Nat} (hl : l < m.laths) :
    createFaceVertex K m k (fun i => T (P i) + t) l = (createFaceVertex K m k P l).map fun p => T p + t := by
  obtain ⟨L, hL⟩ := exists_facet O hl
  rw [C74_face O k hl hL, C74_face O k hl hL, sum_affine T t (fun x => P (k.index m x)), Option.map_some]
  have hn : (L.length : K) ≠ 0 := by
    have : l ∈ L := (hL.2 l).2 (.refl _)
    exact Nat.cast_ne_zero.2 (List.length_pos_of_mem this).ne'
  rw [smul_add, smul_smul, inv_mul_cancel₀ hn, one_smul, map_smul]

/-- **Affine maps.** The same for the new point of an edge. -/
theorem C74_affine_edge {E' : Type} [AddCommGroup E'] [Module K E'] (T : E →ₗ[K] E') (t : E') {close' : E' → E' → Bool} (h : Nat → K) {l : Nat} (hl : l < m.laths) :
    createEdgeVertex K close' m .vertex (fun i => T (P i) + t) h l = (createEdgeVertex K close m .vertex P h l).map fun p => T p + t := by
  obtain ⟨pf, hp⟩ := exists_prev O
  obtain ⟨fp, hf⟩ := exists_fp K O (fun x => P (m.vert x))
  have hf' : ∀ x < m.laths, createFaceVertex K m .vertex (fun i => T (P i) + t) x = some (T (fp x) + t) := by
    intro x hx
    rw [C74_affine_face O T t .vertex hx]
    show (facePoint K m (fun x => P (m.vert x)) x).map _ = _
    rw [hf x hx]; rfl
  rw [C74_edge O hf' hp h hl, C74_edge O hf hp h hl]
  cases m.ec l with
  | none => simp only [Option.map_some, map_smul, map_add]; congr 1; module
  | some x => simp only [Option.map_some, map_smul, map_add]; congr 1; module

/-- **Affine maps.** The same for the new point of a vertex. -/
theorem C74_affine_vertex {E' : Type} [AddCommGroup E'] [Module K E'] (T : E →ₗ[K] E') (t : E') {close' : E' → E' → Bool} (N : NoLoop m) {h c : Nat → K} (h0 : ∀ x, 0 ≤ h x) {l : Nat} (hl : l < m.laths)
    (hne : m.cv l ≠ some l) :
    createVertex K close' m .vertex (fun i => T (P i) + t) h c l = (createVertex K close m .vertex P h c l).map fun p => T p + t := by
  obtain ⟨pf, hp⟩ := exists_prev O
  obtain ⟨fp, hf⟩ := exists_fp K O (fun x => P (m.vert x))
  have hf' : ∀ x < m.laths, createFaceVertex K m .vertex (fun i => T (P i) + t) x = some (T (fp x) + t) := by
    intro x hx
    rw [C74_affine_face O T t .vertex hx]
    show (facePoint K m (fun x => P (m.vert x)) x).map _ = _
    rw [hf x hx]; rfl
  by_cases hi : Inside m l
  · by_cases hcl : 0 < c l
    · rw [C74_sharp O h hl hi hcl, C74_sharp O h hl hi hcl]; rfl
    · obtain ⟨L, hL⟩ := exists_fan O hl
      have h2 : 2 ≤ L.length := by
        cases e : m.ccv l with
        | none => exact absurd e (hi l (.refl _))
        | some y =>
          have hyl : y ≠ l := by rintro rfl; exact hne (O.cv_of_ccv hl e)
          have : [l, y] ⊆ L := by
            intro z hz; simp at hz
            rcases hz with rfl | rfl
            · exact (hL.2 _).2 (.refl _)
            · exact (hL.2 _).2 (.symm _ _ (.rel _ _ ⟨O.ccv_lt hl e, O.cv_of_ccv hl e⟩))
          simpa using (List.subperm_of_subset (by simp [hyl.symm]) this).length_le
      obtain ⟨e1, e2, r, q, hpm, hq1, hq2, hq3⟩ := exists_order h h2
      have hF : IsFan m l (e1 :: e2 :: r) := ⟨hpm.nodup_iff.1 hL.1, fun x => by rw [← hpm.mem_iff]; exact hL.2 x⟩
      rw [C74_crease O hf' hp h0 hl hi (not_lt.1 hcl) hF hq1 hq2 hq3, C74_crease O hf hp h0 hl hi (not_lt.1 hcl) hF hq1 hq2 hq3]
      simp only [Option.map_some]
      congr 1
      have hs : smooth (K := K) (fun x => T (fp x) + t) pf (fun x => T (P (m.vert x)) + t) l (e1 :: e2 :: r) = T (smooth (K := K) fp pf (fun x => P (m.vert x)) l (e1 :: e2 :: r)) + t := by
        generalize hLL : e1 :: e2 :: r = L
        have hn : (L.length : K) ≠ 0 := Nat.cast_ne_zero.2 (by rw [← hLL]; simp)
        simp only [smooth]
        rw [sum_affine T t fp]
        have h3 : (L.map fun x => (2 : K)⁻¹ • (T (P (m.vert l)) + t + (T (P (m.vert (pf x))) + t))) = L.map fun x => T ((2 : K)⁻¹ • (P (m.vert l) + P (m.vert (pf x)))) + t := by
          refine List.map_congr_left fun x _ => ?_
          simp only [map_smul, map_add]; module
        rw [h3, sum_affine T t (fun x => (2 : K)⁻¹ • (P (m.vert l) + P (m.vert (pf x))))]
        simp only [map_smul, map_add]
        generalize T (L.map fp).sum = A
        generalize T (L.map fun x => (2 : K)⁻¹ • (P (m.vert l) + P (m.vert (pf x)))).sum = B
        generalize (L.length : K) = n at hn ⊢
        match_scalars
        all_goals field_simp
        all_goals ring
      rw [hs]
      simp only [map_smul, map_add]
      module
  · obtain ⟨y, hy⟩ := not_forall.1 hi
    push Not at hy
    obtain ⟨F, z, s, _, hF, hz, hs, _, hs2, hz2, _⟩ := open_fan O hl ⟨y, hy⟩
    have hz := (hF.2 z).1 hz
    have hs := (hF.2 s).1 hs
    rw [C74_boundary O N hp h c hl hz hz2 hs hs2, C74_boundary O N hp h c hl hz hz2 hs hs2]
    split
    · rfl
    · simp only [Option.map_some, map_smul, map_add]; congr 1; module

end

/-! ## A sharp corner on the boundary -/

/-- The second vertex of the grid is on the boundary. -/
theorem grid_corner : (Mesh.build true 9 grid).map (fun m => (m.laths, m.vert 1,
    createVertex ℚ (fun _ _ => true) m .vertex (fun i => if i = 1 then (1 : ℚ) else 0) (fun _ => 0) (fun _ => 1) 1,
    limitPoint ℚ m (fun x => if m.vert x = 1 then (1 : ℚ) else 0) (fun _ => 1) 1)) = some (16, 1, some (3 / 4), some 1) := by decide +kernel

/-- **Sharp corners on the boundary move**, although `limitPoint` and the comment in it say that they are stationary. -/
theorem C74_sharp_violated : ¬ ∀ (m : Mesh) (P : Nat → ℚ) (h c : Nat → ℚ) (l : Nat), Ok m → NoLoop m → l < m.laths → 0 < c l →
    createVertex ℚ (fun _ _ => true) m .vertex P h c l = limitPoint ℚ m (fun x => P (m.vert x)) c l := by
  intro H
  obtain ⟨m, e, O, N⟩ := C73_ok true grid_good
  have h1 := grid_corner
  rw [e] at h1
  simp only [Option.map_some, Option.some.injEq, Prod.mk.injEq] at h1
  obtain ⟨h1, _, h3, h4⟩ := h1
  have := H m (fun i => if i = 1 then 1 else 0) (fun _ => 0) (fun _ => 1) 1 O N (by rw [h1]; decide) (by norm_num)
  rw [h3, h4] at this
  revert this; decide +kernel

/-! ## The masks on a grid -/

/-- One number for each vertex. -/
abbrev squares (i : Nat) : ℚ := (i : ℚ) ^ 2

/-- The vertex in the middle, and one on the boundary: without sharp edges, with a crease, with a third sharp edge; and limit points. -/
example : (Mesh.build true 9 grid).map (fun m => [
    createVertex ℚ (fun _ _ => true) m .vertex squares (fun _ => 0) (fun _ => 0) 2,
    createVertex ℚ (fun _ _ => true) m .vertex squares (fun x => if x = 2 ∨ x = 12 then 1 else 0) (fun _ => 0) 2,
    createVertex ℚ (fun _ _ => true) m .vertex squares (fun x => if x = 2 ∨ x = 12 ∨ x = 7 then 1 else 0) (fun _ => 0) 2,
    createVertex ℚ (fun _ _ => true) m .vertex squares (fun _ => 0) (fun _ => 0) 1,
    limitPoint ℚ m (fun x => squares (m.vert x)) (fun _ => 0) 2, limitPoint ℚ m (fun x => squares (m.vert x)) (fun _ => 0) 1]) =
    some [some (37 / 2), some (65 / 4), some 16, some (5 / 4), some (58 / 3), some (4 / 3)] := by decide +kernel

/-- The theorems apply to the grid. -/
example : ∃ m pf, Mesh.build true 9 grid = some m ∧ Ok m ∧ NoLoop m ∧ Prev m pf ∧ (∃ L, IsFan m 2 L) ∧ ∃ L, IsFacet m 2 L := by
  obtain ⟨m, e, O, N⟩ := C73_ok true grid_good
  have h1 := grid_corner
  rw [e] at h1
  simp only [Option.map_some, Option.some.injEq, Prod.mk.injEq] at h1
  obtain ⟨pf, hp⟩ := exists_prev O
  exact ⟨m, pf, e, O, N, hp, exists_fan O (by rw [h1.1]; decide), exists_facet O (by rw [h1.1]; decide)⟩

/-- The new points of edges and facets of a grid. -/
example : (Mesh.build true 9 grid).map (fun m => (createFaceVertex ℚ m .vertex squares 0,
    createEdgeVertex ℚ (fun _ _ => true) m .vertex squares (fun _ => 0) 2,
    createEdgeVertex ℚ (fun _ _ => true) m .vertex squares (fun _ => 1) 2,
    createEdgeVertex ℚ (fun a b => a == b) m .faceVertex squares (fun _ => 0) 2,
    createVertex ℚ (fun a b => a == b) m .faceVertex squares (fun _ => 0) (fun _ => 0) 2)) =
    some (some (13 / 2), some (59 / 4), some (25 / 2), some (13 / 2), some 4) := by decide +kernel

end Verif.Geom.Subd
