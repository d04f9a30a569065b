import Verif.Geom.LathFinalLemmas
import Mathlib.Data.List.Rotate
/-!
# Lemmas about `AddFacet`
-/
namespace Verif.Geom.Lath
open Mesh

set_option linter.unusedSectionVars false

/-- The number of laths of facets. -/
def total (faces : List (List Nat)) : Nat := (faces.map List.length).sum

theorem total_append (a b : List (List Nat)) : total (a ++ b) = total a + total b := by simp [total]

theorem total_cons (a : List Nat) (b : List (List Nat)) : total (a :: b) = a.length + total b := by simp [total]

/-- The lists of the laths of the vertices are right. -/
def AtOk (m : Mesh) : Prop := (∀ j l, l ∈ m.atVert.getD j [] ↔ l < m.laths ∧ m.vert l = j) ∧ ∀ j, (m.atVert.getD j []).Nodup

theorem getD_modify (A : List (List Nat)) (v j : Nat) (f : List Nat → List Nat) (hv : v < A.length) :
    (A.modify v f).getD j [] = if j = v then f (A.getD j []) else A.getD j [] := by
  rw [List.getD_eq_getElem?_getD, List.getD_eq_getElem?_getD, List.getElem?_modify]
  by_cases h : j = v
  · subst h; simp [hv]
  · rw [if_neg h]; simp [Ne.symm h]

theorem fold_at (b : Nat) : ∀ (vs : List Nat) (k : Nat) (A : List (List Nat)), (∀ v ∈ vs, v < A.length) →
    ((vs.zipIdx k).foldl (fun A (p : Nat × Nat) => A.modify p.1 (· ++ [b + p.2])) A).length = A.length ∧
    (∀ j l, l ∈ ((vs.zipIdx k).foldl (fun A (p : Nat × Nat) => A.modify p.1 (· ++ [b + p.2])) A).getD j [] ↔
      l ∈ A.getD j [] ∨ ∃ i, i < vs.length ∧ vs.getD i 0 = j ∧ l = b + (k + i)) ∧
    ((∀ j, (A.getD j []).Nodup) → (∀ j, ∀ l ∈ A.getD j [], l < b + k) → ∀ j, (((vs.zipIdx k).foldl (fun A (p : Nat × Nat) => A.modify p.1 (· ++ [b + p.2])) A).getD j []).Nodup) := by
  intro vs
  induction vs with
  | nil => intro k A _; exact ⟨rfl, by simp, fun h _ => h⟩
  | cons v vs ih =>
    intro k A hA
    have hv := hA v (by simp)
    simp only [List.zipIdx_cons, List.foldl_cons]
    obtain ⟨h1, h2, h3⟩ := ih (k + 1) (A.modify v (· ++ [b + k])) (by intro w hw; simpa using hA w (List.mem_cons_of_mem _ hw))
    refine ⟨by rw [h1]; simp, ?_, ?_⟩
    · intro j l
      rw [h2, getD_modify _ _ _ _ hv]
      constructor
      · rintro (h | ⟨i, a, c, d⟩)
        · split at h
          · rename_i e
            rcases List.mem_append.1 h with h | h
            · exact Or.inl h
            · right; simp at h; exact ⟨0, by simp, by simp [e], by omega⟩
          · exact Or.inl h
        · exact Or.inr ⟨i + 1, by simpa using a, by simpa using c, by omega⟩
      · rintro (h | ⟨i, a, c, d⟩)
        · left; split
          · exact List.mem_append_left _ h
          · exact h
        · cases i with
          | zero =>
            left; simp at c; rw [if_pos c.symm]; simp; right; omega
          | succ i => right; exact ⟨i, by simpa using a, by simpa using c, by omega⟩
    · intro hn hl
      refine h3 ?_ ?_
      · intro j; rw [getD_modify _ _ _ _ hv]; split
        · refine List.nodup_append.2 ⟨hn j, by simp, ?_⟩
          intro x hx y hy e
          simp at hy
          have := hl j x hx
          omega
        · exact hn j
      · intro j l h
        rw [getD_modify _ _ _ _ hv] at h
        split at h
        · rcases List.mem_append.1 h with h | h
          · have := hl j l h; omega
          · simp at h; omega
        · have := hl j l h; omega

theorem addFacet_at (m : Mesh) (vs : List Nat) (iFV : Nat) (hA : AtOk m) (hv : ∀ v ∈ vs, v < m.atVert.length) :
    AtOk (m.addFacet vs iFV) ∧ (m.addFacet vs iFV).atVert.length = m.atVert.length := by
  obtain ⟨h1, h2, h3⟩ := fold_at m.laths vs 0 m.atVert hv
  refine ⟨⟨?_, ?_⟩, h1⟩
  · intro j l
    have := h2 j l
    show l ∈ ((vs.zipIdx).foldl _ m.atVert).getD j [] ↔ l < m.laths + vs.length ∧ (if l < m.laths then m.vert l else vs.getD (l - m.laths) 0) = j
    rw [this, hA.1 j l]
    constructor
    · rintro (⟨a, c⟩ | ⟨i, a, c, d⟩)
      · exact ⟨by omega, by rw [if_pos a]; exact c⟩
      · refine ⟨by omega, ?_⟩
        rw [if_neg (by omega), show l - m.laths = i by omega]; exact c
    · rintro ⟨a, c⟩
      by_cases hl : l < m.laths
      · rw [if_pos hl] at c; exact Or.inl ⟨hl, c⟩
      · rw [if_neg hl] at c
        exact Or.inr ⟨l - m.laths, by omega, c, by omega⟩
  · exact h3 hA.2 (fun j l hl => by have := ((hA.1 j l).1 hl).1; omega)

/-- What `addFacets` does. -/
structure Added (m : Mesh) (faces : List (List Nat)) (r : Mesh) : Prop where
  laths : r.laths = m.laths + total faces
  old : ∀ l < m.laths, r.cf l = m.cf l ∧ r.vert l = m.vert l ∧ r.fvert l = m.fvert l
  new : ∀ pre vs post, faces = pre ++ vs :: post → ∀ i (hi : i < vs.length), r.vert (m.laths + total pre + i) = vs[i] ∧
    r.cf (m.laths + total pre + i) = m.laths + total pre + (i + vs.length - 1) % vs.length ∧ r.fvert (m.laths + total pre + i) = m.laths + total pre + i
  cv : r.cv = m.cv
  src : r.src = m.src
  fsrc : r.fsrc = m.fsrc
  facets : r.facets = m.facets ++ (List.range faces.length).map fun k => m.laths + total (faces.take k)
  atOk : AtOk m → (∀ vs ∈ faces, ∀ v ∈ vs, v < m.atVert.length) → AtOk r ∧ r.atVert.length = m.atVert.length

theorem addFacets_ok : ∀ (faces : List (List Nat)) (m : Mesh), Added m faces (m.addFacets faces m.laths) := by
  intro faces
  induction faces with
  | nil =>
    intro m
    refine ⟨by simp [Mesh.addFacets, total], fun _ _ => ⟨rfl, rfl, rfl⟩, ?_, rfl, rfl, rfl, by simp [Mesh.addFacets], fun h _ => ⟨h, rfl⟩⟩
    intro pre vs post h; simp at h
  | cons vs faces ih =>
    intro m
    obtain ⟨m1, hm1⟩ : ∃ m1, m1 = m.addFacet vs m.laths := ⟨_, rfl⟩
    have h := ih m1
    have hl1 : m1.laths = m.laths + vs.length := by rw [hm1]; rfl
    have e : m.addFacets (vs :: faces) m.laths = m1.addFacets faces m1.laths := by rw [hl1, Mesh.addFacets, ← hm1]
    rw [e]
    refine ⟨?_, ?_, ?_, ?_, ?_, ?_, ?_, ?_⟩
    · rw [h.laths, hl1, total_cons]; omega
    · intro l hl
      obtain ⟨a, b, c⟩ := h.old l (by omega)
      rw [a, b, c, hm1]
      simp only [Mesh.addFacet]
      rw [if_pos hl, if_pos hl, if_pos hl]
      exact ⟨rfl, rfl, rfl⟩
    · intro pre us post hf i hi
      cases pre with
      | nil =>
        simp at hf
        obtain ⟨rfl, rfl⟩ := hf
        obtain ⟨a, b, c⟩ := h.old (m.laths + i) (by omega)
        simp only [total, List.map_nil, List.sum_nil, Nat.add_zero]
        rw [a, b, c, hm1]
        simp only [Mesh.addFacet]
        have hnl : ¬ m.laths + i < m.laths := by omega
        rw [if_neg hnl, if_neg hnl, if_neg hnl]
        refine ⟨?_, ?_, by omega⟩
        · rw [show m.laths + i - m.laths = i by omega]
          simp [List.getD_eq_getElem?_getD, hi]
        · by_cases h0 : i = 0
          · subst h0; rw [if_pos (by omega), Nat.mod_eq_of_lt (by omega)]; omega
          · rw [if_neg (by omega), show i + vs.length - 1 = (i - 1) + vs.length by omega, Nat.add_mod_right, Nat.mod_eq_of_lt (by omega)]; omega
      | cons p pre =>
        simp at hf
        obtain ⟨rfl, hf⟩ := hf
        have := h.new pre us post hf i hi
        rw [total_cons, show m.laths + (vs.length + total pre) = m1.laths + total pre by omega]
        exact this
    · rw [h.cv, hm1]; rfl
    · rw [h.src, hm1]; rfl
    · rw [h.fsrc, hm1]; rfl
    · rw [h.facets, hl1, List.length_cons, List.range_succ_eq_map, List.map_cons, List.map_map]
      have : m1.facets = m.facets ++ [m.laths] := by rw [hm1]; rfl
      rw [this, List.append_assoc]
      congr 1
      simp only [List.take_zero, List.singleton_append, List.cons.injEq]
      refine ⟨by simp [total], ?_⟩
      apply List.map_congr_left
      intro k _
      simp only [Function.comp, List.take_succ_cons, total_cons]
      omega
    · intro hA hv
      obtain ⟨a, b⟩ := addFacet_at m vs m.laths hA (hv vs (by simp))
      rw [← hm1] at a b
      obtain ⟨c, d⟩ := h.atOk a (by intro us hus v hv'; rw [b]; exact hv us (List.mem_cons_of_mem _ hus) v hv')
      exact ⟨c, d.trans b⟩

/-- The edges of a facet, with direction. -/
def edgesOf (vs : List Nat) : List (Nat × Nat) := vs.zip (vs.rotate 1)

theorem edgesOf_length (vs : List Nat) : (edgesOf vs).length = vs.length := by simp [edgesOf]

theorem edgesOf_get (vs : List Nat) {i : Nat} (hi : i < vs.length) :
    (edgesOf vs)[i]'(by rw [edgesOf_length]; exact hi) = (vs[i], vs[(i + 1) % vs.length]'(Nat.mod_lt _ (by omega))) := by
  simp [edgesOf, List.getElem_zip, List.getElem_rotate]

theorem split_total : ∀ (faces : List (List Nat)) (l : Nat), l < total faces → ∃ pre vs post i, faces = pre ++ vs :: post ∧ i < vs.length ∧ l = total pre + i := by
  intro faces
  induction faces with
  | nil => intro l h; simp [total] at h
  | cons vs faces ih =>
    intro l h
    rw [total_cons] at h
    by_cases hl : l < vs.length
    · exact ⟨[], vs, faces, l, rfl, hl, by simp [total]⟩
    · obtain ⟨pre, us, post, i, e, hi, h'⟩ := ih (l - vs.length) (by omega)
      exact ⟨vs :: pre, us, post, i, by rw [e]; rfl, hi, by rw [total_cons]; omega⟩

theorem flatMap_edges_length (faces : List (List Nat)) : (faces.flatMap edgesOf).length = total faces := by
  simp [List.length_flatMap, edgesOf_length, total]

/-- Facets have three or more distinct vertices, all vertices exist, and no edge occurs twice in the same direction. -/
structure Good (n : Nat) (faces : List (List Nat)) : Prop where
  three : ∀ vs ∈ faces, 3 ≤ vs.length
  nodup : ∀ vs ∈ faces, vs.Nodup
  lt : ∀ vs ∈ faces, ∀ v ∈ vs, v < n
  once : (faces.flatMap edgesOf).Nodup

/-- The next lath of the facet, counter clockwise. -/
noncomputable def pfOf (m : Mesh) (l : Nat) : Nat := by
  classical exact if h : ∃ x, x < m.laths ∧ m.cf x = l then h.choose else 0

section
variable {n : Nat} {faces : List (List Nat)} (G : Good n faces) {r : Mesh} (h : Added (prepare n (total faces)) faces r)
include G h

theorem new_at {pre vs post} (hf : faces = pre ++ vs :: post) {i : Nat} (hi : i < vs.length) : r.vert (total pre + i) = vs[i] ∧
    r.cf (total pre + i) = total pre + (i + vs.length - 1) % vs.length ∧ r.fvert (total pre + i) = total pre + i := by
  have := h.new pre vs post hf i hi
  simpa [Mesh.prepare] using this

theorem r_laths : r.laths = total faces := by rw [h.laths]; simp [Mesh.prepare]

theorem next_at {pre vs post} (hf : faces = pre ++ vs :: post) {i : Nat} (hi : i < vs.length) :
    r.cf (total pre + (i + 1) % vs.length) = total pre + i := by
  have hlt : (i + 1) % vs.length < vs.length := Nat.mod_lt _ (by omega)
  rw [(new_at G h hf hlt).2.1]
  congr 1
  by_cases hc : i + 1 = vs.length
  · rw [hc, Nat.mod_self, Nat.mod_eq_of_lt (by omega)]; omega
  · rw [Nat.mod_eq_of_lt (show i + 1 < vs.length by omega), show i + 1 + vs.length - 1 = i + vs.length by omega, Nat.add_mod_right, Nat.mod_eq_of_lt hi]

theorem block_lt {pre vs post} (hf : faces = pre ++ vs :: post) {i : Nat} (hi : i < vs.length) : total pre + i < r.laths := by
  rw [r_laths G h, hf, total_append, total_cons]; omega

theorem facet_cf_lt {l : Nat} (hl : l < r.laths) : r.cf l < r.laths := by
  rw [r_laths G h] at hl
  obtain ⟨pre, vs, post, i, hf, hi, rfl⟩ := split_total faces l hl
  rw [(new_at G h hf hi).2.1]
  exact block_lt G h hf (Nat.mod_lt _ (by omega))

theorem facet_surj {l : Nat} (hl : l < r.laths) : ∃ x, x < r.laths ∧ r.cf x = l := by
  rw [r_laths G h] at hl
  obtain ⟨pre, vs, post, i, hf, hi, rfl⟩ := split_total faces l hl
  exact ⟨_, block_lt G h hf (Nat.mod_lt _ (by omega)), next_at G h hf hi⟩

theorem facet_inj {l x : Nat} (hl : l < r.laths) (hx : x < r.laths) (e : r.cf l = r.cf x) : l = x := by
  have hs : Function.Surjective (fun l : Fin r.laths => (⟨r.cf l, facet_cf_lt G h l.2⟩ : Fin r.laths)) := by
    intro y
    obtain ⟨x, hx, e⟩ := facet_surj G h y.2
    exact ⟨⟨x, hx⟩, Fin.ext e⟩
  have := (Finite.injective_iff_surjective.2 hs) (a₁ := ⟨l, hl⟩) (a₂ := ⟨x, hx⟩) (Fin.ext e)
  simpa using this

theorem pf_spec {l : Nat} (hl : l < r.laths) : pfOf r l < r.laths ∧ r.cf (pfOf r l) = l := by
  have he := facet_surj G h hl
  unfold pfOf
  rw [dif_pos he]
  exact he.choose_spec

theorem pf_at {pre vs post} (hf : faces = pre ++ vs :: post) {i : Nat} (hi : i < vs.length) : pfOf r (total pre + i) = total pre + (i + 1) % vs.length := by
  have hp := pf_spec G h (block_lt G h hf hi)
  exact facet_inj G h hp.1 (block_lt G h hf (Nat.mod_lt _ (by omega))) (hp.2.trans (next_at G h hf hi).symm)

theorem edge_at {l : Nat} (hl : l < r.laths) : (faces.flatMap edgesOf)[l]? = some (r.vert l, r.vert (pfOf r l)) := by
  have hl' := hl
  rw [r_laths G h] at hl
  obtain ⟨pre, vs, post, i, hf, hi, rfl⟩ := split_total faces l hl
  have hlt : (i + 1) % vs.length < vs.length := Nat.mod_lt _ (by omega)
  rw [pf_at G h hf hi, (new_at G h hf hi).1, (new_at G h hf hlt).1]
  conv_lhs => rw [hf]
  rw [List.flatMap_append, List.flatMap_cons, List.getElem?_append_right (by rw [flatMap_edges_length]; omega), flatMap_edges_length,
    show total pre + i - total pre = i by omega, List.getElem?_append_left (by rw [edgesOf_length]; exact hi), List.getElem?_eq_getElem (by rw [edgesOf_length]; exact hi),
    edgesOf_get vs hi]

theorem facet_base : Base r (pfOf r) := by
  refine ⟨fun l hl => facet_cf_lt G h hl, fun l hl => (pf_spec G h hl).1, fun l hl => (pf_spec G h hl).2, ?_, ?_, ?_⟩
  · intro l hl
    have := pf_spec G h (facet_cf_lt G h hl)
    exact facet_inj G h this.1 hl this.2
  · intro l hl x hx e1 e2
    have h1 := edge_at G h hl
    have h2 := edge_at G h hx
    rw [e1, e2, ← h2] at h1
    have hlen : l < (faces.flatMap edgesOf).length := by rw [flatMap_edges_length, ← r_laths G h]; exact hl
    exact (List.getElem?_inj hlen G.once).1 h1
  · intro l hl e
    rw [r_laths G h] at hl
    obtain ⟨pre, vs, post, i, hf, hi, rfl⟩ := split_total faces l hl
    have hvs : vs ∈ faces := by rw [hf]; simp
    have hlt : (i + 1) % vs.length < vs.length := Nat.mod_lt _ (by omega)
    have hlt' : (i + vs.length - 1) % vs.length < vs.length := Nat.mod_lt _ (by omega)
    rw [(new_at G h hf hi).2.1, pf_at G h hf hi, (new_at G h hf hlt).1, (new_at G h hf hlt').1] at e
    have := (List.Nodup.getElem_inj_iff (G.nodup vs hvs)).1 e
    have h3 := G.three vs hvs
    by_cases h0 : i = 0
    · subst h0
      rw [Nat.mod_eq_of_lt (by omega), Nat.mod_eq_of_lt (by omega)] at this; omega
    · rw [show i + vs.length - 1 = (i - 1) + vs.length by omega, Nat.add_mod_right, Nat.mod_eq_of_lt (by omega)] at this
      by_cases h1 : i + 1 = vs.length
      · rw [h1, Nat.mod_self] at this; omega
      · rw [Nat.mod_eq_of_lt (by omega)] at this; omega

theorem facet_loop {l : Nat} (hl : l < r.laths) : r.vert (r.cf l) ≠ r.vert l := by
  intro e
  rw [r_laths G h] at hl
  obtain ⟨pre, vs, post, i, hf, hi, rfl⟩ := split_total faces l hl
  have hvs : vs ∈ faces := by rw [hf]; simp
  have hlt' : (i + vs.length - 1) % vs.length < vs.length := Nat.mod_lt _ (by omega)
  rw [(new_at G h hf hi).2.1, (new_at G h hf hi).1, (new_at G h hf hlt').1] at e
  have := (List.Nodup.getElem_inj_iff (G.nodup vs hvs)).1 e
  have h3 := G.three vs hvs
  by_cases h0 : i = 0
  · subst h0
    rw [Nat.mod_eq_of_lt (by omega)] at this; omega
  · rw [show i + vs.length - 1 = (i - 1) + vs.length by omega, Nat.add_mod_right, Nat.mod_eq_of_lt (by omega)] at this; omega

theorem facet_inv : Inv r (pfOf r) 0 r := by
  have hA : AtOk (prepare n (total faces)) := by
    constructor
    · intro j l
      simp only [Mesh.prepare]
      constructor
      · intro hm
        by_cases hj : j < n
        · simp [List.getD_eq_getElem?_getD, hj] at hm
        · rw [List.getD_eq_default _ _ (by simp; omega)] at hm; cases hm
      · rintro ⟨a, _⟩; omega
    · intro j
      simp only [Mesh.prepare]
      by_cases hj : j < n
      · simp [List.getD_eq_getElem?_getD, hj]
      · rw [List.getD_eq_default _ _ (by simp; omega)]; exact List.nodup_nil
  have hn : (prepare n (total faces)).atVert.length = n := by simp [Mesh.prepare]
  obtain ⟨hr, hrn⟩ := h.atOk hA (by rw [hn]; exact G.lt)
  rw [hn] at hrn
  have hcv : ∀ l, r.cv l = none := by intro l; rw [h.cv]; rfl
  have hvl : ∀ l < r.laths, r.vert l < n := by
    intro l hl
    by_contra hge
    have := (hr.1 (r.vert l) l).2 ⟨hl, rfl⟩
    rw [List.getD_eq_default _ _ (by omega)] at this
    cases this
  refine ⟨rfl, rfl, rfl, ?_, fun l x hx => hx.2.2.1.symm, fun _ _ _ _ e => e, hr.1, hr.2, ?_, fun l _ _ => hcv l, ?_, ?_, ?_, Nat.le_refl _, fun _ _ _ => ⟨rfl, rfl⟩, List.prefix_rfl, fun l hl => ⟨l, hl, rfl⟩⟩
  · intro l _ x e; rw [hcv l] at e; cases e
  · intro l _ e; omega
  · intro l _ x _ _ e; omega
  · intro l hl
    rw [h.src]
    simp only [Mesh.prepare]
    have := hvl l hl
    simp [List.getD_eq_getElem?_getD, this]
  · rw [h.src, hrn]; simp [Mesh.prepare]

end

/-- The mesh of good facets. -/
theorem build_ok {n : Nat} {faces : List (List Nat)} (G : Good n faces) (fv : Bool) : ∃ r m, Added (prepare n (total faces)) faces r ∧ build fv n faces = some m ∧
    Inv r (pfOf r) m.atVert.length m := by
  have h := addFacets_ok faces (prepare n (total faces))
  obtain ⟨m, e, I⟩ := finalise_ok (facet_base G h) fv (facet_inv G h)
  exact ⟨_, m, h, e, I⟩

end Verif.Geom.Lath
