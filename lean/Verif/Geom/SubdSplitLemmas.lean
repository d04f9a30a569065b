import Verif.Geom.SubdDomLemmas
/-!
# Lemmas about subdividing a facet: the points and laths are those of the masks and of the links that are needed
-/
set_option linter.unusedSectionVars false
namespace Verif.Geom.Subd
open Verif.Geom.Lath

section
variable {K E : Type} [Field K] [LinearOrder K] [IsStrictOrderedRing K] [AddCommGroup E] [Module K E]

/-- A mesh whose facets in `D` are not subdivided yet. -/
structure Base (w : Vars E) (s0 : State K E) (D : Nat → Prop) : Prop where
  ok : Ok s0.mesh
  simple : Simple s0.mesh
  dom : Dom s0.mesh D
  kv : w.kv = .vertex ∨ w.kv = .varying
  kf : w.kf = .faceVertex ∨ w.kf = .faceVarying
  h0 : ∀ x < s0.mesh.laths, 0 ≤ s0.hard x
  vert : ∀ l < s0.mesh.laths, s0.mesh.vert l < s0.mesh.atVert.length
  fvert : ∀ l < s0.mesh.laths, s0.mesh.fvert l < s0.fcount
  child : ∀ l, D l → s0.child l = none
  mid : ∀ l, D l → s0.mid l = none
  face : ∀ l, D l → s0.face l = none

/-- What the masks give. -/
structure Masks (w : Vars E) (s0 : State K E) (mv me mf fv fe ff : Nat → E) : Prop where
  v : ∀ l < s0.mesh.laths, createVertex K w.close s0.mesh w.kv s0.val s0.hard s0.corner l = some (mv l)
  e : ∀ l < s0.mesh.laths, createEdgeVertex K w.close s0.mesh w.kv s0.val s0.hard l = some (me l)
  f : ∀ l < s0.mesh.laths, createFaceVertex K s0.mesh w.kv s0.val l = some (mf l)
  fv : ∀ l < s0.mesh.laths, createVertex K w.close s0.mesh w.kf s0.fval s0.hard s0.corner l = some (fv l)
  fe : ∀ l < s0.mesh.laths, createEdgeVertex K w.close s0.mesh w.kf s0.fval s0.hard l = some (fe l)
  ff : ∀ l < s0.mesh.laths, createFaceVertex K s0.mesh w.kf s0.fval l = some (ff l)

theorem Sub.refl (m : Mesh) : Sub m m := ⟨le_refl _, fun _ _ => rfl, fun _ _ => rfl, fun _ _ => rfl, fun _ _ => rfl⟩

/-- Sharpness of laths that do not exist does not matter. -/
theorem createVertex_hard {m : Mesh} (O : Ok m) (close : E → E → Bool) (k : Cls) (P : Nat → E) (h c : Nat → K) {l : Nat} (hl : l < m.laths) :
    createVertex K close m k P (fun x => if x < m.laths then h x else 0) c l = createVertex K close m k P h c l :=
  (Sub.refl m).createVertex K close O k (fun _ _ => rfl) (fun _ hx => if_pos hx) (fun _ _ => rfl) hl

theorem hard_nonneg {m : Mesh} {h : Nat → K} (h0 : ∀ x < m.laths, 0 ≤ h x) (x : Nat) : 0 ≤ (fun x => if x < m.laths then h x else 0) x := by
  simp only
  split
  · exact h0 x ‹_›
  · exact le_refl _

theorem exists_masks {w : Vars E} {s0 : State K E} {D : Nat → Prop} (B : Base w s0 D) : ∃ mv me mf fv fe ff, Masks w s0 mv me mf fv fe ff := by
  obtain ⟨mv, h1⟩ := total_vertex B.ok B.simple w.close w.kv s0.val (hard_nonneg B.h0) s0.corner
  obtain ⟨me, h2⟩ := total_edge B.ok w.close w.kv s0.val s0.hard
  obtain ⟨mf, h3⟩ := total_face (K := K) B.ok w.kv s0.val
  obtain ⟨fv, h4⟩ := total_vertex B.ok B.simple w.close w.kf s0.fval (hard_nonneg B.h0) s0.corner
  obtain ⟨fe, h5⟩ := total_edge B.ok w.close w.kf s0.fval s0.hard
  obtain ⟨ff, h6⟩ := total_face (K := K) B.ok w.kf s0.fval
  exact ⟨mv, me, mf, fv, fe, ff, fun l hl => (createVertex_hard B.ok _ _ _ _ _ hl).symm.trans (h1 l hl), h2, h3,
    fun l hl => (createVertex_hard B.ok _ _ _ _ _ hl).symm.trans (h4 l hl), h5, h6⟩

/-- The values of the laths of `s0` are still there. -/
structure Same (s0 s : State K E) : Prop where
  sub : Sub s0.mesh s.mesh
  len : s0.mesh.atVert.length ≤ s.mesh.atVert.length
  fcount : s0.fcount ≤ s.fcount
  val : ∀ i < s0.mesh.atVert.length, s.val i = s0.val i
  fval : ∀ i < s0.fcount, s.fval i = s0.fval i
  hard : ∀ l < s0.mesh.laths, s.hard l = s0.hard l
  corner : ∀ l < s0.mesh.laths, s.corner l = s0.corner l

theorem Same.ext {s0 s s' : State K E} (A : Same s0 s) (X : Ext s s') : Same s0 s' :=
  ⟨X.sub A.sub, A.len.trans X.len, A.fcount.trans X.fcount, fun i hi => (X.val i (hi.trans_le A.len)).trans (A.val i hi), fun i hi => (X.fval i (hi.trans_le A.fcount)).trans (A.fval i hi),
    fun l hl => by rw [X.hard]; exact A.hard l hl, fun l hl => by rw [X.corner]; exact A.corner l hl⟩

section
variable {w : Vars E} {s0 : State K E} {D : Nat → Prop} (B : Base w s0 D) {mv me mf fv fe ff : Nat → E} (M : Masks w s0 mv me mf fv fe ff) {s : State K E} (A : Same s0 s)
include B A

theorem Same.kv_val : ∀ x < s0.mesh.laths, s.val (w.kv.index s0.mesh x) = s0.val (w.kv.index s0.mesh x) := fun x hx =>
  A.val _ (by rcases B.kv with e | e <;> rw [e] <;> exact B.vert x hx)

theorem Same.kf_val : ∀ x < s0.mesh.laths, s.fval (w.kf.index s0.mesh x) = s0.fval (w.kf.index s0.mesh x) := fun x hx =>
  A.fval _ (by rcases B.kf with e | e <;> rw [e] <;> exact B.fvert x hx)

include M

theorem Same.addFace {l : Nat} (hl : l < s0.mesh.laths) : addFaceVertex K w s l = addPoint K s none (some (mf l)) (some (ff l)) := by
  rw [addFaceVertex, A.sub.createFaceVertex K B.ok w.kv (A.kv_val B) hl, A.sub.createFaceVertex K B.ok w.kf (A.kf_val B) hl, M.f l hl, M.ff l hl]

theorem Same.addEdge {l : Nat} (hl : l < s0.mesh.laths) : addEdgeVertex K w s l = addPoint K s (((s.mesh.ec l).bind s.mid).map s.mesh.vert) (some (me l)) (some (fe l)) := by
  rw [addEdgeVertex, A.sub.createEdgeVertex K w.close B.ok w.kv (A.kv_val B) A.hard hl, A.sub.createEdgeVertex K w.close B.ok w.kf (A.kf_val B) A.hard hl, M.e l hl, M.fe l hl]

theorem Same.addVert {l : Nat} (hl : l < s0.mesh.laths) : addVertex K w s l = addPoint K s ((s.child l).map s.mesh.vert) (some (mv l)) (some (fv l)) := by
  rw [addVertex, A.sub.createVertex K w.close B.ok w.kv (A.kv_val B) A.hard A.corner hl, A.sub.createVertex K w.close B.ok w.kf (A.kf_val B) A.hard A.corner hl, M.v l hl, M.fv l hl]

/-- The points of a facet. -/
theorem points_ok {l0 : Nat} {L : List Nat} (hl0 : l0 < s0.mesh.laths) (hL : L.Nodup) (hN : ∀ x ∈ L, x < s0.mesh.laths) : ∃ s1 s2 s3 f q Ge He Gv Hv,
    addFaceVertex K w s l0 = some (s1, f, q) ∧ Made s s1 (fun _ => none) mf ff [l0] (fun _ => f) (fun _ => q) ∧
    addPoints K (addEdgeVertex K w) L s1 = some (s2, L.map fun x => (Ge x, He x)) ∧ Made s1 s2 (fun x => ((s.mesh.ec x).bind s.mid).map s.mesh.vert) me fe L Ge He ∧
    addPoints K (addVertex K w) L s2 = some (s3, L.map fun x => (Gv x, Hv x)) ∧ Made s2 s3 (fun x => (s.child x).map s.mesh.vert) mv fv L Gv Hv := by
  obtain ⟨s1, f, q, e1, M1⟩ := addPoint_ok s (fun _ => none) mf ff l0
  obtain ⟨s2, Ge, He, e2, M2⟩ := addPoints_ok (K := K) (add := addEdgeVertex K w) (look := fun x => ((s.mesh.ec x).bind s.mid).map s.mesh.vert) (mask := me) (fmask := fe) (s0 := s) L s1 M1.ext hL (by
    intro s' x hs' hx
    rw [(A.ext hs').addEdge B M (hN x hx)]
    obtain ⟨k, e⟩ := hs'.mesh
    rw [hs'.mid, e]
    rfl)
  obtain ⟨s3, Gv, Hv, e3, M3⟩ := addPoints_ok (K := K) (add := addVertex K w) (look := fun x => (s.child x).map s.mesh.vert) (mask := mv) (fmask := fv) (s0 := s) L s2 (M1.ext.trans M2.ext) hL (by
    intro s' x hs' hx
    rw [(A.ext hs').addVert B M (hN x hx)]
    obtain ⟨k, e⟩ := hs'.mesh
    rw [hs'.child, e])
  exact ⟨s1, s2, s3, f, q, Ge, He, Gv, Hv, (A.addFace B M hl0).trans e1, M1, e2, M2, e3, M3⟩

end

/-- The state after the facets of the laths in `S` were subdivided: lath `l` has the facet of `g l`, `g l + 1`, `g l + 2` and `g l + 3` at the vertices of its corner, the next edge, the facet and its edge. -/
structure J (w : Vars E) (s0 : State K E) (D : Nat → Prop) (mv me mf fv fe ff : Nat → E) (S : Nat → Prop) (g V W F : Nat → Nat) (s : State K E) : Prop where
  kids : Kids s0.mesh s0.mesh.atVert.length S g V W F s.mesh
  same : Same s0 s
  dom : ∀ l, S l → D l
  prev : ∀ l < s0.mesh.laths, S (s0.mesh.cf l) → S l
  cv : ∀ x y, s0.mesh.laths ≤ x → x < s.mesh.laths → (s.mesh.cv x = some y ↔ T s0.mesh S g x y)
  vhi : ∀ l, S l → V l < s.mesh.atVert.length
  whi : ∀ l, S l → W l < s.mesh.atVert.length
  fhi : ∀ l, S l → F l < s.mesh.atVert.length
  flo : ∀ l, S l → s0.mesh.atVert.length ≤ F l
  ghi : ∀ l, S l → ∀ r < 4, s.mesh.fvert (g l + r) < s.fcount
  child_in : ∀ l x, S l → Fan s0.mesh l x → ∃ y, S y ∧ Fan s0.mesh l y ∧ s.child x = some (g y)
  child_out : ∀ l, D l → (∀ x, S x → ¬ Fan s0.mesh l x) → s.child l = none
  mid_in : ∀ l, S l → s.mid l = some (g l + 3)
  mid_out : ∀ l, D l → ¬ S l → s.mid l = none
  face_in : ∀ l, S l → s.face l = some (g l + 2)
  face_out : ∀ l, D l → ¬ S l → s.face l = none
  face_old : ∀ l < s0.mesh.laths, ¬ D l → s.face l = s0.face l
  new : ∀ x, s0.mesh.laths ≤ x → x < s.mesh.laths → s.child x = none ∧ s.mid x = none ∧ s.face x = none
  parent_old : ∀ l < s0.mesh.laths, s.parent l = s0.parent l
  parent_new : ∀ l, S l → ∀ r < 4, s.parent (g l + r) = some l
  hard_new : ∀ l, S l → s.hard (g l) = sq (s0.hard l) ∧ s.hard (g l + 1) = sq (s0.hard (s0.mesh.cf l)) ∧ s.hard (g l + 2) = 0 ∧ s.hard (g l + 3) = 0
  corner_new : ∀ l, S l → s.corner (g l) = pos (s0.corner l) ∧ s.corner (g l + 1) = pos (s0.corner l) ∧ s.corner (g l + 2) = 0 ∧ s.corner (g l + 3) = 0
  val_v : ∀ l, S l → ∃ x, Fan s0.mesh l x ∧ s.val (V l) = mv x
  val_w : ∀ l, S l → ∃ x, SameEdge s0.mesh l x ∧ x < s0.mesh.laths ∧ s.val (W l) = me x
  val_f : ∀ l, S l → ∃ x, SameFacet s0.mesh l x ∧ s.val (F l) = mf x
  fval_v : ∀ l, S l → s.fval (s.mesh.fvert (g l)) = fv l
  fval_w : ∀ l, S l → s.fval (s.mesh.fvert (g l + 3)) = fe l
  fval_f : ∀ l, S l → ∃ x, SameFacet s0.mesh l x ∧ s.fval (s.mesh.fvert (g l + 2)) = ff x
  fvert_w : ∀ l, S l → s.mesh.fvert (g l + 1) = s.mesh.fvert (g (s0.mesh.cf l) + 3)
  fvert_f : ∀ l, S l → s.mesh.fvert (g (s0.mesh.cf l) + 2) = s.mesh.fvert (g l + 2)

/-- Nothing is subdivided yet. -/
theorem J.zero {w : Vars E} {s0 : State K E} {D : Nat → Prop} (B : Base w s0 D) {mv me mf fv fe ff : Nat → E} : J w s0 D mv me mf fv fe ff (fun _ => False) id id id id s0 := by
  refine ⟨⟨?_, ?_, ?_, ?_, ?_, ?_, ?_, ?_, ?_, ?_, ⟨?_, ?_, ?_, ?_, ?_, ?_⟩, ?_, ?_, ?_⟩, ⟨⟨le_refl _, fun _ _ => rfl, fun _ _ => rfl, fun _ _ => rfl, fun _ _ => rfl⟩, le_refl _, le_refl _, fun _ _ => rfl,
    fun _ _ => rfl, fun _ _ => rfl, fun _ _ => rfl⟩, ?_, ?_, ?_, ?_, ?_, ?_, ?_, ?_, ?_, fun l hl _ => B.child l hl, ?_, fun l hl _ => B.mid l hl, ?_, fun l hl _ => B.face l hl, fun _ _ _ => rfl, ?_, fun _ _ => rfl, ?_, ?_, ?_, ?_, ?_, ?_, ?_, ?_, ?_, ?_, ?_⟩
  case refine_19 =>
    intro u hu x
    rw [List.getD_eq_default _ _ hu]
    constructor
    · intro h; simp at h
    · rintro ⟨h1, h2, _⟩; omega
  all_goals (intros; first | contradiction | omega)

end
end Verif.Geom.Subd
