import Verif.Geom.SubdFace
import Verif.Geom.SubdExtLemmas
/-!
# Lemmas about the points of a facet that is subdivided
-/
set_option linter.unusedSectionVars false
namespace Verif.Geom.Subd
open Verif.Geom.Lath

section
variable {K E : Type} [Field K] [LinearOrder K] [AddCommGroup E] [Module K E]

/-- `s'` has more values than `s`, and nothing else changed. -/
structure Ext (s s' : State K E) : Prop where
  mesh : ∃ k, s'.mesh = { s.mesh with atVert := s.mesh.atVert ++ List.replicate k [] }
  parent : s'.parent = s.parent
  child : s'.child = s.child
  mid : s'.mid = s.mid
  face : s'.face = s.face
  hard : s'.hard = s.hard
  corner : s'.corner = s.corner
  val : ∀ i < s.mesh.atVert.length, s'.val i = s.val i
  fval : ∀ i < s.fcount, s'.fval i = s.fval i
  fcount : s.fcount ≤ s'.fcount

theorem Ext.refl (s : State K E) : Ext s s := ⟨⟨0, by simp⟩, rfl, rfl, rfl, rfl, rfl, rfl, fun _ _ => rfl, fun _ _ => rfl, le_refl _⟩

theorem Ext.len {s s' : State K E} (h : Ext s s') : s.mesh.atVert.length ≤ s'.mesh.atVert.length := by
  obtain ⟨k, e⟩ := h.mesh
  rw [e]; simp

theorem Ext.trans {s1 s2 s3 : State K E} (h : Ext s1 s2) (h' : Ext s2 s3) : Ext s1 s3 := by
  refine ⟨?_, h'.parent.trans h.parent, h'.child.trans h.child, h'.mid.trans h.mid, h'.face.trans h.face, h'.hard.trans h.hard, h'.corner.trans h.corner,
    fun i hi => (h'.val i (by have := h.len; omega)).trans (h.val i hi), fun i hi => (h'.fval i (by have := h.fcount; omega)).trans (h.fval i hi), h.fcount.trans h'.fcount⟩
  obtain ⟨k, e⟩ := h.mesh
  obtain ⟨k', e'⟩ := h'.mesh
  refine ⟨k + k', ?_⟩
  rw [e', e]
  simp

theorem Ext.sub {m : Mesh} {s s' : State K E} (h : Ext s s') (X : Sub m s.mesh) : Sub m s'.mesh := by
  obtain ⟨k, e⟩ := h.mesh
  rw [e]
  exact ⟨X.le, X.cf, X.cv, X.vert, X.fvert⟩

/-- The points `G x` and face points `H x` were made for the laths `L`, in a state `s`. -/
structure Made (s s' : State K E) (look : Nat → Option Nat) (mask fmask : Nat → E) (L : List Nat) (G H : Nat → Nat) : Prop where
  ext : Ext s s'
  old : ∀ x ∈ L, ∀ i, look x = some i → G x = i
  lo : ∀ x ∈ L, look x = none → s.mesh.atVert.length ≤ G x
  hi : ∀ x ∈ L, look x = none → G x < s'.mesh.atVert.length
  val : ∀ x ∈ L, look x = none → s'.val (G x) = mask x
  inj : ∀ x ∈ L, ∀ y ∈ L, look x = none → look y = none → G x = G y → x = y
  flo : ∀ x ∈ L, s.fcount ≤ H x
  fhi : ∀ x ∈ L, H x < s'.fcount
  fval : ∀ x ∈ L, s'.fval (H x) = fmask x
  finj : ∀ x ∈ L, ∀ y ∈ L, H x = H y → x = y

theorem addPoint_ok (s : State K E) (look : Nat → Option Nat) (mask fmask : Nat → E) (x : Nat) :
    ∃ s' i j, addPoint K s (look x) (some (mask x)) (some (fmask x)) = some (s', i, j) ∧ Made s s' look mask fmask [x] (fun _ => i) (fun _ => j) := by
  cases e : look x with
  | some i =>
    refine ⟨_, _, _, rfl, ⟨⟨⟨0, by simp⟩, rfl, rfl, rfl, rfl, rfl, rfl, fun _ _ => rfl, ?_, by simp⟩, ?_, ?_, ?_, ?_, ?_, ?_, ?_, ?_, ?_⟩⟩
    · intro i hi; simp only; rw [Function.update_of_ne (by omega)]
    all_goals simp [e]
  | none =>
    refine ⟨_, _, _, rfl, ⟨⟨⟨1, by simp⟩, rfl, rfl, rfl, rfl, rfl, rfl, ?_, ?_, by simp⟩, ?_, ?_, ?_, ?_, ?_, ?_, ?_, ?_, ?_⟩⟩
    · intro i hi; simp only; rw [Function.update_of_ne (by omega)]
    · intro i hi; simp only; rw [Function.update_of_ne (by omega)]
    all_goals simp [e]

theorem addPoints_ok {add : State K E → Nat → Option (State K E × Nat × Nat)} {look : Nat → Option Nat} {mask fmask : Nat → E} {s0 : State K E} :
    ∀ (L : List Nat) (s : State K E), Ext s0 s → L.Nodup → (∀ s x, Ext s0 s → x ∈ L → add s x = addPoint K s (look x) (some (mask x)) (some (fmask x))) →
      ∃ s' G H, addPoints K add L s = some (s', L.map fun x => (G x, H x)) ∧ Made s s' look mask fmask L G H
  | [], s, _, _, _ => ⟨s, id, id, rfl, Ext.refl s, by simp, by simp, by simp, by simp, by simp, by simp, by simp, by simp, by simp⟩
  | x :: L, s, hs, hL, hadd => by
    obtain ⟨s1, i, j, e1, M1⟩ := addPoint_ok s look mask fmask x
    obtain ⟨s2, G, H, e2, M2⟩ := addPoints_ok L s1 (hs.trans M1.ext) (List.nodup_cons.1 hL).2 (fun s y h hy => hadd s y h (by simp [hy]))
    have hx : x ∉ L := (List.nodup_cons.1 hL).1
    have hu : ∀ (f : Nat → Nat) (v : Nat), ∀ y ∈ L, Function.update f x v y = f y := fun f v y hy => Function.update_of_ne (by rintro rfl; exact hx hy) _ _
    refine ⟨s2, Function.update G x i, Function.update H x j, ?_, ⟨M1.ext.trans M2.ext, ?_, ?_, ?_, ?_, ?_, ?_, ?_, ?_, ?_⟩⟩
    · rw [addPoints, hadd s x hs (by simp), e1]
      simp only [Option.bind_some, e2, Option.map_some, List.map_cons, Function.update_self]
      rw [List.map_congr_left (g := fun y => (Function.update G x i y, Function.update H x j y)) fun y hy => by rw [hu G i y hy, hu H j y hy]]
    · intro y hy k hk
      rcases List.mem_cons.1 hy with rfl | hy
      · rw [Function.update_self]; exact M1.old y (by simp) k hk
      · rw [hu _ _ y hy]; exact M2.old y hy k hk
    · intro y hy hk
      rcases List.mem_cons.1 hy with rfl | hy
      · rw [Function.update_self]; exact M1.lo y (by simp) hk
      · rw [hu _ _ y hy]; exact M1.ext.len.trans (M2.lo y hy hk)
    · intro y hy hk
      rcases List.mem_cons.1 hy with rfl | hy
      · rw [Function.update_self]; exact (M1.hi y (by simp) hk).trans_le M2.ext.len
      · rw [hu _ _ y hy]; exact M2.hi y hy hk
    · intro y hy hk
      rcases List.mem_cons.1 hy with rfl | hy
      · rw [Function.update_self, M2.ext.val i (M1.hi y (by simp) hk)]; exact M1.val y (by simp) hk
      · rw [hu _ _ y hy]; exact M2.val y hy hk
    · intro y hy z hz hky hkz e
      rcases List.mem_cons.1 hy with rfl | hy2 <;> rcases List.mem_cons.1 hz with rfl | hz2
      · rfl
      · rw [Function.update_self, hu _ _ z hz2] at e
        have := M1.hi y (by simp) hky
        have := M2.lo z hz2 hkz
        omega
      · rw [Function.update_self, hu _ _ y hy2] at e
        have := M1.hi z (by simp) hkz
        have := M2.lo y hy2 hky
        omega
      · rw [hu _ _ y hy2, hu _ _ z hz2] at e
        exact M2.inj y hy2 z hz2 hky hkz e
    · intro y hy
      rcases List.mem_cons.1 hy with rfl | hy
      · rw [Function.update_self]; exact M1.flo y (by simp)
      · rw [hu _ _ y hy]; exact M1.ext.fcount.trans (M2.flo y hy)
    · intro y hy
      rcases List.mem_cons.1 hy with rfl | hy
      · rw [Function.update_self]; exact (M1.fhi y (by simp)).trans_le M2.ext.fcount
      · rw [hu _ _ y hy]; exact M2.fhi y hy
    · intro y hy
      rcases List.mem_cons.1 hy with rfl | hy
      · rw [Function.update_self, M2.ext.fval j (M1.fhi y (by simp))]; exact M1.fval y (by simp)
      · rw [hu _ _ y hy]; exact M2.fval y hy
    · intro y hy z hz e
      rcases List.mem_cons.1 hy with rfl | hy2 <;> rcases List.mem_cons.1 hz with rfl | hz2
      · rfl
      · rw [Function.update_self, hu _ _ z hz2] at e
        have := M1.fhi y (by simp)
        have := M2.flo z hz2
        omega
      · rw [Function.update_self, hu _ _ y hy2] at e
        have := M1.fhi z (by simp)
        have := M2.flo y hy2
        omega
      · rw [hu _ _ y hy2, hu _ _ z hz2] at e
        exact M2.finj y hy2 z hz2 e

end
end Verif.Geom.Subd
