import Verif.Geom.SubdGrowLemmas
/-!
# Lemmas about subdividing a facet: the whole step
-/
set_option linter.unusedSectionVars false
namespace Verif.Geom.Subd
open Verif.Geom.Lath

section
variable {K E : Type} [Field K] [LinearOrder K] [IsStrictOrderedRing K] [AddCommGroup E] [Module K E]
variable {w : Vars E} {s0 : State K E} {D : Nat → Prop} (B : Base w s0 D) {mv me mf fv fe ff : Nat → E} {S : Nat → Prop} {g V W F : Nat → Nat} {s : State K E} {l0 : Nat} {L : List Nat}
  {s1 s2 s3 : State K E} {f q : Nat} {Ge He Gv Hv : Nat → Nat} {s4 : State K E}
include B

section
variable (P : Split w s0 D mv me mf fv fe ff S g V W F s l0 L s1 s2 s3 f q Ge He Gv Hv s4)
include P

/-- All links of the new facets are made. -/
theorem Split.links : ∃ m5 m6, (List.range L.length).foldlM (fun m i => linkFacet m (s3.mesh.laths + 4 * i) (s3.mesh.laths + 4 * ((i + 1) % L.length))) s4.mesh = some m5 ∧
    (List.range L.length).foldlM (fun m i => linkMid m (s3.mesh.laths + 4 * i)) m5 = some m6 ∧
    Lk s0.mesh (fun x => S x ∨ x ∈ L) (upd L (fun x => s.mesh.laths + 4 * L.idxOf x) g) s4.mesh m6 ∧
    ∀ x y, T s0.mesh (fun x => S x ∨ x ∈ L) (upd L (fun x => s.mesh.laths + 4 * L.idxOf x) g) x y → m6.cv x = some y := by
  obtain ⟨l3, l4⟩ := P.laths B
  have k4 := P.kids B
  have so4 := P.sound B
  have NL := B.simple.noLoop B.ok
  have gL : ∀ i < L.length, s3.mesh.laths + 4 * i = upd L (fun x => s.mesh.laths + 4 * L.idxOf x) g (L.getD i 0) := by
    intro i hi
    obtain ⟨i1, i2⟩ := P.idx_get B hi
    rw [upd_in i1, i2, l3]
  have gS : ∀ z, S z → upd L (fun x => s.mesh.laths + 4 * L.idxOf x) g z = g z := fun z hz => upd_out (P.notL B hz)
  have old : ∀ x y, s0.mesh.laths ≤ x → x < s.mesh.laths → T s0.mesh S g x y → s4.mesh.cv x = some y := by
    intro x y h1 h2 h
    obtain ⟨k, e⟩ := (P.ext B).mesh
    rw [P.Q.cv_old x (by omega), e]
    exact (P.j.cv x y h1 h2).2 h
  revert k4 so4 gL gS
  generalize upd L (fun x => s.mesh.laths + 4 * L.idxOf x) g = g'
  intro k4 so4 gL gS
  have get : ∀ x ∈ L, ∃ i ∈ List.range L.length, L.getD i 0 = x := fun x hx => ⟨_, by simpa using (P.idx B hx).1, (P.idx B hx).2⟩
  obtain ⟨m5, e5, lk5, p5⟩ := foldM_ok (L := List.range L.length) (m0 := s0.mesh) (f := fun m i => linkFacet m (s3.mesh.laths + 4 * i) (s3.mesh.laths + 4 * ((i + 1) % L.length)))
    (post := fun i m' => (∀ x, S x ∨ x ∈ L → (s0.mesh.cv (L.getD i 0) = some x → m'.cv (g' (L.getD i 0)) = some (g' x)) ∧
        (s0.mesh.cv x = some (L.getD i 0) → m'.cv (g' x) = some (g' (L.getD i 0)))) ∧
      m'.cv (g' (L.getD i 0) + 2) = some (g' (s0.mesh.cf (L.getD i 0)) + 2) ∧ m'.cv (g' (s0.mesh.cf (L.getD i 0)) + 3) = some (g' (L.getD i 0) + 1)) (by
    intro i hi m m' km lk ⟨p1, p2, p3⟩
    have hi := List.mem_range.1 hi
    have hL := (P.idx_get B hi).1
    have r1 := km.range _ (.inr hL)
    have r2 := km.range _ (.inr (P.memL B hL).2.2.2)
    refine ⟨fun x hx => ?_, lk.mono _ _ (by omega) (by omega) p2, lk.mono _ _ (by omega) (by omega) p3⟩
    have r3 := km.range _ hx
    exact ⟨fun e => lk.mono _ _ (by omega) (by omega) ((p1 x hx).1 e), fun e => lk.mono _ _ (by omega) (by omega) ((p1 x hx).2 e)⟩) (by
    intro i hi m km so
    have hi := List.mem_range.1 hi
    have hL := (P.idx_get B hi).1
    obtain ⟨m', e, lk, p⟩ := linkFacet_ok B.ok NL km so (.inr hL)
    refine ⟨m', ?_, lk, p⟩
    rw [gL i hi, gL _ (Nat.mod_lt _ (by omega)), P.nxt i hi]
    exact e) s4.mesh k4 so4
  have k5 := k4.of_keep lk5.keep
  obtain ⟨m6, e6, lk6, p6⟩ := foldM_ok (L := List.range L.length) (m0 := s0.mesh) (f := fun m i => linkMid m (s3.mesh.laths + 4 * i))
    (post := fun i m' => ∀ x, S x ∨ x ∈ L → (s0.mesh.ccv (L.getD i 0) = some x → m'.cv (g' (L.getD i 0) + 1) = some (g' x + 3)) ∧
        (s0.mesh.ccv x = some (L.getD i 0) → m'.cv (g' x + 1) = some (g' (L.getD i 0) + 3))) (by
    intro i hi m m' km lk p1 x hx
    have hi := List.mem_range.1 hi
    have hL := (P.idx_get B hi).1
    have r1 := km.range _ (.inr hL)
    have r3 := km.range _ hx
    exact ⟨fun e => lk.mono _ _ (by omega) (by omega) ((p1 x hx).1 e), fun e => lk.mono _ _ (by omega) (by omega) ((p1 x hx).2 e)⟩) (by
    intro i hi m km so
    have hi := List.mem_range.1 hi
    have hL := (P.idx_get B hi).1
    obtain ⟨m', e, lk, p⟩ := linkMid_ok B.ok NL km so (.inr hL)
    refine ⟨m', ?_, lk, p⟩
    rw [gL i hi]
    exact e) m5 k5 lk5.sound
  have lk := lk5.trans lk6
  have l5 := lk5.laths
  refine ⟨m5, m6, e5, e6, lk, fun x y h => ?_⟩
  have up5 : ∀ x y, s0.mesh.laths ≤ x → x < s4.mesh.laths → m5.cv x = some y → m6.cv x = some y := fun x y h1 h2 h3 => lk6.mono x y h1 (by omega) h3
  have ups : ∀ x y, s0.mesh.laths ≤ x → x < s.mesh.laths → T s0.mesh S g x y → m6.cv x = some y := fun x y h1 h2 h3 => lk.mono x y h1 (by omega) (old x y h1 h2 h3)
  have rg := (h.range B.ok k4).1
  cases h with
  | @a l z h1 h2 h3 =>
    by_cases hl : l ∈ L
    · obtain ⟨i, hi, rfl⟩ := get l hl
      exact up5 _ _ rg.1 rg.2 (((p5 i hi).1 z h2).1 h3)
    · by_cases hz : z ∈ L
      · obtain ⟨i, hi, rfl⟩ := get z hz
        exact up5 _ _ rg.1 rg.2 (((p5 i hi).1 l h1).2 h3)
      · have h1 := h1.resolve_right hl
        have h2 := h2.resolve_right hz
        have := P.j.kids.range l h1
        rw [gS _ h1, gS _ h2]
        exact ups _ _ (by omega) (by omega) (.a h1 h2 h3)
  | @b l z h1 h2 h3 =>
    by_cases hl : l ∈ L
    · obtain ⟨i, hi, rfl⟩ := get l hl
      exact ((p6 i hi) z h2).1 h3
    · by_cases hz : z ∈ L
      · obtain ⟨i, hi, rfl⟩ := get z hz
        exact ((p6 i hi) l h1).2 h3
      · have h1 := h1.resolve_right hl
        have h2 := h2.resolve_right hz
        have := P.j.kids.range l h1
        rw [gS _ h1, gS _ h2]
        exact ups _ _ (by omega) (by omega) (.b h1 h2 h3)
  | @c l h1 =>
    by_cases hl : l ∈ L
    · obtain ⟨i, hi, rfl⟩ := get l hl
      exact up5 _ _ rg.1 rg.2 (p5 i hi).2.1
    · have h1 := h1.resolve_right hl
      have := P.j.kids.range l h1
      rw [gS _ h1, gS _ (P.j.kids.next _ h1)]
      exact ups _ _ (by omega) (by omega) (.c h1)
  | @d l h1 =>
    by_cases hl : l ∈ L
    · obtain ⟨i, hi, rfl⟩ := get l hl
      exact up5 _ _ rg.1 rg.2 (p5 i hi).2.2
    · have h1 := h1.resolve_right hl
      have := P.j.kids.range _ (P.j.kids.next _ h1)
      rw [gS _ h1, gS _ (P.j.kids.next _ h1)]
      exact ups _ _ (by omega) (by omega) (.d h1)

/-- The state after a facet is subdivided. -/
theorem Split.done {m6 : Mesh} (lk : Lk s0.mesh (fun x => S x ∨ x ∈ L) (upd L (fun x => s.mesh.laths + 4 * L.idxOf x) g) s4.mesh m6)
    (hT : ∀ x y, T s0.mesh (fun x => S x ∨ x ∈ L) (upd L (fun x => s.mesh.laths + 4 * L.idxOf x) g) x y → m6.cv x = some y) :
    J w s0 D mv me mf fv fe ff (fun x => S x ∨ x ∈ L) (upd L (fun x => s.mesh.laths + 4 * L.idxOf x) g) (upd L Gv V) (upd L Ge W) (upd L (fun _ => f) F)
      { s4 with mesh := m6, face := fun x => if L.contains x then some (s3.mesh.laths + 4 * L.idxOf x + 2) else s4.face x } := by
  obtain ⟨l3, l4⟩ := P.laths B
  have k4 := P.kids B
  have hle := P.j.same.sub.le
  obtain ⟨n1, n2, n3, n4, n5, n6, n7⟩ := P.lens B
  have X := P.ext B
  obtain ⟨k, eX⟩ := X.mesh
  have l6 := lk.laths
  have f6 : m6.fvert = s4.mesh.fvert := by rw [lk.keep]
  have a6 : m6.atVert = s4.mesh.atVert := by rw [lk.keep]
  have S3 := P.j.same.ext X
  have S4 := P.Q.sub S3.sub
  have fc := X.fcount
  have fcq := P.Q.fcount
  have fold : ∀ l, S l → ∀ r < 4, s4.mesh.fvert (g l + r) = s.mesh.fvert (g l + r) := by
    intro l hl r hr
    have := P.j.kids.range l hl
    rw [P.Q.fvert_old _ (by omega), eX]
  have vS : ∀ i < s.mesh.atVert.length, s4.val i = s.val i := fun i hi => by rw [P.Q.val, X.val i hi]
  have fS : ∀ i < s.fcount, s4.fval i = s.fval i := fun i hi => by rw [P.Q.fval, X.fval i hi]
  have v3 : ∀ i < s2.mesh.atVert.length, s4.val i = s2.val i := fun i hi => by rw [P.Q.val, P.M3.ext.val i hi]
  have v2 : ∀ i < s1.mesh.atVert.length, s4.val i = s1.val i := fun i hi => by rw [v3 i (by omega), P.M2.ext.val i hi]
  have new : ∀ l ∈ L, s3.mesh.laths ≤ s.mesh.laths + 4 * L.idxOf l ∧ s.mesh.laths + 4 * L.idxOf l + 3 < s3.mesh.laths + 4 * L.length := fun l hl => by have := (P.idx B hl).1; omega
  refine ⟨k4.of_keep lk.keep, ⟨⟨?_, ?_, ?_, ?_, ?_⟩, ?_, ?_, ?_, ?_, ?_, ?_⟩, ?_, ?_, ?_, ?_, ?_, ?_, ?_, ?_, ?_, ?_, ?_, ?_, ?_, ?_, ?_, ?_, ?_, ?_, ?_, ?_, ?_, ?_, ?_, ?_, ?_, ?_, ?_, ?_⟩
  · rw [l6]; exact S4.le
  · intro l hl; show m6.cf l = _; rw [lk.keep]; exact S4.cf l hl
  · intro l hl; show m6.cv l = _; rw [lk.old l hl]; exact S4.cv l hl
  · intro l hl; show m6.vert l = _; rw [lk.keep]; exact S4.vert l hl
  · intro l hl; show m6.fvert l = _; rw [lk.keep]; exact S4.fvert l hl
  · show _ ≤ m6.atVert.length; rw [a6]; omega
  · show _ ≤ s4.fcount; have := P.j.same.fcount; omega
  · intro i hi; show s4.val i = _; rw [P.Q.val]; exact S3.val i hi
  · intro i hi; show s4.fval i = _; rw [P.Q.fval]; exact S3.fval i hi
  · intro l hl; show s4.hard l = _; rw [P.Q.hard_old l (by omega)]; exact S3.hard l hl
  · intro l hl; show s4.corner l = _; rw [P.Q.corner_old l (by omega)]; exact S3.corner l hl
  · exact fun l hl => hl.elim (P.j.dom l) fun h => (P.memL B h).2.1
  · exact fun l hN hl => hl.imp (P.j.prev l hN) fun h => P.prevL B hN h
  · intro x y h1 h2
    exact ⟨fun h => lk.sound x y h1 h2 h, hT x y⟩
  · intro l hl
    show _ < m6.atVert.length
    rw [a6]
    rcases hl with hl | hl
    · rw [upd_out (P.notL B hl)]; have := P.j.vhi l hl; omega
    · rw [upd_in hl]
      rcases P.v_cases B hl with ⟨y, h1, _, h3⟩ | ⟨h1, h2, _⟩
      · have := P.j.vhi y h1; omega
      · omega
  · intro l hl
    show _ < m6.atVert.length
    rw [a6]
    rcases hl with hl | hl
    · rw [upd_out (P.notL B hl)]; have := P.j.whi l hl; omega
    · rw [upd_in hl]
      rcases P.w_cases B hl with ⟨y, h1, _, h3⟩ | ⟨h1, h2, _⟩
      · have := P.j.whi y h1; omega
      · omega
  · intro l hl
    show _ < m6.atVert.length
    rw [a6]
    rcases hl with hl | hl
    · rw [upd_out (P.notL B hl)]; have := P.j.fhi l hl; omega
    · rw [upd_in hl]; omega
  · intro l hl
    rcases hl with hl | hl
    · rw [upd_out (P.notL B hl)]; exact P.j.flo l hl
    · rw [upd_in hl]; omega
  · intro l hl r hr
    show m6.fvert _ < s4.fcount
    rw [f6]
    rcases hl with hl | hl
    · rw [upd_out (P.notL B hl), fold l hl r hr]; have := P.j.ghi l hl r hr; omega
    · rw [upd_in hl]
      have hv := (P.verts B hl).2
      have h1 := P.M3.fhi l hl
      have h2 := P.M2.fhi l hl
      have h3 := P.M2.fhi _ (P.memL B hl).2.2.2
      have h4 := P.M1.fhi l0 (by simp)
      have h5 := P.M2.ext.fcount
      have h6 := P.M3.ext.fcount
      have : r = 0 ∨ r = 1 ∨ r = 2 ∨ r = 3 := by omega
      rcases this with rfl | rfl | rfl | rfl
      · rw [Nat.add_zero, hv.1]; omega
      · rw [hv.2.1]; omega
      · rw [hv.2.2.1]; omega
      · rw [hv.2.2.2]; omega
  · intro l x hl hf
    by_cases h : ∃ z ∈ L, Fan s0.mesh z x
    · obtain ⟨z, hz, hzx⟩ := h
      have := P.Q.child_at _ (P.idx B hz).1 x (by rw [(P.idx B hz).2]; exact hzx)
      exact ⟨z, .inr hz, .trans _ _ _ hf (.symm _ _ hzx), by rw [upd_in hz, this, l3]⟩
    · push Not at h
      have hlL : l ∉ L := fun hh => h l hh hf
      have hlS := hl.resolve_right hlL
      obtain ⟨y, h1, h2, h3⟩ := P.j.child_in l x hlS hf
      have hxN := (B.ok.fan_lt hf).1 (P.j.kids.lt l hlS)
      refine ⟨y, .inl h1, h2, ?_⟩
      rw [upd_out (P.notL B h1)]
      show s4.child x = _
      rw [P.Q.child_old x (by omega) (fun i hi => h _ (P.idx_get B hi).1), X.child]
      exact h3
  · intro l hl h
    show s4.child l = _
    have := B.dom.lt l hl
    rw [P.Q.child_old l (by omega) (fun i hi hh => h _ (.inr (P.idx_get B hi).1) (.symm _ _ hh)), X.child]
    exact P.j.child_out l hl fun x hx => h x (.inl hx)
  · intro l hl
    show s4.mid l = _
    rcases hl with hl | hl
    · have := P.j.kids.lt l hl
      rw [upd_out (P.notL B hl), P.Q.mid_old l (by omega) (fun i hi e => P.notL B hl (e ▸ (P.idx_get B hi).1)), X.mid]
      exact P.j.mid_in l hl
    · have := P.Q.mid_at _ (P.idx B hl).1
      rw [(P.idx B hl).2, l3] at this
      rw [upd_in hl]
      exact this
  · intro l hl h
    show s4.mid l = _
    have := B.dom.lt l hl
    rw [P.Q.mid_old l (by omega) (fun i hi e => h (.inr (e ▸ (P.idx_get B hi).1))), X.mid]
    exact P.j.mid_out l hl fun hx => h (.inl hx)
  · intro l hl
    show (if L.contains l then _ else s4.face l) = _
    rcases hl with hl | hl
    · have := P.j.kids.lt l hl
      rw [if_neg (by simpa using P.notL B hl), upd_out (P.notL B hl), P.Q.face_old l (by omega), X.face]
      exact P.j.face_in l hl
    · rw [if_pos (by simpa using hl), upd_in hl, l3]
  · intro l hl h
    show (if L.contains l then _ else s4.face l) = _
    have := B.dom.lt l hl
    rw [if_neg (by simpa using fun hx => h (.inr hx)), P.Q.face_old l (by omega), X.face]
    exact P.j.face_out l hl fun hx => h (.inl hx)
  · intro l hl h
    show (if L.contains l then _ else s4.face l) = _
    rw [if_neg (by simpa using fun hx => h (P.memL B hx).2.1), P.Q.face_old l (by omega), X.face]
    exact P.j.face_old l hl h
  · intro x h1 h2
    have h2 : x < m6.laths := h2
    show s4.child x = none ∧ s4.mid x = none ∧ (if L.contains x then _ else s4.face x) = none
    have hxL : x ∉ L := fun h => by have := (P.memL B h).1; omega
    rw [if_neg (by simpa using hxL)]
    by_cases hx : x < s.mesh.laths
    · rw [P.Q.face_old x (by omega), P.Q.mid_old x (by omega) (fun i hi e => hxL (e ▸ (P.idx_get B hi).1)),
        P.Q.child_old x (by omega) (fun i hi hh => by have := (B.ok.fan_lt hh).1 (P.memL B (P.idx_get B hi).1).1; omega), X.face, X.mid, X.child]
      exact P.j.new x h1 hx
    · exact ⟨P.Q.child_new x (by omega) (by omega), P.Q.mid_new x (by omega) (by omega), P.Q.face_new x (by omega) (by omega)⟩
  · intro l hl
    show s4.parent l = _
    rw [P.Q.parent_old l (by omega), X.parent]
    exact P.j.parent_old l hl
  · intro l hl r hr
    show s4.parent _ = _
    rcases hl with hl | hl
    · have := P.j.kids.range l hl
      rw [upd_out (P.notL B hl), P.Q.parent_old _ (by omega), X.parent]
      exact P.j.parent_new l hl r hr
    · have := P.Q.parent_new _ (P.idx B hl).1 r hr
      rw [l3, (P.idx B hl).2] at this
      rw [upd_in hl]
      exact this
  · intro l hl
    show s4.hard _ = _ ∧ s4.hard _ = _ ∧ s4.hard _ = _ ∧ s4.hard _ = _
    rcases hl with hl | hl
    · have := P.j.kids.range l hl
      rw [upd_out (P.notL B hl), P.Q.hard_old _ (by omega), P.Q.hard_old _ (by omega), P.Q.hard_old _ (by omega), P.Q.hard_old _ (by omega), X.hard]
      exact P.j.hard_new l hl
    · have := P.Q.hard_new _ (P.idx B hl).1
      rw [l3, (P.idx B hl).2, P.idx_cf B hl, (P.idx B (P.memL B hl).2.2.2).2, X.hard, P.j.same.hard l (P.memL B hl).1, P.j.same.hard _ (P.memL B (P.memL B hl).2.2.2).1] at this
      rw [upd_in hl]
      exact this
  · intro l hl
    show s4.corner _ = _ ∧ s4.corner _ = _ ∧ s4.corner _ = _ ∧ s4.corner _ = _
    rcases hl with hl | hl
    · have := P.j.kids.range l hl
      rw [upd_out (P.notL B hl), P.Q.corner_old _ (by omega), P.Q.corner_old _ (by omega), P.Q.corner_old _ (by omega), P.Q.corner_old _ (by omega), X.corner]
      exact P.j.corner_new l hl
    · have := P.Q.corner_new _ (P.idx B hl).1
      rw [l3, (P.idx B hl).2, X.corner, P.j.same.corner l (P.memL B hl).1] at this
      rw [upd_in hl]
      exact this
  · intro l hl
    show ∃ x, _ ∧ s4.val _ = _
    rcases hl with hl | hl
    · rw [upd_out (P.notL B hl), vS _ (P.j.vhi l hl)]; exact P.j.val_v l hl
    · rw [upd_in hl]
      rcases P.v_cases B hl with ⟨y, h1, h2, h3⟩ | ⟨h1, h2, h3, _⟩
      · obtain ⟨x, k1, k2⟩ := P.j.val_v y h1
        exact ⟨x, .trans _ _ _ h2 k1, by rw [h3, vS _ (P.j.vhi y h1)]; exact k2⟩
      · exact ⟨l, .refl _, by rw [P.Q.val]; exact h3⟩
  · intro l hl
    show ∃ x, _ ∧ _ ∧ s4.val _ = _
    rcases hl with hl | hl
    · rw [upd_out (P.notL B hl), vS _ (P.j.whi l hl)]; exact P.j.val_w l hl
    · rw [upd_in hl]
      rcases P.w_cases B hl with ⟨y, h1, h2, h3⟩ | ⟨h1, h2, h3, _⟩
      · obtain ⟨x, k1, k0, k2⟩ := P.j.val_w y h1
        exact ⟨x, sameEdge_trans B.ok (P.memL B hl).1 (P.j.kids.lt y h1) k0 h2 k1, k0, by rw [h3, vS _ (P.j.whi y h1)]; exact k2⟩
      · exact ⟨l, .inl rfl, (P.memL B hl).1, by rw [v3 _ h2]; exact h3⟩
  · intro l hl
    show ∃ x, _ ∧ s4.val _ = _
    rcases hl with hl | hl
    · rw [upd_out (P.notL B hl), vS _ (P.j.fhi l hl)]; exact P.j.val_f l hl
    · rw [upd_in hl]
      exact ⟨l0, .symm _ _ ((P.mem l).1 hl), by rw [v2 _ n2]; exact P.M1.val l0 (by simp) rfl⟩
  · intro l hl
    show s4.fval (m6.fvert _) = _
    rw [f6]
    rcases hl with hl | hl
    · have h0 := fold l hl 0 (by omega)
      have h1 := P.j.ghi l hl 0 (by omega)
      rw [Nat.add_zero] at h0 h1
      rw [upd_out (P.notL B hl), h0, fS _ h1]
      exact P.j.fval_v l hl
    · rw [upd_in hl, (P.verts B hl).2.1, P.Q.fval]
      exact P.M3.fval l hl
  · intro l hl
    show s4.fval (m6.fvert _) = _
    rw [f6]
    rcases hl with hl | hl
    · rw [upd_out (P.notL B hl), fold l hl 3 (by omega), fS _ (P.j.ghi l hl 3 (by omega))]
      exact P.j.fval_w l hl
    · rw [upd_in hl, (P.verts B hl).2.2.2.2, P.Q.fval, P.M3.ext.fval _ (P.M2.fhi l hl)]
      exact P.M2.fval l hl
  · intro l hl
    show ∃ x, _ ∧ s4.fval (m6.fvert _) = _
    rw [f6]
    rcases hl with hl | hl
    · rw [upd_out (P.notL B hl), fold l hl 2 (by omega), fS _ (P.j.ghi l hl 2 (by omega))]
      exact P.j.fval_f l hl
    · have hq := P.M1.fhi l0 (by simp)
      have := P.M2.ext.fcount
      rw [upd_in hl, (P.verts B hl).2.2.2.1, P.Q.fval, P.M3.ext.fval _ (by omega), P.M2.ext.fval _ hq]
      exact ⟨l0, .symm _ _ ((P.mem l).1 hl), P.M1.fval l0 (by simp)⟩
  · intro l hl
    show m6.fvert _ = m6.fvert _
    rw [f6]
    rcases hl with hl | hl
    · have hc := P.j.kids.next l hl
      rw [upd_out (P.notL B hl), upd_out (P.notL B hc), fold l hl 1 (by omega), fold _ hc 3 (by omega)]
      exact P.j.fvert_w l hl
    · have hc := (P.memL B hl).2.2.2
      rw [upd_in hl, upd_in hc, (P.verts B hl).2.2.1, (P.verts B hc).2.2.2.2]
  · intro l hl
    show m6.fvert _ = m6.fvert _
    rw [f6]
    rcases hl with hl | hl
    · have hc := P.j.kids.next l hl
      rw [upd_out (P.notL B hl), upd_out (P.notL B hc), fold l hl 2 (by omega), fold _ hc 2 (by omega)]
      exact P.j.fvert_f l hl
    · have hc := (P.memL B hl).2.2.2
      rw [upd_in hl, upd_in hc, (P.verts B hl).2.2.2.1, (P.verts B hc).2.2.2.1]

end

/-- **A facet is subdivided.** -/
theorem splitFace_ok (M : Masks w s0 mv me mf fv fe ff) (j : J w s0 D mv me mf fv fe ff S g V W F s) (hD : D l0) (hS : ¬ S l0) :
    ∃ L s' g' V' W' F', s0.mesh.Qfe l0 = some L ∧ splitFace K w s l0 = some (s', (List.range L.length).map fun i => g' (L.getD i 0) + (3 * i) % 4) ∧
      J w s0 D mv me mf fv fe ff (fun x => S x ∨ SameFacet s0.mesh l0 x) g' V' W' F' s' ∧ (∀ l, S l → g' l = g l) := by
  have hl0 := B.dom.lt _ hD
  obtain ⟨L, e1, nd, mem, pos, _, nxt⟩ := facet_get B.ok hl0
  have hN : ∀ x ∈ L, x < s0.mesh.laths := fun x hx => (B.ok.facet_lt ((mem x).1 hx)).1 hl0
  obtain ⟨s1, s2, s3, f, q, Ge, He, Gv, Hv, a1, M1, a2, M2, a3, M3⟩ := points_ok B M j.same hl0 nd hN
  have X : Ext s s3 := (M1.ext.trans M2.ext).trans M3.ext
  have getL : ∀ i < L.length, L.getD i 0 ∈ L := fun i hi => by rw [List.getD_eq_getElem _ _ hi]; exact List.getElem_mem hi
  have getM : ∀ (G H : Nat → Nat), ∀ i < L.length, (L.map fun x => (G x, H x)).getD i (0, 0) = (G (L.getD i 0), H (L.getD i 0)) := by
    intro G H i hi
    rw [List.getD_eq_getElem _ _ (by simpa using hi), List.getElem_map, List.getD_eq_getElem _ _ hi]
  have hDL : ∀ x ∈ L, D x ∧ ¬ S x := fun x hx => ⟨(B.dom.facet B.ok ((mem x).1 hx)).1 hD, fun h => hS ((j.facet B ((mem x).1 hx)).2 h)⟩
  have ln1 := M1.ext.len
  have ln2 := M2.ext.len
  have ln3 := M3.ext.len
  obtain ⟨s4, a4, Q⟩ := quads_ok B.ok (X.sub j.same.sub) (L := L) (v := L.map fun x => (Gv x, Hv x)) (e := L.map fun x => (Ge x, He x)) (f := (f, q)) (fun i hi => hN _ (getL i hi)) (by
      intro i hi k hk h
      have h1 : L.getD i 0 = L.getD k 0 := B.simple.fan B.ok (hN _ (getL i hi)) (.trans _ _ _ (.symm _ _ ((mem _).1 (getL i hi))) ((mem _).1 (getL k hk))) h
      rw [List.getD_eq_getElem _ _ hi, List.getD_eq_getElem _ _ hk] at h1
      exact (List.Nodup.getElem_inj_iff nd).1 h1) (by
      intro i hi
      rw [getM _ _ i hi]
      simp only
      have hx := getL i hi
      rcases j.look_v B (hDL _ hx).1 with ⟨y, h1, _, h3⟩ | ⟨h1, _⟩
      · have := j.vhi y h1
        rw [M3.old _ hx _ h3]; omega
      · exact M3.hi _ hx h1) (by
      intro i hi
      rw [getM _ _ i hi]
      simp only
      have hx := getL i hi
      rcases j.look_e B (hDL _ hx).1 (hDL _ hx).2 with ⟨y, h1, _, h3⟩ | ⟨h1, _⟩
      · have := j.whi y h1
        rw [M2.old _ hx _ h3]; omega
      · have := M2.hi _ hx h1; omega) (by have := M1.hi l0 (by simp) rfl; simp only; omega) L.length 0 s3 (by omega) (Quads.zero _ _ _ _ _ _)
  have P : Split w s0 D mv me mf fv fe ff S g V W F s l0 L s1 s2 s3 f q Ge He Gv Hv s4 := ⟨j, hD, hS, nd, mem, nxt, M1, M2, M3, Q⟩
  obtain ⟨m5, m6, e5, e6, lk, hT⟩ := P.links B
  have hJ := P.done B lk hT
  have hSL : (fun x => S x ∨ x ∈ L) = fun x => S x ∨ SameFacet s0.mesh l0 x := by funext x; rw [mem x]
  rw [hSL] at hJ
  refine ⟨L, _, _, _, _, _, e1, ?_, hJ, fun l hl => upd_out (P.notL B hl)⟩
  have e0 : s.mesh.Qfe l0 = some L := by rw [j.same.sub.Qfe B.ok hl0]; exact e1
  rw [splitFace, e0]
  simp only [Option.bind_some, a1, a2, a3, a4, e5, e6, Option.map_some]
  congr 2
  rw [← List.range_eq_range']
  refine List.map_congr_left fun i hi => ?_
  obtain ⟨i1, i2⟩ := P.idx_get B (List.mem_range.1 hi)
  rw [upd_in i1, i2, (P.laths B).1]

end
end Verif.Geom.Subd
