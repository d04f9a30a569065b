import Verif.Geom.LathNearLemmas
/-!
# Lemmas about `Finalise`
-/
namespace Verif.Geom.Lath
open Mesh

set_option linter.unusedSectionVars false

/-- What `Finalise` needs of the facets: `pf` is the inverse of `cf`, no two laths have the same edge in the same direction, and the neighbours of a lath in its facet
differ. -/
structure Base (m0 : Mesh) (pf : Nat → Nat) : Prop where
  cf_lt : ∀ l < m0.laths, m0.cf l < m0.laths
  pf_lt : ∀ l < m0.laths, pf l < m0.laths
  cf_pf : ∀ l < m0.laths, m0.cf (pf l) = l
  pf_cf : ∀ l < m0.laths, pf (m0.cf l) = l
  uniq : ∀ l < m0.laths, ∀ x < m0.laths, m0.vert l = m0.vert x → m0.vert (pf l) = m0.vert (pf x) → l = x
  irr : ∀ l < m0.laths, m0.vert (m0.cf l) ≠ m0.vert (pf l)

/-- The edge of `l` is the edge of `cf x` in the other direction. -/
def Mate (m0 : Mesh) (pf : Nat → Nat) (l x : Nat) : Prop :=
  l < m0.laths ∧ x < m0.laths ∧ m0.vert x = m0.vert l ∧ m0.vert (m0.cf x) = m0.vert (pf l)

def MFan (m0 : Mesh) (pf : Nat → Nat) : Nat → Nat → Prop := Relation.EqvGen (Mate m0 pf)

def Closed (m0 : Mesh) (pf : Nat → Nat) (l : Nat) : Prop := ∀ y, MFan m0 pf l y → ∃ z, Mate m0 pf y z

section
variable {m0 : Mesh} {pf : Nat → Nat} (B : Base m0 pf)
include B

theorem Mate.right_unique {l x x' : Nat} (h : Mate m0 pf l x) (h' : Mate m0 pf l x') : x = x' := by
  obtain ⟨_, b, c, d⟩ := h
  obtain ⟨_, b', c', d'⟩ := h'
  have := B.uniq (m0.cf x) (B.cf_lt x b) (m0.cf x') (B.cf_lt x' b') (d.trans d'.symm) (by rw [B.pf_cf x b, B.pf_cf x' b', c, c'])
  rw [← B.pf_cf x b, this, B.pf_cf x' b']

theorem Mate.left_unique {l l' x : Nat} (h : Mate m0 pf l x) (h' : Mate m0 pf l' x) : l = l' := by
  obtain ⟨a, _, c, d⟩ := h
  obtain ⟨a', _, c', d'⟩ := h'
  exact B.uniq l a l' a' (c.symm.trans c') (d.symm.trans d')

theorem Mate.irrefl {l : Nat} (h : Mate m0 pf l l) : False := B.irr l h.1 h.2.2.2

/-- The link in the other direction. -/
theorem Mate.back {l x : Nat} (h : Mate m0 pf l x) : Mate m0 pf (m0.cf x) (pf l) := by
  obtain ⟨a, b, c, d⟩ := h
  exact ⟨B.cf_lt x b, B.pf_lt l a, d.symm, by rw [B.cf_pf l a, B.pf_cf x b, c]⟩

omit B in
theorem MFan.lt {l x : Nat} (h : MFan m0 pf l x) : l < m0.laths ↔ x < m0.laths :=
  mem_of_eqvGen (A := fun y => y < m0.laths) (fun _ _ e => ⟨fun _ => e.2.1, fun _ => e.1⟩) h

omit B in
theorem Closed.of_fan {l x : Nat} (h : Closed m0 pf l) (hx : MFan m0 pf l x) : Closed m0 pf x :=
  fun y hy => h y (.trans _ _ _ hx hy)

end

theorem ccfLoop_cv (m : Mesh) (c : Nat → Option Nat) (l : Nat) : ∀ f x, ({ m with cv := c } : Mesh).ccfLoop l f x = m.ccfLoop l f x := by
  intro f
  induction f with
  | zero => intro x; rfl
  | succ f ih => intro x; simp only [Mesh.ccfLoop]; rw [ih]

/-- `ccf` while the links are being made. -/
theorem ccf_build {m0 : Mesh} {pf : Nat → Nat} (B : Base m0 pf) {m : Mesh} (h1 : m.laths = m0.laths) (h2 : m.cf = m0.cf)
    (hs : ∀ l < m0.laths, ∀ x, m.cv l = some x → Mate m0 pf l x) {l : Nat} (hl : l < m0.laths) : m.ccf l = some (pf l) := by
  have hok : Ok ({ m with cv := fun _ => none } : Mesh) := by
    refine ⟨?_, ?_, ?_, ?_, ?_⟩
    · intro l hl; show m.cf l < m.laths; rw [h1, h2]; exact B.cf_lt l (h1 ▸ hl)
    · intro l hl x hx e
      have hl' : l < m0.laths := h1 ▸ hl
      have hx' : x < m0.laths := h1 ▸ hx
      have e' : m.cf l = m.cf x := e
      rw [h2] at e'
      rw [← B.pf_cf l hl', e', B.pf_cf x hx']
    · intro l _ x e; cases e
    · intro l _ x e; cases e
    · intro l _ x e; cases e
  have hloop := hok.ccf_eq (x := pf l) (l := l) (h1 ▸ B.pf_lt l hl) (by show m.cf (pf l) = l; rw [h2]; exact B.cf_pf l hl)
  have hloop' : m.ccfLoop l (m.laths + 1) (m.cf l) = some (pf l) := by
    rw [← ccfLoop_cv m (fun _ => none)]; exact hloop
  unfold Mesh.ccf
  rcases hq : (m.ec l).bind m.cv with _ | y
  · exact hloop'
  · simp only [Mesh.ec, Option.bind_map, Option.bind_eq_some_iff, Function.comp] at hq
    obtain ⟨w, e1, e2⟩ := hq
    have M1 := hs l hl w e1
    rw [h2] at e2
    have M2 := hs (m0.cf w) (B.cf_lt w M1.2.1) y e2
    simp only [Option.some.injEq]
    exact M2.right_unique B (M1.back B)

/-- The state of `Finalise` before vertex `i`. -/
structure Inv (m0 : Mesh) (pf : Nat → Nat) (i : Nat) (m : Mesh) : Prop where
  laths : m.laths = m0.laths
  cf : m.cf = m0.cf
  facets : m.facets = m0.facets
  sound : ∀ l < m0.laths, ∀ x, m.cv l = some x → Mate m0 pf l x
  i1 : ∀ l x, Mate m0 pf l x → m.vert l = m.vert x
  i2 : ∀ l < m0.laths, ∀ x < m0.laths, m.vert l = m.vert x → m0.vert l = m0.vert x
  at_mem : ∀ j l, l ∈ m.atVert.getD j [] ↔ l < m0.laths ∧ m.vert l = j
  at_nodup : ∀ j, (m.atVert.getD j []).Nodup
  done : ∀ l < m0.laths, m.vert l < i → ∀ x, Mate m0 pf l x → m.cv l = some x
  undone : ∀ l < m0.laths, i ≤ m.vert l → m.cv l = none
  fan : ∀ l < m0.laths, ∀ x < m0.laths, m.vert l = m.vert x → m.vert l < i → MFan m0 pf l x ∨ Closed m0 pf l ∨ Closed m0 pf x
  src : ∀ l < m0.laths, m.src.getD (m.vert l) 0 = m0.vert l
  srclen : m.src.length = m.atVert.length
  grow : m0.atVert.length ≤ m.atVert.length
  keep : ∀ l < m0.laths, m.vert l < m0.atVert.length → m.vert l = m0.vert l ∧ m.fvert l = m0.fvert l
  fsrc : m0.fsrc <+: m.fsrc
  stay : ∀ l < m0.laths, ∃ x < m0.laths, m.vert x = m0.vert l

section
variable {m0 : Mesh} {pf : Nat → Nat} (B : Base m0 pf)

/-- The state of the first loop. -/
structure FI (m0 : Mesh) (pf : Nat → Nat) (m : Mesh) (L : List Nat) (S : Nat) (w : Walk) : Prop where
  mesh : w.mesh = { m with cv := w.mesh.cv }
  off : ∀ l, l ∉ L → w.mesh.cv l = m.cv l
  vis : ∀ x ∈ w.visited, x ∈ L ∧ ∃ l ∈ S :: w.visited, Mate m0 pf l x ∧ w.mesh.cv l = some x
  lnk : ∀ l ∈ L, ∀ x, w.mesh.cv l = some x → Mate m0 pf l x ∧ x ∈ w.visited ∧ l ∈ S :: w.visited
  has : ∀ l ∈ S :: w.visited, l ≠ w.cur → ∃ x, w.mesh.cv l = some x
  cur : w.cur ∈ S :: w.visited
  ph : (S ∉ w.visited ∧ w.mesh.cv w.cur = none) ∨ (w.cur = S ∧ S ∈ w.visited ∧ ∃ x, w.mesh.cv S = some x)
  nd : w.visited.Nodup
  cnt : w.count = w.visited.length
  fan : ∀ x ∈ w.visited, MFan m0 pf S x

/-- The state of the second loop. -/
structure BI (m0 : Mesh) (pf : Nat → Nat) (m : Mesh) (L : List Nat) (S T : Nat) (w : Walk) : Prop where
  mesh : w.mesh = { m with cv := w.mesh.cv }
  off : ∀ l, l ∉ L → w.mesh.cv l = m.cv l
  nd : (w.cur :: w.visited).Nodup
  sub : ∀ x ∈ w.cur :: w.visited, x ∈ L
  pred : ∀ x ∈ w.visited, ∃ l ∈ w.cur :: w.visited, Mate m0 pf l x ∧ w.mesh.cv l = some x
  lnk : ∀ l ∈ L, ∀ x, w.mesh.cv l = some x → Mate m0 pf l x ∧ x ∈ w.visited ∧ l ∈ w.cur :: w.visited
  has : ∀ l ∈ w.cur :: w.visited, l ≠ T → ∃ x, w.mesh.cv l = some x
  cnt : w.count = w.visited.length
  fan : ∀ x ∈ w.cur :: w.visited, MFan m0 pf S x

/-- What both loops have done. -/
structure LinkOk (m0 : Mesh) (pf : Nat → Nat) (m : Mesh) (L : List Nat) (S : Nat) (w : Walk) : Prop where
  mesh : w.mesh = { m with cv := w.mesh.cv }
  off : ∀ l, l ∉ L → w.mesh.cv l = m.cv l
  sub : ∀ x ∈ w.visited, x ∈ L
  start : S ∈ w.visited
  fan : ∀ x ∈ w.visited, MFan m0 pf S x
  closed : ∀ l x, Mate m0 pf l x → (l ∈ w.visited ↔ x ∈ w.visited)
  done : ∀ l ∈ w.visited, ∀ x, Mate m0 pf l x → w.mesh.cv l = some x
  lnk : ∀ l ∈ L, ∀ x, w.mesh.cv l = some x → Mate m0 pf l x ∧ l ∈ w.visited
  cnt : (w.visited.Nodup ∧ w.count = w.visited.length) ∨ (Closed m0 pf S ∧ ∃ A : List Nat, A.Nodup ∧ (∀ x, x ∈ A ↔ x ∈ w.visited) ∧ w.count = A.length + 1)

variable {i : Nat} {m : Mesh} (I : Inv m0 pf i m)
include B I

/-- The search in the list of laths finds exactly the mate. -/
theorem mate_iff {L : List Nat} (hL : L = m.atVert.getD i []) {l x : Nat} (hl : l ∈ L) (hx : x ∈ L) :
    m.vert (m.cf x) = m.vert (pf l) ↔ Mate m0 pf l x := by
  subst hL
  obtain ⟨hlN, hlv⟩ := (I.at_mem i l).1 hl
  obtain ⟨hxN, hxv⟩ := (I.at_mem i x).1 hx
  rw [I.cf]
  constructor
  · intro e
    exact ⟨hlN, hxN, I.i2 x hxN l hlN (hxv.trans hlv.symm), I.i2 _ (B.cf_lt x hxN) _ (B.pf_lt l hlN) e⟩
  · intro h
    exact I.i1 _ _ (h.back B)

theorem mem_of_mate {L : List Nat} (hL : L = m.atVert.getD i []) {l x : Nat} (h : Mate m0 pf l x) : l ∈ L ↔ x ∈ L := by
  subst hL
  rw [I.at_mem, I.at_mem, I.i1 l x h]
  exact ⟨fun a => ⟨h.2.1, a.2⟩, fun a => ⟨h.1, a.2⟩⟩

theorem sound_of {L : List Nat} {c : Nat → Option Nat} (off : ∀ l, l ∉ L → c l = m.cv l) (lnk : ∀ l ∈ L, ∀ x, c l = some x → Mate m0 pf l x) :
    ∀ l < m0.laths, ∀ x, c l = some x → Mate m0 pf l x := by
  intro l hl x e
  by_cases h : l ∈ L
  · exact lnk l h x e
  · rw [off l h] at e; exact I.sound l hl x e

theorem linkFwd_ok {L : List Nat} (hL : L = m.atVert.getD i []) {S : Nat} (hS : S ∈ L) : ∀ (f : Nat) (w : Walk), FI m0 pf m L S w → L.length + 1 ≤ f + w.visited.length →
    ∃ w', linkFwd L f w = some w' ∧ FI m0 pf m L S w' ∧ ∀ x, Mate m0 pf w'.cur x → x ∈ w'.visited := by
  intro f
  induction f with
  | zero =>
    intro w h hf
    have : w.visited.length ≤ L.length := (List.subperm_of_subset h.nd (fun x hx => (h.vis x hx).1)).length_le
    omega
  | succ f ih =>
    intro w h hf
    have hsub : ∀ x ∈ S :: w.visited, x ∈ L := by
      intro x hx; rcases List.mem_cons.1 hx with rfl | hx
      · exact hS
      · exact (h.vis x hx).1
    have hcL := hsub _ h.cur
    have hcN : w.cur < m0.laths := ((I.at_mem i _).1 (hL ▸ hcL)).1
    have hm1 : w.mesh.laths = m0.laths := by rw [h.mesh]; exact I.laths
    have hm2 : w.mesh.cf = m0.cf := by rw [h.mesh]; exact I.cf
    have hm3 : w.mesh.vert = m.vert := by rw [h.mesh]
    have hccf := ccf_build B hm1 hm2 (sound_of B I h.off (fun l hl x e => (h.lnk l hl x e).1)) hcN
    have hpred : ∀ x ∈ L, (!w.visited.contains x && w.mesh.vert (w.mesh.cf x) == w.mesh.vert (pf w.cur)) = true ↔ x ∉ w.visited ∧ Mate m0 pf w.cur x := by
      intro x hx
      have := mate_iff B I hL hcL hx
      rw [hm2, hm3]
      rw [I.cf] at this
      simp [this]
    simp only [linkFwd, hccf, Option.bind_some]
    rcases hq : L.find? (fun x => !w.visited.contains x && w.mesh.vert (w.mesh.cf x) == w.mesh.vert (pf w.cur)) with _ | x
    · refine ⟨w, rfl, h, ?_⟩
      intro x hx
      have hxL := (mem_of_mate B I hL hx).1 hcL
      by_contra hc
      have := List.find?_eq_none.1 hq x hxL
      exact this ((hpred x hxL).2 ⟨hc, hx⟩)
    · have hxL := List.mem_of_find?_eq_some hq
      have hfs := List.find?_some hq
      obtain ⟨hxv, hxm⟩ := (hpred x hxL).1 hfs
      have hph : S ∉ w.visited ∧ w.mesh.cv w.cur = none := by
        rcases h.ph with p | ⟨p1, p2, y, p3⟩
        · exact p
        · exfalso
          have := h.lnk S hS y p3
          rw [p1] at hxm
          rw [hxm.right_unique B this.1] at hxv
          exact hxv this.2.1
      simp only
      refine ih _ ⟨?_, ?_, ?_, ?_, ?_, ?_, ?_, ?_, ?_, ?_⟩ (by simp; omega)
      · show w.mesh.setCv w.cur x = _
        unfold Mesh.setCv
        conv_lhs => rw [h.mesh]
      · intro l hl
        show Function.update (β := fun _ => Option Nat) w.mesh.cv w.cur (some x) l = _
        rw [Function.update_of_ne (by rintro rfl; exact hl hcL)]
        exact h.off l hl
      · intro y hy
        show y ∈ L ∧ ∃ l ∈ S :: x :: w.visited, Mate m0 pf l y ∧ Function.update (β := fun _ => Option Nat) w.mesh.cv w.cur (some x) l = some y
        rcases List.mem_cons.1 hy with rfl | hy
        · refine ⟨hxL, w.cur, ?_, hxm, by rw [Function.update_self]⟩
          rcases List.mem_cons.1 h.cur with e | e
          · rw [e]; simp
          · simp [e]
        · obtain ⟨a, l, b, c, d⟩ := h.vis y hy
          refine ⟨a, l, ?_, c, ?_⟩
          · rcases List.mem_cons.1 b with e | e
            · rw [e]; simp
            · simp [e]
          · rw [Function.update_of_ne (by rintro rfl; rw [hph.2] at d; cases d)]; exact d
      · intro l hl y
        show Function.update (β := fun _ => Option Nat) w.mesh.cv w.cur (some x) l = some y → Mate m0 pf l y ∧ y ∈ x :: w.visited ∧ l ∈ S :: x :: w.visited
        by_cases hlc : l = w.cur
        · subst hlc
          rw [Function.update_self]
          intro e; cases e
          refine ⟨hxm, by simp, ?_⟩
          rcases List.mem_cons.1 h.cur with e | e
          · rw [e]; simp
          · simp [e]
        · rw [Function.update_of_ne hlc]
          intro e
          obtain ⟨a, b, c⟩ := h.lnk l hl y e
          refine ⟨a, List.mem_cons_of_mem _ b, ?_⟩
          rcases List.mem_cons.1 c with e | e
          · rw [e]; simp
          · simp [e]
      · intro l hl hlx
        show ∃ y, Function.update (β := fun _ => Option Nat) w.mesh.cv w.cur (some x) l = some y
        by_cases hlc : l = w.cur
        · subst hlc; exact ⟨x, by rw [Function.update_self]⟩
        · rw [Function.update_of_ne hlc]
          refine h.has l ?_ hlc
          have hlx' : l ≠ x := hlx
          rcases List.mem_cons.1 hl with e | e
          · rw [e]; simp
          · rcases List.mem_cons.1 e with e | e
            · exact absurd e hlx'
            · simp [e]
      · show x ∈ S :: x :: w.visited
        simp
      · show (S ∉ x :: w.visited ∧ Function.update (β := fun _ => Option Nat) w.mesh.cv w.cur (some x) x = none) ∨
          (x = S ∧ S ∈ x :: w.visited ∧ ∃ y, Function.update (β := fun _ => Option Nat) w.mesh.cv w.cur (some x) S = some y)
        by_cases hxS : x = S
        · right
          refine ⟨hxS, by simp [hxS], ?_⟩
          by_cases hlc : S = w.cur
          · exact ⟨x, by rw [hlc, Function.update_self]⟩
          · rw [Function.update_of_ne hlc]; exact h.has S (by simp) hlc
        · left
          refine ⟨by simp [hph.1, Ne.symm hxS], ?_⟩
          have hnm : x ∉ S :: w.visited := by simp [hxS, hxv]
          rw [Function.update_of_ne (by rintro rfl; exact hnm h.cur)]
          rcases hq' : w.mesh.cv x with _ | y
          · rfl
          · exact absurd (h.lnk x hxL y hq').2.2 hnm
      · exact List.nodup_cons.2 ⟨hxv, h.nd⟩
      · show w.count + 1 = (x :: w.visited).length
        rw [h.cnt]; simp
      · intro y hy
        have hy' : y ∈ x :: w.visited := hy
        rcases List.mem_cons.1 hy' with rfl | hy'
        · have hcf : MFan m0 pf S w.cur := by
            rcases List.mem_cons.1 h.cur with e | e
            · rw [e]; exact .refl _
            · exact h.fan _ e
          exact .trans _ _ _ hcf (.rel _ _ hxm)
        · exact h.fan y hy'

theorem linkBwd_ok {L : List Nat} (hL : L = m.atVert.getD i []) {S T : Nat} (hT : ∀ x, ¬ Mate m0 pf T x) : ∀ (f : Nat) (w : Walk), BI m0 pf m L S T w → L.length + 1 ≤ f + w.visited.length →
    ∃ w', linkBwd L f w = some w' ∧ BI m0 pf m L S T w' ∧ ∀ x, ¬ Mate m0 pf x w'.cur := by
  intro f
  induction f with
  | zero =>
    intro w h hf
    have : (w.cur :: w.visited).length ≤ L.length := (List.subperm_of_subset h.nd h.sub).length_le
    simp at this
    omega
  | succ f ih =>
    intro w h hf
    have hcL := h.sub _ (List.mem_cons_self)
    have hcN : w.cur < m0.laths := ((I.at_mem i _).1 (hL ▸ hcL)).1
    have hm1 : w.mesh.laths = m0.laths := by rw [h.mesh]; exact I.laths
    have hm2 : w.mesh.cf = m0.cf := by rw [h.mesh]; exact I.cf
    have hm3 : w.mesh.vert = m.vert := by rw [h.mesh]
    have hpred : ∀ x ∈ L, (!w.visited.contains x && (w.mesh.ccf x).map w.mesh.vert == some (w.mesh.vert (w.mesh.cf w.cur))) = true ↔ x ∉ w.visited ∧ Mate m0 pf x w.cur := by
      intro x hx
      have hxN : x < m0.laths := ((I.at_mem i _).1 (hL ▸ hx)).1
      have hccf := ccf_build B hm1 hm2 (sound_of B I h.off (fun l hl x e => (h.lnk l hl x e).1)) hxN
      have := mate_iff B I hL hx hcL
      rw [hccf, hm2, hm3, ← this, I.cf]
      simp only [Option.map_some, Bool.and_eq_true, Bool.not_eq_true', beq_iff_eq, Option.some.injEq]
      refine and_congr ?_ eq_comm
      rw [← Bool.not_eq_true, List.contains_iff_mem]
    simp only [linkBwd]
    rcases hq : L.find? (fun x => !w.visited.contains x && (w.mesh.ccf x).map w.mesh.vert == some (w.mesh.vert (w.mesh.cf w.cur))) with _ | x
    · refine ⟨w, rfl, h, ?_⟩
      intro x hx
      have hxL := (mem_of_mate B I hL hx).2 hcL
      have hxv : x ∈ w.visited := by
        by_contra hc
        exact List.find?_eq_none.1 hq x hxL ((hpred x hxL).2 ⟨hc, hx⟩)
      have hxT : x ≠ T := by rintro rfl; exact hT _ hx
      obtain ⟨y, hy⟩ := h.has x (List.mem_cons_of_mem _ hxv) hxT
      obtain ⟨a, b, _⟩ := h.lnk x hxL y hy
      rw [a.right_unique B hx] at b
      exact (List.nodup_cons.1 h.nd).1 b
    · have hxL := List.mem_of_find?_eq_some hq
      have hfs := List.find?_some hq
      obtain ⟨hxv, hxm⟩ := (hpred x hxL).1 hfs
      have hxc : x ≠ w.cur := by intro e; rw [e] at hxm; exact hxm.irrefl B
      have hxA : x ∉ w.cur :: w.visited := by simp [hxc, hxv]
      simp only
      refine ih _ ⟨?_, ?_, ?_, ?_, ?_, ?_, ?_, ?_, ?_⟩ (by simp; omega)
      · show w.mesh.setCv x w.cur = _
        unfold Mesh.setCv
        conv_lhs => rw [h.mesh]
      · intro l hl
        show Function.update (β := fun _ => Option Nat) w.mesh.cv x (some w.cur) l = _
        rw [Function.update_of_ne (by rintro rfl; exact hl hxL)]
        exact h.off l hl
      · exact List.nodup_cons.2 ⟨hxA, h.nd⟩
      · intro y hy
        rcases List.mem_cons.1 hy with e | e
        · have : y = x := e
          rw [this]; exact hxL
        · exact h.sub y e
      · intro y hy
        show ∃ l ∈ x :: w.cur :: w.visited, Mate m0 pf l y ∧ Function.update (β := fun _ => Option Nat) w.mesh.cv x (some w.cur) l = some y
        have hy' : y ∈ w.cur :: w.visited := hy
        rcases List.mem_cons.1 hy' with rfl | hy'
        · exact ⟨x, by simp, hxm, by rw [Function.update_self]⟩
        · obtain ⟨l, b, c, d⟩ := h.pred y hy'
          exact ⟨l, List.mem_cons_of_mem _ b, c, by rw [Function.update_of_ne (by rintro rfl; exact hxA b)]; exact d⟩
      · intro l hl y
        show Function.update (β := fun _ => Option Nat) w.mesh.cv x (some w.cur) l = some y → Mate m0 pf l y ∧ y ∈ w.cur :: w.visited ∧ l ∈ x :: w.cur :: w.visited
        by_cases hlx : l = x
        · subst hlx
          rw [Function.update_self]
          intro e; cases e
          exact ⟨hxm, by simp, by simp⟩
        · rw [Function.update_of_ne hlx]
          intro e
          obtain ⟨a, b, c⟩ := h.lnk l hl y e
          exact ⟨a, List.mem_cons_of_mem _ b, List.mem_cons_of_mem _ c⟩
      · intro l hl hlT
        show ∃ y, Function.update (β := fun _ => Option Nat) w.mesh.cv x (some w.cur) l = some y
        by_cases hlx : l = x
        · subst hlx; exact ⟨w.cur, by rw [Function.update_self]⟩
        · rw [Function.update_of_ne hlx]
          rcases List.mem_cons.1 hl with e | e
          · exact absurd e hlx
          · exact h.has l e hlT
      · show w.count + 1 = (w.cur :: w.visited).length
        rw [h.cnt]; simp
      · intro y hy
        rcases List.mem_cons.1 hy with e | e
        · have e' : y = x := e
          rw [e']
          exact .trans _ _ _ (h.fan w.cur (by simp)) (.symm _ _ (.rel _ _ hxm))
        · exact h.fan y e

theorem link_ok {L : List Nat} (hL : L = m.atVert.getD i []) {S : Nat} (hS : S ∈ L) : ∃ p w, link m L S = some (p, w) ∧ p ∈ L ∧ LinkOk m0 pf m L S w := by
  have hnone : ∀ l ∈ L, m.cv l = none := by
    intro l hl
    obtain ⟨a, b⟩ := (I.at_mem i l).1 (hL ▸ hl)
    exact I.undone l a (by omega)
  have hF0 : FI m0 pf m L S ⟨m, S, [], 0⟩ := by
    refine ⟨rfl, fun _ _ => rfl, by simp, ?_, by simp, by simp, Or.inl ⟨by simp, hnone S hS⟩, by simp, rfl, by simp⟩
    intro l hl x e
    have e' : m.cv l = some x := e
    rw [hnone l hl] at e'; cases e'
  obtain ⟨w, e1, h, hend⟩ := linkFwd_ok B I hL hS (L.length + 1) _ hF0 (by simp)
  have hsub : ∀ x ∈ S :: w.visited, x ∈ L := by
    intro x hx; rcases List.mem_cons.1 hx with rfl | hx
    · exact hS
    · exact (h.vis x hx).1
  have hcL := hsub _ h.cur
  rcases h.ph with ⟨p1, p2⟩ | ⟨p1, p2, y, p3⟩
  · -- boundary
    have hT : ∀ x, ¬ Mate m0 pf w.cur x := by
      intro x hx
      have hv := hend x hx
      obtain ⟨_, l, _, c, d⟩ := h.vis x hv
      rw [c.left_unique B hx, p2] at d; cases d
    have hB0 : BI m0 pf m L S w.cur { w with cur := S } := by
      refine ⟨h.mesh, h.off, List.nodup_cons.2 ⟨p1, h.nd⟩, hsub, fun x hx => (h.vis x hx).2, h.lnk, h.has, h.cnt, ?_⟩
      intro x hx
      rcases List.mem_cons.1 hx with e | e
      · have e' : x = S := e
        rw [e']; exact .refl _
      · exact h.fan x e
    obtain ⟨w', e2, h', hend'⟩ := linkBwd_ok B I hL hT (L.length + 1) _ hB0 (by show L.length + 1 ≤ L.length + 1 + w.visited.length; omega)
    have hdone : ∀ l ∈ w'.cur :: w'.visited, ∀ x, Mate m0 pf l x → w'.mesh.cv l = some x ∧ x ∈ w'.visited := by
      intro l hl x hx
      have hlT : l ≠ w.cur := by rintro rfl; exact hT _ hx
      obtain ⟨y, hy⟩ := h'.has l hl hlT
      obtain ⟨a, b, _⟩ := h'.lnk l (h'.sub l hl) y hy
      have := a.right_unique B hx
      subst this
      exact ⟨hy, b⟩
    refine ⟨w.cur, { w' with visited := w'.cur :: w'.visited, count := w'.count + 1 }, ?_, hcL, ⟨h'.mesh, h'.off, h'.sub, ?_, h'.fan, ?_, ?_, ?_, ?_⟩⟩
    · simp only [link, e1, Option.bind_some, p2, Option.isNone_none, if_true, e2, Option.map_some]
    · -- the start is visited
      have hcl : ∀ l x, Mate m0 pf l x → (l ∈ w'.cur :: w'.visited ↔ x ∈ w'.cur :: w'.visited) := by
        intro l x hx
        constructor
        · intro hl; exact List.mem_cons_of_mem _ (hdone l hl x hx).2
        · intro hl
          rcases List.mem_cons.1 hl with e | e
          · rw [e] at hx; exact absurd hx (hend' l)
          · obtain ⟨l', b, c, _⟩ := h'.pred x e
            rw [hx.left_unique B c]; exact b
      have := h'.fan w'.cur (by simp)
      exact (mem_of_eqvGen (A := fun y => y ∈ w'.cur :: w'.visited) hcl this).2 (by simp)
    · intro l x hx
      show l ∈ w'.cur :: w'.visited ↔ x ∈ w'.cur :: w'.visited
      constructor
      · intro hl; exact List.mem_cons_of_mem _ (hdone l hl x hx).2
      · intro hl
        rcases List.mem_cons.1 hl with e | e
        · rw [e] at hx; exact absurd hx (hend' l)
        · obtain ⟨l', b, c, _⟩ := h'.pred x e
          rw [hx.left_unique B c]; exact b
    · intro l hl x hx; exact (hdone l hl x hx).1
    · intro l hl x e
      obtain ⟨a, _, c⟩ := h'.lnk l hl x e
      exact ⟨a, c⟩
    · left
      refine ⟨h'.nd, ?_⟩
      show w'.count + 1 = (w'.cur :: w'.visited).length
      rw [h'.cnt]; simp
  · -- closed
    have hhas : ∀ l ∈ w.visited, ∃ x ∈ w.visited, Mate m0 pf l x ∧ w.mesh.cv l = some x := by
      intro l hl
      have hlL := (h.vis l hl).1
      by_cases hlc : l = w.cur
      · rw [hlc, p1]; obtain ⟨a, b, _⟩ := h.lnk S hS y p3; exact ⟨y, b, a, p3⟩
      · obtain ⟨x, hx⟩ := h.has l (List.mem_cons_of_mem _ hl) hlc
        obtain ⟨a, b, _⟩ := h.lnk l hlL x hx
        exact ⟨x, b, a, hx⟩
    have hmem : ∀ x, x ∈ S :: w.visited ↔ x ∈ w.visited := by
      intro x
      constructor
      · intro hx; rcases List.mem_cons.1 hx with rfl | hx
        · exact p2
        · exact hx
      · exact List.mem_cons_of_mem _
    have hcl : ∀ l x, Mate m0 pf l x → (l ∈ w.visited ↔ x ∈ w.visited) := by
      intro l x hx
      constructor
      · intro hl
        obtain ⟨z, a, b, _⟩ := hhas l hl
        rw [hx.right_unique B b]; exact a
      · intro hl
        obtain ⟨_, l', b, c, _⟩ := h.vis x hl
        rw [hx.left_unique B c]; exact (hmem l').1 b
    refine ⟨w.cur, ⟨w.mesh, S, S :: w.visited, w.count + 1⟩, ?_, hcL, ⟨h.mesh, h.off, hsub, by simp, ?_, ?_, ?_, ?_, ?_⟩⟩
    · have : (w.mesh.cv w.cur).isNone = false := by rw [p1, p3]; rfl
      simp only [link, e1, Option.bind_some, this, Bool.false_eq_true, if_false, Option.map_some]
    · intro x hx; exact h.fan x ((hmem x).1 hx)
    · intro l x hx
      show l ∈ S :: w.visited ↔ x ∈ S :: w.visited
      rw [hmem, hmem]; exact hcl l x hx
    · intro l hl x hx
      obtain ⟨z, _, b, c⟩ := hhas l ((hmem l).1 hl)
      show w.mesh.cv l = some x
      rw [c, b.right_unique B hx]
    · intro l hl x e
      obtain ⟨a, _, c⟩ := h.lnk l hl x e
      exact ⟨a, c⟩
    · right
      refine ⟨?_, w.visited, h.nd, fun x => (hmem x).symm, by show w.count + 1 = _; rw [h.cnt]⟩
      intro z hz
      have := (mem_of_eqvGen (A := fun y => y ∈ w.visited) hcl hz).1 p2
      obtain ⟨u, _, b, _⟩ := hhas z this
      exact ⟨u, b⟩

end
end Verif.Geom.Lath
