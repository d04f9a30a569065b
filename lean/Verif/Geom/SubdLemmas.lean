import Verif.Geom.Subd
import Verif.Geom.LathNearLemmas
import Mathlib.Algebra.BigOperators.Group.List.Basic
import Mathlib.Algebra.Order.Field.Basic
import Mathlib.Tactic.Module
import Mathlib.Tactic.FieldSimp
import Mathlib.Tactic.Ring
import Mathlib.Tactic.Linarith
/-!
# Lemmas about the masks of a subdivision surface
-/
set_option linter.unusedSectionVars false
namespace Verif.Geom.Subd
open Verif.Geom.Lath

/-- `L` lists the laths of the facet of `l`. -/
def IsFacet (m : Mesh) (l : Nat) (L : List Nat) : Prop := L.Nodup ∧ ∀ x, x ∈ L ↔ SameFacet m l x

/-- `L` lists the laths of the vertex of `l`. -/
def IsFan (m : Mesh) (l : Nat) (L : List Nat) : Prop := L.Nodup ∧ ∀ x, x ∈ L ↔ Fan m l x

/-- The vertex of `l` is inside of the mesh. -/
def Inside (m : Mesh) (l : Nat) : Prop := ∀ x, Fan m l x → m.ccv x ≠ none

/-- `pf` is the lath before a lath on its facet, the other end of its edge. -/
def Prev (m : Mesh) (pf : Nat → Nat) : Prop := ∀ x < m.laths, pf x < m.laths ∧ m.cf (pf x) = x

theorem IsFacet.perm {m : Mesh} {l : Nat} {L L' : List Nat} (h : IsFacet m l L) (h' : IsFacet m l L') : L.Perm L' :=
  (List.perm_ext_iff_of_nodup h.1 h'.1).2 fun x => (h.2 x).trans (h'.2 x).symm

theorem IsFan.perm {m : Mesh} {l : Nat} {L L' : List Nat} (h : IsFan m l L) (h' : IsFan m l L') : L.Perm L' :=
  (List.perm_ext_iff_of_nodup h.1 h'.1).2 fun x => (h.2 x).trans (h'.2 x).symm

theorem IsFan.of_fan {m : Mesh} {l x : Nat} {L : List Nat} (h : IsFan m l L) (hx : Fan m l x) : IsFan m x L :=
  ⟨h.1, fun y => (h.2 y).trans ⟨fun e => .trans _ _ _ (.symm _ _ hx) e, fun e => .trans _ _ _ hx e⟩⟩

theorem mapM_map {α : Type} {f : Nat → Option α} {g : Nat → α} : ∀ {L : List Nat}, (∀ x ∈ L, f x = some (g x)) → L.mapM f = some (L.map g) := by
  intro L
  induction L with
  | nil => intro _; rfl
  | cons x L ih =>
    intro h
    simp [List.mapM_cons, h x (by simp), ih fun y hy => h y (List.mem_cons_of_mem _ hy)]

section order
variable {K : Type} [Field K] [LinearOrder K] [IsStrictOrderedRing K]

/-! ## The hardest edges -/

/-- The three hardest edges and the others. -/
structure Top (h : Nat → K) (L : List Nat) (a : Hard) (rest : List Nat) : Prop where
  perm : L.Perm (a.1.toList ++ a.2.1.toList ++ a.2.2.toList ++ rest)
  h12 : ∀ x ∈ a.1, ∀ y ∈ a.2.1, h y ≤ h x
  h23 : ∀ x ∈ a.2.1, ∀ y ∈ a.2.2, h y ≤ h x
  h3 : ∀ x ∈ a.2.2, ∀ y ∈ rest, h y ≤ h x
  n1 : a.1 = none → a.2.1 = none
  n2 : a.2.1 = none → a.2.2 = none
  n3 : a.2.2 = none → rest = []

theorem hardStep_ok {h : Nat → K} {L : List Nat} {a : Hard} {rest : List Nat} (T : Top h L a rest) (x : Nat) : ∃ rest', Top h (L ++ [x]) (hardStep h a x) rest' := by
  obtain ⟨a1, a2, a3⟩ := a
  obtain ⟨p, t12, t23, t3, n1, n2, n3⟩ := T
  have p' : (L ++ [x]).Perm (x :: (a1.toList ++ a2.toList ++ a3.toList ++ rest)) := by
    refine (List.perm_append_singleton x L).trans (List.Perm.cons x ?_)
    simpa using p
  cases a1 with
  | none =>
    obtain rfl : a2 = none := n1 rfl
    obtain rfl : a3 = none := n2 rfl
    obtain rfl : rest = [] := n3 rfl
    exact ⟨[], by constructor <;> simp_all [hardStep, harder]⟩
  | some u1 =>
    by_cases c1 : h u1 < h x
    · have e : hardStep h (some u1, a2, a3) x = (some x, some u1, a2) := by simp [hardStep, harder, c1]
      rw [e]
      refine ⟨a3.toList ++ rest, ?_, ?_, ?_, ?_, by simp, by simp, ?_⟩
      · simpa using p'
      · simpa using c1.le
      · intro y hy z hz; simp at hy; subst hy; exact t12 u1 (by simp) z hz
      · intro y hy z hz
        rcases List.mem_append.1 hz with hw | hw
        · exact t23 y hy z (by simpa using hw)
        · cases a3 with
          | none => rw [n3 rfl] at hw; cases hw
          | some u3 => exact (t3 u3 (by simp) z hw).trans (t23 y hy u3 (by simp))
      · intro e; simp only at e; subst e
        have := n2 rfl; simp only at this; subst this
        simpa using n3 rfl
    · cases a2 with
      | none =>
        obtain rfl : a3 = none := n2 rfl
        obtain rfl : rest = [] := n3 rfl
        refine ⟨[], ?_⟩
        have e : hardStep h (some u1, none, none) x = (some u1, some x, none) := by simp [hardStep, harder, c1]
        rw [e]
        refine ⟨?_, by simpa using not_lt.1 c1, by simp, by simp, by simp, by simp, by simp⟩
        exact p'.trans (by simpa using List.Perm.swap u1 x [])
      | some u2 =>
        by_cases c2 : h u2 < h x
        · have e : hardStep h (some u1, some u2, a3) x = (some u1, some x, some u2) := by simp [hardStep, harder, c1, c2]
          rw [e]
          refine ⟨a3.toList ++ rest, ?_, by simpa using not_lt.1 c1, by simpa using c2.le, ?_, by simp, by simp, by simp⟩
          · exact p'.trans (by simpa using List.Perm.swap u1 x _)
          · intro y hy z hz
            simp at hy; subst hy
            rcases List.mem_append.1 hz with hw | hw
            · exact t23 u2 (by simp) z (by simpa using hw)
            · cases a3 with
              | none => rw [n3 rfl] at hw; cases hw
              | some u3 => exact (t3 u3 (by simp) z hw).trans (t23 u2 (by simp) u3 (by simp))
        · cases a3 with
          | none =>
            obtain rfl : rest = [] := n3 rfl
            have e : hardStep h (some u1, some u2, none) x = (some u1, some u2, some x) := by simp [hardStep, harder, c1, c2]
            rw [e]
            refine ⟨[], ?_, t12, by simpa using not_lt.1 c2, by simp, by simp, by simp, by simp⟩
            refine p'.trans ?_
            simp only [Option.toList_some, Option.toList_none, List.append_nil, List.cons_append, List.nil_append]
            exact List.perm_append_comm (l₁ := [x]) (l₂ := [u1, u2])
          | some u3 =>
            by_cases c3 : h u3 < h x
            · have e : hardStep h (some u1, some u2, some u3) x = (some u1, some u2, some x) := by simp [hardStep, harder, c1, c2, c3]
              rw [e]
              refine ⟨u3 :: rest, ?_, t12, by simpa using not_lt.1 c2, ?_, by simp, by simp, by simp⟩
              · refine p'.trans ?_
                simp only [Option.toList_some, List.cons_append, List.nil_append]
                exact (List.perm_append_comm (l₁ := [x]) (l₂ := [u1, u2])).append_right (u3 :: rest)
              · intro y hy z hz
                simp at hy; subst hy
                rcases List.mem_cons.1 hz with rfl | hz
                · exact c3.le
                · exact (t3 u3 (by simp) z hz).trans c3.le
            · have e : hardStep h (some u1, some u2, some u3) x = (some u1, some u2, some u3) := by simp [hardStep, harder, c1, c2, c3]
              rw [e]
              refine ⟨x :: rest, ?_, t12, t23, ?_, by simp, by simp, by simp⟩
              · refine p'.trans ?_
                simp only [Option.toList_some, List.cons_append, List.nil_append]
                exact (List.perm_append_comm (l₁ := [x]) (l₂ := [u1, u2, u3])).append_right rest
              · intro y hy z hz
                simp at hy; subst hy
                rcases List.mem_cons.1 hz with rfl | hz
                · exact not_lt.1 c3
                · exact t3 u3 (by simp) z hz

theorem hard_ok (h : Nat → K) (L : List Nat) : ∃ rest, Top h L (L.foldl (hardStep h) (none, none, none)) rest := by
  induction L using List.reverseRecOn with
  | nil => exact ⟨[], by constructor <;> simp⟩
  | append_singleton L x ih =>
    obtain ⟨r, T⟩ := ih
    rw [List.foldl_append]
    exact hardStep_ok T x

/-- The second hardest edge. -/
theorem second_le {h : Nat → K} {a b e1 e2 : Nat} {s r : List Nat} (hp : (a :: b :: s).Perm (e1 :: e2 :: r)) (hd : (a :: b :: s).Nodup)
    (hab : h b ≤ h a) (hr : ∀ x ∈ r, h x ≤ h e2) : h b ≤ h e2 := by
  have hb : b ∈ e1 :: e2 :: r := hp.subset (by simp)
  have ha : a ∈ e1 :: e2 :: r := hp.subset (by simp)
  have hne : a ≠ b := by simp at hd; tauto
  simp only [List.mem_cons] at ha hb
  rcases hb with rfl | rfl | hb
  · rcases ha with rfl | rfl | ha
    · exact absurd rfl hne
    · exact hab
    · exact hab.trans (hr a ha)
  · exact le_rfl
  · exact hr b hb

/-- The third hardest edge. -/
theorem third_le {h : Nat → K} {a b c e1 e2 : Nat} {s r : List Nat} {k : K} (hp : (a :: b :: c :: s).Perm (e1 :: e2 :: r)) (hd : (a :: b :: c :: s).Nodup)
    (hab : h b ≤ h a) (hbc : h c ≤ h b) (hr : ∀ x ∈ r, h x ≤ k) : h c ≤ k := by
  have hb : b ∈ e1 :: e2 :: r := hp.subset (by simp)
  have ha : a ∈ e1 :: e2 :: r := hp.subset (by simp)
  have hc : c ∈ e1 :: e2 :: r := hp.subset (by simp)
  have h1 : a ≠ b := by simp at hd; tauto
  have h2 : a ≠ c := by simp at hd; tauto
  have h3 : b ≠ c := by simp at hd; tauto
  simp only [List.mem_cons] at ha hb hc
  by_cases ca : a ∈ r
  · exact (hbc.trans hab).trans (hr a ca)
  by_cases cb : b ∈ r
  · exact hbc.trans (hr b cb)
  by_cases cc : c ∈ r
  · exact hr c cc
  exfalso
  have ha' : a = e1 ∨ a = e2 := by tauto
  have hb' : b = e1 ∨ b = e2 := by tauto
  have hc' : c = e1 ∨ c = e2 := by tauto
  rcases ha' with rfl | rfl <;> rcases hb' with rfl | rfl <;> rcases hc' with rfl | rfl <;> simp_all

/-- The third hardest edge, from below. -/
theorem le_third {h : Nat → K} {a b e1 e2 d : Nat} {s r : List Nat} {k : K} (hp : (a :: b :: s).Perm (e1 :: e2 :: r)) (hd : (e1 :: e2 :: r).Nodup)
    (he : h e2 ≤ h e1) (hr : h d ≤ h e2) (hdr : d ∈ r) (hs : ∀ x ∈ s, h x ≤ k) : h d ≤ k := by
  have h1 : e1 ≠ e2 := by simp at hd; tauto
  have h2 : d ≠ e1 := by rintro rfl; simp at hd; tauto
  have h3 : d ≠ e2 := by rintro rfl; simp at hd; tauto
  have hd' : d ∈ a :: b :: s := hp.symm.subset (by simp [hdr])
  have he1 : e1 ∈ a :: b :: s := hp.symm.subset (by simp)
  have he2 : e2 ∈ a :: b :: s := hp.symm.subset (by simp)
  simp only [List.mem_cons] at hd' he1 he2
  by_cases c1 : d ∈ s
  · exact hs d c1
  by_cases c2 : e2 ∈ s
  · exact hr.trans (hs e2 c2)
  by_cases c3 : e1 ∈ s
  · exact (hr.trans he).trans (hs e1 c3)
  exfalso
  have ha' : d = a ∨ d = b := by tauto
  have hb' : e1 = a ∨ e1 = b := by tauto
  have hc' : e2 = a ∨ e2 = b := by tauto
  rcases ha' with rfl | rfl <;> rcases hb' with rfl | rfl <;> rcases hc' with rfl | rfl <;> simp_all

/-- `k` is the largest sharpness in `r`, or zero. -/
def Largest (h : Nat → K) (r : List Nat) (k : K) : Prop := (r = [] ∧ k = 0) ∨ ((∃ x ∈ r, h x = k) ∧ ∀ x ∈ r, h x ≤ k)

/-- What the search finds, for any order of the edges by sharpness. -/
theorem hard_eq {h : Nat → K} {L : List Nat} {e1 e2 : Nat} {r : List Nat} {k : K} (hp : L.Perm (e1 :: e2 :: r)) (hd : L.Nodup) (he : h e2 ≤ h e1) (hr : ∀ x ∈ r, h x ≤ h e2)
    (hk : Largest h r k) : ∃ a b c, L.foldl (hardStep h) (none, none, none) = (some a, some b, c) ∧ h b = h e2 ∧ (c.map h).getD 0 = k ∧
      (k < h e2 → (a = e1 ∧ b = e2) ∨ (a = e2 ∧ b = e1)) ∧ a ∈ L ∧ b ∈ L := by
  obtain ⟨rest, T⟩ := hard_ok h L
  generalize hE : L.foldl (hardStep h) (none, none, none) = E at T
  obtain ⟨o1, o2, o3⟩ := E
  obtain ⟨p, t12, t23, t3, n1, n2, n3⟩ := T
  simp only at p t12 t23 t3 n1 n2 n3
  have hlen := hp.length_eq
  simp only [List.length_cons] at hlen
  have hd2 := hp.nodup_iff.1 hd
  cases o1 with
  | none =>
    obtain rfl := n1 rfl
    obtain rfl := n2 rfl
    rw [n3 rfl] at p
    have := p.length_eq; simp at this; subst this; simp at hlen
  | some a =>
    cases o2 with
    | none =>
      obtain rfl := n2 rfl
      rw [n3 rfl] at p
      have := p.length_eq; simp at this; omega
    | some b =>
      have hab : h b ≤ h a := t12 a rfl b rfl
      have p2 : L.Perm (a :: b :: (o3.toList ++ rest)) := by simpa using p
      have hd1 := p2.nodup_iff.1 hd
      have hs : ∀ x ∈ o3.toList ++ rest, h x ≤ h b := by
        intro x hx
        cases o3 with
        | none => rw [n3 rfl] at hx; simp at hx
        | some c =>
          simp at hx
          rcases hx with rfl | hx
          · exact t23 b rfl x rfl
          · exact (t3 c rfl x hx).trans (t23 b rfl c rfl)
      have pq := p2.symm.trans hp
      have hb : h b = h e2 := le_antisymm (second_le pq hd1 hab hr) (second_le pq.symm hd2 he hs)
      have hk' : (o3.map h).getD 0 = k := by
        cases o3 with
        | none =>
          rw [n3 rfl] at pq
          have hl := pq.length_eq
          simp at hl
          rcases hk with ⟨_, rfl⟩ | ⟨⟨x, hx, _⟩, _⟩
          · rfl
          · rw [hl] at hx; cases hx
        | some c =>
          have pq' : (a :: b :: c :: rest).Perm (e1 :: e2 :: r) := by simpa using pq
          have hd1' : (a :: b :: c :: rest).Nodup := by simpa using hd1
          rcases hk with ⟨rfl, _⟩ | ⟨⟨x, hx, hxk⟩, hk⟩
          · have := pq'.length_eq; simp at this
          · simp only [Option.map_some, Option.getD_some]
            refine le_antisymm (third_le pq' hd1' hab (t23 b rfl c rfl) hk) ?_
            rw [← hxk]
            refine le_third pq' hd2 he (hr x hx) hx ?_
            intro y hy
            rcases List.mem_cons.1 hy with rfl | hy
            · exact le_rfl
            · exact t3 c rfl y hy
      refine ⟨a, b, o3, rfl, hb, hk', ?_, p2.symm.subset (by simp), p2.symm.subset (by simp)⟩
      intro hlt
      have hkr : ∀ x ∈ r, h x < h e2 := by
        intro x hx
        rcases hk with ⟨rfl, _⟩ | ⟨_, hk⟩
        · cases hx
        · exact (hk x hx).trans_lt hlt
      have ha1 : a ∈ e1 :: e2 :: r := pq.subset (by simp)
      have hb1 : b ∈ e1 :: e2 :: r := pq.subset (by simp)
      have hne : a ≠ b := by simp at hd1; tauto
      simp only [List.mem_cons] at ha1 hb1
      have ha2 : a ∉ r := fun hx => absurd (hkr a hx) (not_lt.2 (hb ▸ hab))
      have hb2 : b ∉ r := fun hx => absurd (hkr b hx) (not_lt.2 hb.ge)
      rcases ha1 with rfl | rfl | ha1
      · rcases hb1 with rfl | rfl | hb1
        · exact absurd rfl hne
        · exact Or.inl ⟨rfl, rfl⟩
        · exact absurd hb1 hb2
      · rcases hb1 with rfl | rfl | hb1
        · exact Or.inr ⟨rfl, rfl⟩
        · exact absurd rfl hne
        · exact absurd hb1 hb2
      · exact absurd ha1 ha2

/-- Edges can be ordered by sharpness. -/
theorem exists_order (h : Nat → K) {L : List Nat} (hL : 2 ≤ L.length) : ∃ e1 e2 r k, L.Perm (e1 :: e2 :: r) ∧ h e2 ≤ h e1 ∧ (∀ x ∈ r, h x ≤ h e2) ∧ Largest h r k := by
  obtain ⟨rest, T⟩ := hard_ok h L
  generalize L.foldl (hardStep h) (none, none, none) = E at T
  obtain ⟨o1, o2, o3⟩ := E
  obtain ⟨p, t12, t23, t3, n1, n2, n3⟩ := T
  simp only at p t12 t23 t3 n1 n2 n3
  cases o1 with
  | none =>
    obtain rfl := n1 rfl
    obtain rfl := n2 rfl
    rw [n3 rfl] at p
    have := p.length_eq; simp at this; subst this; simp at hL
  | some a =>
    cases o2 with
    | none =>
      obtain rfl := n2 rfl
      rw [n3 rfl] at p
      have := p.length_eq; simp at this; omega
    | some b =>
      cases o3 with
      | none =>
        rw [n3 rfl] at p
        exact ⟨a, b, [], 0, by simpa using p, t12 a rfl b rfl, by simp, Or.inl ⟨rfl, rfl⟩⟩
      | some c =>
        refine ⟨a, b, c :: rest, h c, by simpa using p, t12 a rfl b rfl, ?_, Or.inr ⟨⟨c, by simp, rfl⟩, ?_⟩⟩
        · intro x hx
          rcases List.mem_cons.1 hx with rfl | hx
          · exact t23 b rfl x rfl
          · exact (t3 c rfl x hx).trans (t23 b rfl c rfl)
        · intro x hx
          rcases List.mem_cons.1 hx with rfl | hx
          · exact le_rfl
          · exact t3 c rfl x hx

end order
end Verif.Geom.Subd
