import Verif.Geom.Lath
import Mathlib.Data.List.Chain
import Mathlib.Data.List.Nodup
import Mathlib.Logic.Function.Iterate
import Mathlib.Data.Finset.Card
import Mathlib.Logic.Relation
import Mathlib.Tactic.Linarith
import Mathlib.Data.Finset.Range
import Mathlib.Tactic.Tauto
import Mathlib.Data.Fintype.EquivFin
/-!
# Lemmas about the neighbours of laths
-/
namespace Verif.Geom.Lath
open Mesh

set_option linter.unusedSectionVars false

/-! ## Walks along a partial injection -/

/-- Walk from `l` along `p`. -/
def walk (p : Nat → Option Nat) (l : Nat) : Nat → Option Nat → Option (List Nat × Bool)
  | _, none => some ([], true)
  | 0, some _ => none
  | f + 1, some x => if x = l then some ([], false) else (walk p l f (p x)).map fun r => (x :: r.1, r.2)

theorem fwd_eq (m : Mesh) (l : Nat) : ∀ f o, m.fwd l f o = walk m.cv l f o := by
  intro f
  induction f with
  | zero => intro o; cases o <;> rfl
  | succ f ih => intro o; cases o with
    | none => rfl
    | some x => simp only [Mesh.fwd, walk]; rw [ih]

theorem faceLoop_eq (m : Mesh) (l : Nat) : ∀ f x, m.faceLoop l f x = (walk (fun x => some (m.cf x)) l f (some x)).map Prod.fst := by
  intro f
  induction f with
  | zero => intro x; rfl
  | succ f ih => intro x; simp only [Mesh.faceLoop, walk]; split
                 · rfl
                 · rw [ih]; cases walk (fun x => some (m.cf x)) l f (some (m.cf x)) <;> rfl

/-- `p` maps numbers below `N` to such numbers and is injective there. -/
structure PInj (N : Nat) (p : Nat → Option Nat) : Prop where
  lt : ∀ {l x}, l < N → p l = some x → x < N
  inj : ∀ {l l' x}, l < N → l' < N → p l = some x → p l' = some x → l = l'

theorem length_le_of_nodup {N : Nat} {t : List Nat} (h : t.Nodup) (hN : ∀ x ∈ t, x < N) : t.length ≤ N := by
  have h1 := List.toFinset_card_of_nodup h
  have h2 : t.toFinset ⊆ Finset.range N := by intro x hx; simp at hx ⊢; exact hN x hx
  have := Finset.card_le_card h2
  rw [h1, Finset.card_range] at this; exact this

theorem walk_ok {N : Nat} {p : Nat → Option Nat} (hp : PInj N p) {l : Nat} :
    ∀ (f : Nat) (t : List Nat) (x : Nat), (l :: t).Nodup → (∀ y ∈ l :: t, y < N) → List.IsChain (fun a b => p a = some b) (l :: t) →
      (l :: t).getLast? = some x → N + 1 ≤ f + (l :: t).length →
      ∃ a b, walk p l f (p x) = some (a, b) ∧ (l :: (t ++ a)).Nodup ∧ (∀ y ∈ l :: (t ++ a), y < N) ∧ List.IsChain (fun a b => p a = some b) (l :: (t ++ a)) ∧
        (∃ z, (l :: (t ++ a)).getLast? = some z ∧ p z = if b then none else some l) := by
  intro f
  induction f with
  | zero =>
    intro t x h1 h2 _ _ h5
    have := length_le_of_nodup h1 h2
    omega
  | succ f ih =>
    intro t x h1 h2 h3 h4 h5
    rcases hy : p x with _ | y
    · exact ⟨[], true, rfl, by simpa using h1, by simpa using h2, by simpa using h3, x, by simpa using h4, by simpa using hy⟩
    · have hxm : x ∈ l :: t := List.mem_of_getLast? h4
      by_cases hyl : y = l
      · refine ⟨[], false, by simp [walk, hyl], by simpa using h1, by simpa using h2, by simpa using h3, x, by simpa using h4, ?_⟩
        rw [hy, hyl]; simp
      · have hyN := hp.lt (h2 x hxm) hy
        have hnew : y ∉ l :: t := by
          intro hm
          rcases List.mem_cons.1 hm with h | h
          · exact hyl h
          · -- predecessor of y in the trail
            obtain ⟨s, r, rfl⟩ := List.append_of_mem h
            have hsne : l :: s ≠ [] := by simp
            have e : l :: (s ++ y :: r) = (l :: s) ++ y :: r := rfl
            rw [e] at h3 h1 h4
            have hz := List.isChain_append.1 h3
            obtain ⟨z, hzl⟩ : ∃ z, (l :: s).getLast? = some z := ⟨_, List.getLast?_eq_some_getLast hsne⟩
            have hpz := hz.2.2 z hzl y (by simp)
            have hzm : z ∈ l :: s := List.mem_of_getLast? hzl
            have hzx : z = x := hp.inj (h2 z (by rw [e]; exact List.mem_append_left _ hzm)) (h2 x hxm) hpz hy
            have hxr : x ∈ y :: r := by
              rw [List.getLast?_append_of_ne_nil _ (by simp)] at h4
              exact List.mem_of_getLast? h4
            exact (List.disjoint_of_nodup_append h1) (hzx ▸ hzm) hxr
        obtain ⟨a, b, e1, e2, e3, e4, e5⟩ := ih (t ++ [y]) y
          (by rw [← List.cons_append]; exact List.nodup_append.2 ⟨h1, by simp, by intro a ha b hb hab; simp at hb; subst hb; exact hnew (hab ▸ ha)⟩)
          (by intro z hz; rw [← List.cons_append] at hz; rcases List.mem_append.1 hz with h | h
              · exact h2 z h
              · simp at h; rw [h]; exact hyN)
          (by rw [← List.cons_append]
              refine List.isChain_append.2 ⟨h3, List.isChain_singleton _, ?_⟩
              intro u hu v hv
              rw [h4] at hu
              simp at hu hv
              rw [← hu, ← hv]; exact hy)
          (by rw [← List.cons_append]; exact List.getLast?_concat)
          (by simp at h5 ⊢; omega)
        refine ⟨y :: a, b, ?_, by simpa using e2, by simpa using e3, by simpa using e4, by simpa using e5⟩
        simp only [walk]; rw [if_neg hyl, e1]; rfl

theorem walk_start {N : Nat} {p : Nat → Option Nat} (hp : PInj N p) {l : Nat} (hl : l < N) :
    ∃ a b, walk p l (N + 1) (p l) = some (a, b) ∧ (l :: a).Nodup ∧ (∀ y ∈ l :: a, y < N) ∧ List.IsChain (fun a b => p a = some b) (l :: a) ∧
        (∃ z, (l :: a).getLast? = some z ∧ p z = if b then none else some l) := by
  have := walk_ok hp (l := l) (N + 1) [] l (by simp) (by simpa using hl) (by simp) (by simp) (by simp)
  simpa using this

/-! ## Chains that end -/

theorem chain_unique {p : Nat → Option Nat} : ∀ {a b : List Nat} {x : Nat}, List.IsChain (fun a b => p a = some b) (x :: a) →
    List.IsChain (fun a b => p a = some b) (x :: b) → (∀ z, (x :: a).getLast? = some z → p z = none) → (∀ z, (x :: b).getLast? = some z → p z = none) → a = b := by
  intro a
  induction a with
  | nil =>
    intro b x _ h2 h3 _
    cases b with
    | nil => rfl
    | cons y b =>
      have h := (List.isChain_cons_cons.1 h2).1
      have := h3 x (by simp)
      rw [this] at h; cases h
  | cons y a ih =>
    intro b x h1 h2 h3 h4
    cases b with
    | nil =>
      have h := (List.isChain_cons_cons.1 h1).1
      have := h4 x (by simp)
      rw [this] at h; cases h
    | cons z b =>
      have e1 := (List.isChain_cons_cons.1 h1)
      have e2 := (List.isChain_cons_cons.1 h2)
      have : y = z := by have h := e1.1.symm.trans e2.1; cases h; rfl
      subst this
      rw [ih e1.2 e2.2 (by intro w hw; exact h3 w (by simpa using hw)) (by intro w hw; exact h4 w (by simpa using hw))]

/-- A chain whose last member has no successor has no repetition. -/
theorem chain_nodup {p : Nat → Option Nat} : ∀ {a : List Nat}, List.IsChain (fun a b => p a = some b) a → (∀ z, a.getLast? = some z → p z = none) → a.Nodup := by
  intro a
  induction a with
  | nil => intro _ _; exact List.nodup_nil
  | cons x a ih =>
    intro h1 h2
    have h2' : ∀ z, a.getLast? = some z → p z = none := by
      intro z hz
      cases a with
      | nil => simp at hz
      | cons y a => exact h2 z (by simpa using hz)
    refine List.nodup_cons.2 ⟨?_, ih h1.tail h2'⟩
    intro hx
    obtain ⟨s, r, rfl⟩ := List.append_of_mem hx
    have h3 : List.IsChain (fun a b => p a = some b) (x :: r) := by
      have := h1.tail
      simp only [List.tail_cons] at this
      exact (List.isChain_append.1 this).2.1
    have := chain_unique h1 h3 h2 (by intro z hz; exact h2' z (by rw [List.getLast?_append_of_ne_nil _ (by simp)]; exact hz))
    have := congrArg List.length this
    simp at this
    omega

theorem chain_succ {R : Nat → Nat → Prop} : ∀ {a : List Nat} {x : Nat}, List.IsChain R a → x ∈ a → a.getLast? = some x ∨ ∃ y ∈ a, R x y := by
  intro a
  induction a with
  | nil => intro x _ h; cases h
  | cons u a ih =>
    intro x h1 h2
    cases a with
    | nil => left; simp at h2; simp [h2]
    | cons v a =>
      have e := List.isChain_cons_cons.1 h1
      rcases List.mem_cons.1 h2 with rfl | h
      · right; exact ⟨v, by simp, e.1⟩
      · rcases ih e.2 h with h | ⟨y, hy, h⟩
        · left; simpa using h
        · right; exact ⟨y, List.mem_cons_of_mem _ hy, h⟩

theorem chain_pred {R : Nat → Nat → Prop} : ∀ {a : List Nat} {x : Nat}, List.IsChain R a → x ∈ a → a.head? = some x ∨ ∃ y ∈ a, R y x := by
  intro a
  induction a with
  | nil => intro x _ h; cases h
  | cons u a ih =>
    intro x h1 h2
    rcases List.mem_cons.1 h2 with rfl | h
    · left; rfl
    · right
      cases a with
      | nil => cases h
      | cons v a =>
        have e := List.isChain_cons_cons.1 h1
        rcases ih e.2 h with h | ⟨y, hy, h⟩
        · simp at h; subst h; exact ⟨u, by simp, e.1⟩
        · exact ⟨y, List.mem_cons_of_mem _ hy, h⟩

theorem chain_conn {R : Nat → Nat → Prop} : ∀ {a : List Nat} {x : Nat}, List.IsChain R (x :: a) → ∀ y ∈ x :: a, Relation.EqvGen R x y := by
  intro a
  induction a with
  | nil => intro x _ y hy; simp at hy; subst hy; exact .refl _
  | cons v a ih =>
    intro x h1 y hy
    have e := List.isChain_cons_cons.1 h1
    rcases List.mem_cons.1 hy with rfl | h
    · exact .refl _
    · exact .trans _ _ _ (.rel _ _ e.1) (ih e.2 y h)

theorem chain_conn2 {R : Nat → Nat → Prop} {a : List Nat} (h : List.IsChain R a) {x y : Nat} (hx : x ∈ a) (hy : y ∈ a) : Relation.EqvGen R x y := by
  cases a with
  | nil => cases hx
  | cons u a => exact .trans _ _ _ (.symm _ _ (chain_conn h x hx)) (chain_conn h y hy)

theorem mem_of_eqvGen {R : Nat → Nat → Prop} {A : Nat → Prop} (hs : ∀ x y, R x y → (A x ↔ A y)) {x y : Nat} (h : Relation.EqvGen R x y) : A x ↔ A y := by
  induction h with
  | rel x y h => exact hs x y h
  | refl x => exact Iff.rfl
  | symm x y _ ih => exact ih.symm
  | trans x y z _ _ ih1 ih2 => exact ih1.trans ih2

/-- Two laths are in one fan if links `cv` connect them. -/
def Fan (m : Mesh) : Nat → Nat → Prop := Relation.EqvGen fun a b => a < m.laths ∧ m.cv a = some b

/-! ## Meshes whose links fit together -/

/-- `cf` is a permutation of the laths, and a link `cv` goes across an edge that links back. -/
structure Ok (m : Mesh) : Prop where
  cf_lt : ∀ l < m.laths, m.cf l < m.laths
  cf_inj : ∀ l < m.laths, ∀ x < m.laths, m.cf l = m.cf x → l = x
  cv_lt : ∀ l < m.laths, ∀ x, m.cv l = some x → x < m.laths
  cv_back : ∀ l < m.laths, ∀ x, m.cv l = some x → ∃ y, m.cv (m.cf x) = some y ∧ m.cf y = l
  cv_vert : ∀ l < m.laths, ∀ x, m.cv l = some x → m.vert x = m.vert l

namespace Ok
variable {m : Mesh} (h : Ok m)
include h

theorem pinj_cf : PInj m.laths (fun x => some (m.cf x)) :=
  ⟨fun hl e => by cases e; exact h.cf_lt _ hl, fun hl hx e1 e2 => by cases e1; injection e2 with e2; exact h.cf_inj _ hl _ hx e2.symm⟩

/-- The inverse of `cf`. -/
theorem cf_surj {x : Nat} (hx : x < m.laths) : ∃ l < m.laths, m.cf l = x := by
  have hinj : Function.Injective (fun l : Fin m.laths => (⟨m.cf l, h.cf_lt l l.2⟩ : Fin m.laths)) := by
    intro a b e; simp only [Fin.mk.injEq] at e; exact Fin.ext (h.cf_inj _ a.2 _ b.2 e)
  obtain ⟨l, hl⟩ := (Finite.injective_iff_surjective.1 hinj) ⟨x, hx⟩
  exact ⟨l, l.2, by simpa using hl⟩

theorem back {l x : Nat} (hl : l < m.laths) (e : m.cv l = some x) : ∃ y < m.laths, m.cv (m.cf x) = some y ∧ m.cf y = l := by
  obtain ⟨y, h1, h2⟩ := h.cv_back l hl x e
  exact ⟨y, h.cv_lt _ (h.cf_lt _ (h.cv_lt _ hl _ e)) _ h1, h1, h2⟩

theorem cv_inj {l l' x : Nat} (hl : l < m.laths) (hl' : l' < m.laths) (e : m.cv l = some x) (e' : m.cv l' = some x) : l = l' := by
  obtain ⟨y, _, h1, h2⟩ := h.back hl e
  obtain ⟨y', _, h1', h2'⟩ := h.back hl' e'
  rw [h1] at h1'; cases h1'; exact h2.symm.trans h2'

theorem pinj_cv : PInj m.laths m.cv := ⟨fun hl e => h.cv_lt _ hl _ e, fun hl hx e1 e2 => h.cv_inj hl hx e1 e2⟩

theorem ccv_iff {l x : Nat} (hl : l < m.laths) (hx : x < m.laths) : m.ccv x = some l ↔ m.cv l = some x := by
  constructor
  · intro e
    simp only [Mesh.ccv, Mesh.ec, Option.map_eq_some_iff] at e
    obtain ⟨y, e1, e2⟩ := e
    obtain ⟨z, hz, h1, h2⟩ := h.back (h.cf_lt _ hx) e1
    have : z = x := h.cf_inj _ hz _ hx h2
    rw [← e2, h1, this]
  · intro e
    obtain ⟨y, _, h1, h2⟩ := h.back hl e
    simp only [Mesh.ccv, Mesh.ec, h1, Option.map_some, h2]

theorem ccv_lt {l x : Nat} (hx : x < m.laths) (e : m.ccv x = some l) : l < m.laths := by
  simp only [Mesh.ccv, Mesh.ec, Option.map_eq_some_iff] at e
  obtain ⟨y, e1, e2⟩ := e
  rw [← e2]; exact h.cf_lt _ (h.cv_lt _ (h.cf_lt _ hx) _ e1)

theorem ccv_of_cv {l x : Nat} (hl : l < m.laths) (e : m.cv l = some x) : m.ccv x = some l :=
  (h.ccv_iff hl (h.cv_lt _ hl _ e)).2 e

theorem cv_of_ccv {l x : Nat} (hx : x < m.laths) (e : m.ccv x = some l) : m.cv l = some x :=
  (h.ccv_iff (h.ccv_lt hx e) hx).1 e

theorem ec_lt {l x : Nat} (hl : l < m.laths) (e : m.ec l = some x) : x < m.laths := by
  simp only [Mesh.ec, Option.map_eq_some_iff] at e
  obtain ⟨y, e1, e2⟩ := e
  rw [← e2]; exact h.cf_lt _ (h.cv_lt _ hl _ e1)

theorem ec_ec {l x : Nat} (hl : l < m.laths) (e : m.ec l = some x) : m.ec x = some l := by
  simp only [Mesh.ec, Option.map_eq_some_iff] at e ⊢
  obtain ⟨y, e1, e2⟩ := e
  obtain ⟨z, _, h1, h2⟩ := h.back hl e1
  exact ⟨z, by rw [← e2, h1], h2⟩

theorem ccfLoop_ok {l : Nat} : ∀ (a : List Nat) (x z : Nat) (f : Nat), List.IsChain (fun a b => some (m.cf a) = some b) (x :: a) →
    (x :: a).getLast? = some z → m.cf z = l → a.length < f → (∀ y ∈ x :: a, y < m.laths) → m.ccfLoop l f x = some z := by
  intro a
  induction a with
  | nil =>
    intro x z f _ h2 h3 h4 _
    obtain ⟨f, rfl⟩ : ∃ g, f = g + 1 := ⟨f - 1, by simp at h4; omega⟩
    simp at h2
    simp only [Mesh.ccfLoop]; rw [if_pos (by rw [h2]; exact h3), h2]
  | cons y a ih =>
    intro x z f h1 h2 h3 h4 h5
    obtain ⟨f, rfl⟩ : ∃ g, f = g + 1 := ⟨f - 1, by simp at h4; omega⟩
    have e := List.isChain_cons_cons.1 h1
    have e1 : m.cf x = y := by injection e.1
    simp only [Mesh.ccfLoop]
    by_cases hx : m.cf x = l
    · rw [if_pos hx]
      congr 1
      have hz : z < m.laths := h5 z (List.mem_of_getLast? h2)
      exact h.cf_inj _ (h5 x (by simp)) _ hz (hx.trans h3.symm)
    · rw [if_neg hx, e1]
      exact ih y z f e.2 (by simpa using h2) h3 (by simp at h4; omega) (fun w hw => h5 w (List.mem_cons_of_mem _ hw))

/-- The face of a lath. -/
theorem face {l : Nat} (hl : l < m.laths) : ∃ a z, m.Qfe l = some (l :: a) ∧ (l :: a).Nodup ∧ (∀ y ∈ l :: a, y < m.laths) ∧
    List.IsChain (fun a b => m.cf a = b) (l :: a) ∧ (l :: a).getLast? = some z ∧ m.cf z = l := by
  obtain ⟨a, b, e1, e2, e3, e4, z, e5, e6⟩ := walk_start h.pinj_cf hl
  refine ⟨a, z, ?_, e2, e3, by simpa using e4, e5, ?_⟩
  · simp only [Mesh.Qfe, faceLoop_eq]; rw [e1]; rfl
  · cases b
    · simpa using e6
    · simp at e6

/-- `ccf` is the inverse of `cf`. -/
theorem ccf_eq {l x : Nat} (hx : x < m.laths) (e : m.cf x = l) : m.ccf l = some x := by
  have hl : l < m.laths := e ▸ h.cf_lt _ hx
  have hloop : m.ccfLoop l (m.laths + 1) (m.cf l) = some x := by
    obtain ⟨a, z, _, e2, e3, e4, e5, e6⟩ := h.face hl
    have hz := e3 z (List.mem_of_getLast? e5)
    have hzx : z = x := h.cf_inj _ hz _ hx (e6.trans e.symm)
    subst hzx
    cases a with
    | nil =>
      simp at e5
      subst e5
      simp only [Mesh.ccfLoop]
      rw [e6, if_pos e6]
    | cons y a =>
      have e7 := List.isChain_cons_cons.1 e4
      have hlen := length_le_of_nodup e2 e3
      rw [e7.1]
      exact h.ccfLoop_ok a y z _ (by simpa using e7.2) (by simpa using e5) e6 (by simp at hlen; omega) (fun w hw => e3 w (List.mem_cons_of_mem _ hw))
  unfold Mesh.ccf
  rcases hq : (m.ec l).bind m.cv with _ | y
  · exact hloop
  · simp only [Mesh.ec, Option.bind_map, Option.bind_eq_some_iff, Function.comp] at hq
    obtain ⟨w, h1, h2⟩ := hq
    obtain ⟨y', hy', h3, h4⟩ := h.back hl h1
    rw [h2] at h3; cases h3
    simp only [Option.some.injEq]
    exact h.cf_inj _ hy' _ hx (h4.trans e.symm)

/-! ## Around a vertex -/

theorem bwd_ok : ∀ (f : Nat) (x : Nat) (a : List Nat), List.IsChain (fun a b => m.cv a = some b) (x :: a) → (∀ y ∈ x :: a, y < m.laths) →
    (∀ z, (x :: a).getLast? = some z → m.cv z = none) → m.laths + 1 ≤ f + (x :: a).length →
    ∃ b, m.bwd f (m.ccv x) = some b ∧ List.IsChain (fun a b => m.cv a = some b) (b.reverse ++ x :: a) ∧ (∀ y ∈ b, y < m.laths) ∧
      m.ccv (b.getLastD x) = none := by
  intro f
  induction f with
  | zero =>
    intro x a h1 h2 h3 h4
    have := length_le_of_nodup (chain_nodup h1 h3) h2
    omega
  | succ f ih =>
    intro x a h1 h2 h3 h4
    rcases hy : m.ccv x with _ | y
    · exact ⟨[], rfl, by simpa using h1, by simp, by simpa using hy⟩
    · have hx := h2 x (by simp)
      have hyN := h.ccv_lt hx hy
      obtain ⟨b, e1, e2, e3, e4⟩ := ih y (x :: a) (List.isChain_cons_cons.2 ⟨h.cv_of_ccv hx hy, h1⟩)
        (by intro z hz; rcases List.mem_cons.1 hz with rfl | hz
            · exact hyN
            · exact h2 z hz)
        (by intro z hz; exact h3 z (by simpa using hz)) (by simp at h4 ⊢; omega)
      refine ⟨y :: b, ?_, by simpa using e2, ?_, ?_⟩
      · simp only [Mesh.bwd, e1, Option.map_some]
      · intro z hz; rcases List.mem_cons.1 hz with rfl | hz
        · exact hyN
        · exact e3 z hz
      · rw [List.getLastD_cons]; exact e4

/-- The fan of a lath: either a cycle of `cv`, or a chain of `cv` from a lath without predecessor to a lath without successor. -/
theorem fan {l : Nat} (hl : l < m.laths) :
    (∃ a, m.fwd l (m.laths + 1) (m.cv l) = some (a, false) ∧ (l :: a).Nodup ∧ (∀ y ∈ l :: a, y < m.laths) ∧
      List.IsChain (fun a b => m.cv a = some b) (l :: a) ∧ ∃ z, (l :: a).getLast? = some z ∧ m.cv z = some l) ∨
    (∃ a b, m.fwd l (m.laths + 1) (m.cv l) = some (a, true) ∧ m.bwd (m.laths + 1) (m.ccv l) = some b ∧
      (b.reverse ++ l :: a).Nodup ∧ (∀ y ∈ b.reverse ++ l :: a, y < m.laths) ∧
      List.IsChain (fun a b => m.cv a = some b) (b.reverse ++ l :: a) ∧ (∃ z, (l :: a).getLast? = some z ∧ m.cv z = none) ∧ m.ccv (b.getLastD l) = none) := by
  obtain ⟨a, c, e1, e2, e3, e4, z, e5, e6⟩ := walk_start h.pinj_cv hl
  rw [← fwd_eq] at e1
  cases c
  · left; exact ⟨a, e1, e2, e3, e4, z, e5, by simpa using e6⟩
  · right
    simp at e6
    have hlast : ∀ w, (l :: a).getLast? = some w → m.cv w = none := by intro w hw; rw [e5] at hw; cases hw; exact e6
    obtain ⟨b, f1, f2, f3, f4⟩ := h.bwd_ok (m.laths + 1) l a e4 e3 hlast (by omega)
    refine ⟨a, b, e1, f1, chain_nodup f2 ?_, ?_, f2, ⟨z, e5, e6⟩, f4⟩
    · intro w hw; rw [List.getLast?_append_of_ne_nil _ (by simp)] at hw; exact hlast w hw
    · intro y hy; rcases List.mem_append.1 hy with hy | hy
      · exact f3 y (by simpa using hy)
      · exact e3 y hy

theorem fan_mem {A : List Nat} {l : Nat} (hl : l ∈ A) (hN : ∀ y ∈ A, y < m.laths) (hc : List.IsChain (fun a b => m.cv a = some b) A)
    (hz : ∀ z, A.getLast? = some z → m.cv z = none ∨ ∃ u ∈ A, m.cv z = some u) (hh : ∀ z, A.head? = some z → ∀ w < m.laths, m.cv w = some z → w ∈ A) (x : Nat) :
    x ∈ A ↔ Fan m l x := by
  constructor
  · intro hx
    have h2 : List.IsChain (fun a b => a < m.laths ∧ m.cv a = some b) A := by
      have := List.isChain_iff_getElem.1 hc
      exact List.isChain_iff_getElem.2 fun i hi => ⟨hN _ (List.getElem_mem _), this i hi⟩
    exact chain_conn2 h2 hl hx
  · intro hx
    refine (mem_of_eqvGen (A := fun y => y ∈ A) ?_ hx).1 hl
    rintro u v ⟨hu, huv⟩
    constructor
    · intro hu'
      rcases chain_succ hc hu' with e | ⟨y, hy, e⟩
      · rcases hz u e with e' | ⟨w, hw, e'⟩
        · rw [e'] at huv; cases huv
        · rw [e'] at huv; cases huv; exact hw
      · rw [e] at huv; cases huv; exact hy
    · intro hv
      rcases chain_pred hc hv with e | ⟨y, hy, e⟩
      · exact hh v e u hu huv
      · rw [h.cv_inj hu (hN y hy) huv e]; exact hy

theorem no_pred {l : Nat} (hl : l < m.laths) (e : m.ccv l = none) (w : Nat) (hw : w < m.laths) : m.cv w ≠ some l := by
  intro e'; rw [(h.ccv_iff hw hl).2 e'] at e; cases e

/-- `Qvf` and `Qve` of a closed fan. -/
theorem closed {l : Nat} {a : List Nat} (e1 : m.fwd l (m.laths + 1) (m.cv l) = some (a, false)) : m.Qvf l = some (l :: a) ∧ m.Qve l = some (l :: a) := by
  simp [Mesh.Qvf, Mesh.Qve, e1]

/-- `Qvf` and `Qve` at a boundary. -/
theorem opened {l : Nat} {a b : List Nat} (e1 : m.fwd l (m.laths + 1) (m.cv l) = some (a, true)) (e2 : m.bwd (m.laths + 1) (m.ccv l) = some b) :
    m.Qvf l = some (l :: a ++ b) ∧ m.Qve l = some (l :: a ++ b ++ [m.cf (b.getLastD l)]) := by
  simp [Mesh.Qvf, Mesh.Qve, e1, e2]

/-- Everything about the fan of a lath. -/
theorem fan_all {l : Nat} (hl : l < m.laths) : ∃ F, m.Qvf l = some F ∧ F.Nodup ∧ F.head? = some l ∧ (∀ y ∈ F, y < m.laths) ∧ (∀ x, x ∈ F ↔ Fan m l x) ∧
    ((m.Qve l = some F ∧ (∀ x ∈ F, ∃ y ∈ F, m.cv x = some y) ∧ ∀ x ∈ F, ∃ y ∈ F, m.cv y = some x) ∨
     (∃ z s, z ∈ F ∧ s ∈ F ∧ m.Qve l = some (F ++ [m.cf s]) ∧ m.ccv s = none ∧ m.cv z = none ∧ (∀ x ∈ F, x ≠ z → ∃ y ∈ F, m.cv x = some y) ∧
        ∀ x ∈ F, x ≠ s → ∃ y ∈ F, m.cv y = some x)) := by
  rcases h.fan hl with ⟨a, e1, e2, e3, e4, z, e5, e6⟩ | ⟨a, b, e1, f1, e2, e3, e4, ⟨z, e5, e6⟩, e7⟩
  · have hc := h.closed e1
    have hzm := List.mem_of_getLast? e5
    have hm := h.fan_mem (l := l) (by simp) e3 e4 (by intro w hw; rw [e5] at hw; cases hw; exact Or.inr ⟨l, by simp, e6⟩)
      (by intro w hw w' hw' e; simp at hw; subst hw; rw [h.cv_inj hw' (e3 z hzm) e e6]; exact hzm)
    refine ⟨l :: a, hc.1, e2, rfl, e3, hm, Or.inl ⟨hc.2, ?_, ?_⟩⟩
    · intro x hx
      rcases chain_succ e4 hx with e | e
      · rw [e5] at e; cases e; exact ⟨l, by simp, e6⟩
      · exact e
    · intro x hx
      rcases chain_pred e4 hx with e | e
      · simp at e; subst e; exact ⟨z, hzm, e6⟩
      · exact e
  · have hc := h.opened e1 f1
    have hp : (l :: a ++ b).Perm (b.reverse ++ l :: a) := (List.perm_append_comm).trans (List.Perm.append (List.reverse_perm b).symm (List.Perm.refl _))
    have hsm : b.getLastD l ∈ b.reverse ++ l :: a := by
      rcases List.eq_nil_or_concat b with rfl | ⟨b', w, rfl⟩
      · simp
      · simp
    have hlast : (b.reverse ++ l :: a).getLast? = some z := by rw [List.getLast?_append_of_ne_nil _ (by simp)]; exact e5
    have hhead : (b.reverse ++ l :: a).head? = some (b.getLastD l) := by
      rcases List.eq_nil_or_concat b with rfl | ⟨b', w, rfl⟩
      · simp
      · simp
    have hm := h.fan_mem (l := l) (by simp) e3 e4 (by intro w hw; rw [hlast] at hw; cases hw; exact Or.inl e6)
      (by intro w hw w' hw' e; rw [hhead] at hw; cases hw; exact absurd e (h.no_pred (e3 _ hsm) e7 w' hw'))
    have hmem : ∀ x, x ∈ l :: a ++ b ↔ x ∈ b.reverse ++ l :: a := fun x => hp.mem_iff
    refine ⟨l :: a ++ b, hc.1, hp.nodup_iff.2 e2, rfl, fun y hy => e3 y ((hmem y).1 hy), fun x => (hmem x).trans (hm x),
      Or.inr ⟨z, b.getLastD l, ?_, (hmem _).2 hsm, hc.2, e7, e6, ?_, ?_⟩⟩
    · exact (hmem z).2 (List.mem_of_getLast? hlast)
    · intro x hx hxz
      rcases chain_succ e4 ((hmem x).1 hx) with e | ⟨y, hy, e⟩
      · rw [hlast] at e; cases e; exact absurd rfl hxz
      · exact ⟨y, (hmem y).2 hy, e⟩
    · intro x hx hxz
      rcases chain_pred e4 ((hmem x).1 hx) with e | ⟨y, hy, e⟩
      · rw [hhead] at e; cases e; exact absurd rfl hxz
      · exact ⟨y, (hmem y).2 hy, e⟩

end Ok
end Verif.Geom.Lath
