import Verif.State.Attr
import Mathlib.Data.List.Nodup
import Mathlib.Tactic.ByContra
import Mathlib.Tactic.Tauto
import Mathlib.Tactic.Set

/-!
# What the attributes should be, and that the copying achieves it

In the specification every block and every primitive has its own attributes; there is nothing that could be shared.
-/

namespace Verif.State.Attr

variable {V : Type}

/-- Attributes, without the trim curves. -/
structure Val (V : Type) where
  params : Name → Name → Option V
  shaders : Kind → Option Shader
  lights : List Nat

/-- Attributes of the blocks and of the primitives. -/
structure Scene (V : Type) where
  blocks : List (Ty × Val V)
  prims : List (Val V)

/-- Change the attributes of the current block. -/
def Scene.mod (c : Scene V) (f : Val V → Val V) : Scene V := match c.blocks with
  | [] => c
  | (t, v) :: bs => { c with blocks := (t, f v) :: bs }

/-- A layer is added to layers; in place of anything else there is one layer. -/
def addTo (id : Nat) : Option Shader → Shader
  | some (.layered ls) => .layered (ls ++ [id])
  | _ => .layered [id]

/-- A block of the second type may be opened in one of the first. -/
def mayOpen (outer inner : Ty) : Bool := match inner with
  | .main => false
  | .frame => outer = .main
  | .world => outer = .main || outer = .frame
  | .solid => outer ≠ .motion && outer ≠ .frame
  | _ => outer ≠ .motion

/-- A request. -/
def Scene.step (c : Scene V) : Op V → Scene V
  | .param n p v => c.mod fun o => { o with params := fun n' p' => if n' = n ∧ p' = p then some v else o.params n' p' }
  | .shader k id => c.mod fun o => { o with shaders := fun k' => if k' = k then some (.plain id) else o.shaders k' }
  | .light id true => c.mod fun o => if id ∈ o.lights then o else { o with lights := o.lights ++ [id] }
  | .light id false => c.mod fun o => { o with lights := o.lights.erase id }
  | .trim _ => c
  | .layer k id => c.mod fun o => { o with shaders := fun k' => if k' = k then some (addTo id (o.shaders k)) else o.shaders k' }
  | .openB t => (match c.blocks with
    | [] => c
    | (t', v) :: bs => if mayOpen t' t then { c with blocks := (t, v) :: (t', v) :: bs } else c)
  | .closeB t => (match c.blocks with
    | (t', v) :: (t'', v') :: bs =>
      if t' = t then
        (if t = .transform ∨ t = .motion then { c with blocks := (t'', v) :: bs } else { c with blocks := (t'', v') :: bs })
      else c
    | _ => c)
  | .prim => (match c.blocks with
    | [] => c
    | (_, v) :: _ => { c with prims := v :: c.prims })

def Scene.run (c : Scene V) (ops : List (Op V)) : Scene V := ops.foldl Scene.step c

/-- No layer is added to a shader that has layers. -/
def Scene.NoSecondLayer (c : Scene V) : List (Op V) → Prop
  | [] => True
  | op :: ops => (∀ k id, op = .layer k id → ∀ t v bs, c.blocks = (t, v) :: bs → ∀ ls, v.shaders k ≠ some (.layered ls))
      ∧ Scene.NoSecondLayer (c.step op) ops

/-- The attributes of an object of the model. -/
def value (s : St V) (a : Nat) : Val V where
  params := fun n p => match (s.attrs a).table.lookup n with
    | some l => (s.lists l).params p
    | none => none
  shaders := fun k => ((s.attrs a).shaders k).map s.shaders
  lights := (s.attrs a).lights

/-- The attributes of the blocks and primitives of the model. -/
def scene (s : St V) : Scene V where
  blocks := s.blocks.map fun b => (b.ty, value s b.attr)
  prims := s.prims.map (value s)

/-- All references are to memory that is used, and lists of parameters are found by their names. -/
structure Inv (s : St V) : Prop where
  ne : s.blocks ≠ []
  blk : ∀ b ∈ s.blocks, b.attr < s.nAttrs
  prm : ∀ a ∈ s.prims, a < s.nAttrs
  nodup : ∀ a < s.nAttrs, ((s.attrs a).table.map Prod.fst).Nodup
  tab : ∀ a < s.nAttrs, ∀ e ∈ (s.attrs a).table, e.2 < s.nLists ∧ (s.lists e.2).name = e.1
  shd : ∀ a < s.nAttrs, ∀ k i, (s.attrs a).shaders k = some i → i < s.nShaders

/-- Only the current block refers to its object. -/
def Excl (s : St V) : Prop := ∀ b bs, s.blocks = b :: bs → (∀ b' ∈ bs, b'.attr ≠ b.attr) ∧ ∀ a ∈ s.prims, a ≠ b.attr

theorem mem_of_lookup {t : List (Name × Nat)} {n : Name} {l : Nat} (h : t.lookup n = some l) : (n, l) ∈ t := by
  induction t with
  | nil => simp at h
  | cons e t ih =>
    obtain ⟨m, k⟩ := e
    rw [List.lookup_cons] at h
    by_cases hm : n == m
    · rw [hm] at h
      simp only [Option.some.injEq] at h
      simp [eq_of_beq hm, h]
    · simp only [Bool.not_eq_true] at hm
      rw [hm] at h
      exact List.mem_cons_of_mem _ (ih h)

theorem value_congr {s s' : St V} {a : Nat} (ha : s'.attrs a = s.attrs a)
    (hl : ∀ e ∈ (s.attrs a).table, (s'.lists e.2).params = (s.lists e.2).params)
    (hs : ∀ k i, (s.attrs a).shaders k = some i → s'.shaders i = s.shaders i) : value s' a = value s a := by
  unfold value
  rw [ha]
  congr 1
  · funext n p
    cases h : (s.attrs a).table.lookup n with
    | none => rfl
    | some l => exact congrFun (hl _ (mem_of_lookup h)) p
  · funext k
    cases h : (s.attrs a).shaders k with
    | none => rfl
    | some i => simp [hs k i h]

theorem cur_lt {s : St V} (h : Inv s) : cur s < s.nAttrs := by
  unfold cur
  cases hb : s.blocks with
  | nil => exact absurd hb h.ne
  | cons b bs => exact h.blk b (by simp [hb])

theorem cur_eq {s : St V} {b bs} (h : s.blocks = b :: bs) : cur s = b.attr := by
  unfold cur; rw [h]

/-- The values of references after a new object was made. -/
theorem value_addAttr (s : St V) (o : AttrObj) {a : Nat} (ha : a < s.nAttrs) :
    value (addAttr s o).1 a = value s a := by
  apply value_congr
  · simp only [addAttr]
    rw [Function.update_of_ne (by omega)]
  · intro _ _; rfl
  · intro _ _ _; rfl

theorem value_addAttr_new (s : St V) (a : Nat) : value (addAttr s (clone (s.attrs a))).1 s.nAttrs = value s a := by
  unfold value
  simp [addAttr, clone]

theorem inv_addAttr {s : St V} (h : Inv s) {a : Nat} (ha : a < s.nAttrs) : Inv (addAttr s (clone (s.attrs a))).1 := by
  have key : ∀ x < s.nAttrs + 1, ∃ y < s.nAttrs, (Function.update s.attrs s.nAttrs (clone (s.attrs a)) x).table = (s.attrs y).table
      ∧ (Function.update s.attrs s.nAttrs (clone (s.attrs a)) x).shaders = (s.attrs y).shaders := by
    intro x hx
    by_cases hxn : x = s.nAttrs
    · subst hxn
      exact ⟨a, ha, by simp [clone], by simp [clone]⟩
    · exact ⟨x, by omega, by rw [Function.update_of_ne hxn], by rw [Function.update_of_ne hxn]⟩
  constructor
  · exact h.ne
  · intro b hb; exact Nat.lt_succ_of_lt (h.blk b hb)
  · intro b hb; exact Nat.lt_succ_of_lt (h.prm b hb)
  · intro x hx
    obtain ⟨y, hy, ht, _⟩ := key x hx
    show (((Function.update s.attrs s.nAttrs (clone (s.attrs a)) x).table).map Prod.fst).Nodup
    rw [ht]; exact h.nodup y hy
  · intro x hx
    obtain ⟨y, hy, ht, _⟩ := key x hx
    show ∀ e ∈ (Function.update s.attrs s.nAttrs (clone (s.attrs a)) x).table, _
    rw [ht]; exact h.tab y hy
  · intro x hx
    obtain ⟨y, hy, _, ht⟩ := key x hx
    show ∀ k i, (Function.update s.attrs s.nAttrs (clone (s.attrs a)) x).shaders k = some i → _
    rw [ht]; exact h.shd y hy

/-- `Write`. -/
theorem writeCur_spec {s : St V} (h : Inv s) : Inv (writeCur s) ∧ scene (writeCur s) = scene s ∧ Excl (writeCur s)
    ∧ (writeCur s).shaders = s.shaders ∧ (writeCur s).nShaders = s.nShaders := by
  obtain ⟨b, bs, hb⟩ : ∃ b bs, s.blocks = b :: bs := by
    cases hb : s.blocks with
    | nil => exact absurd hb h.ne
    | cons b bs => exact ⟨b, bs, rfl⟩
  have hc := cur_eq hb
  have hba : b.attr < s.nAttrs := h.blk b (by simp [hb])
  unfold writeCur
  by_cases hr : attrRefs s (cur s) + 1 > 2
  · rw [if_pos hr]
    have hi := inv_addAttr h (cur_lt h)
    have hE : setCur (addAttr s (clone (s.attrs (cur s)))).1 s.nAttrs
        = { (addAttr s (clone (s.attrs (cur s)))).1 with blocks := { b with attr := s.nAttrs } :: bs } := by
      simp [setCur, addAttr, hb]
    show Inv (setCur (addAttr s (clone (s.attrs (cur s)))).1 s.nAttrs) ∧ scene (setCur (addAttr s (clone (s.attrs (cur s)))).1 s.nAttrs) = _
      ∧ Excl (setCur (addAttr s (clone (s.attrs (cur s)))).1 s.nAttrs) ∧ (setCur (addAttr s (clone (s.attrs (cur s)))).1 s.nAttrs).shaders = _
      ∧ (setCur (addAttr s (clone (s.attrs (cur s)))).1 s.nAttrs).nShaders = _
    rw [hE]
    refine ⟨⟨by simp, ?_, hi.prm, hi.nodup, hi.tab, hi.shd⟩, ?_, ?_, rfl, rfl⟩
    · intro b' hb'
      simp only [List.mem_cons] at hb'
      rcases hb' with rfl | hb'
      · exact Nat.lt_succ_self _
      · exact Nat.lt_succ_of_lt (h.blk b' (by simp [hb, hb']))
    · have hv : ∀ a, value { (addAttr s (clone (s.attrs (cur s)))).1 with blocks := { b with attr := s.nAttrs } :: bs } a
          = value (addAttr s (clone (s.attrs (cur s)))).1 a := fun _ => rfl
      unfold scene
      congr 1
      · simp only [List.map_cons, hb]
        rw [hv, value_addAttr_new, hc]
        congr 1
        apply List.map_congr_left
        intro b' hb'
        rw [← hc, hv, value_addAttr _ _ (h.blk b' (by simp [hb, hb']))]
      · apply List.map_congr_left
        intro a ha
        rw [hv, value_addAttr _ _ (h.prm a ha)]
    · intro b' bs' hbb
      simp only [List.cons.injEq] at hbb
      obtain ⟨rfl, rfl⟩ := hbb
      exact ⟨fun b' hb' => Nat.ne_of_lt (h.blk b' (by simp [hb, hb'])), fun a ha => Nat.ne_of_lt (h.prm a ha)⟩
  · rw [if_neg hr]
    refine ⟨h, rfl, ?_, rfl, rfl⟩
    intro b' bs' hbb
    rw [hb] at hbb
    simp only [List.cons.injEq] at hbb
    obtain ⟨rfl, rfl⟩ := hbb
    rw [hc] at hr
    have hlen : ((bs.map (·.attr) ++ s.prims).filter (· == b.attr)).length = 0 := by
      unfold attrRefs at hr
      rw [hb] at hr
      simp only [List.map_cons, List.cons_append, beq_self_eq_true, List.filter_cons_of_pos, List.length_cons] at hr
      omega
    rw [List.length_eq_zero_iff, List.filter_eq_nil_iff] at hlen
    constructor
    · intro b' hb' he
      exact hlen b'.attr (List.mem_append_left _ (List.mem_map_of_mem hb')) (by simp [he])
    · intro a ha he
      exact hlen a (List.mem_append_right _ ha) (by simp [he])

/-- Changing the only reference. -/
theorem scene_excl {s s' : St V} (hn : s.blocks ≠ []) (hx : Excl s) (hb : s'.blocks = s.blocks) (hp : s'.prims = s.prims) (f : Val V → Val V)
    (ho : ∀ a, (a ∈ s.blocks.map (·.attr) ∨ a ∈ s.prims) → a ≠ cur s → value s' a = value s a)
    (hc : value s' (cur s) = f (value s (cur s))) : scene s' = (scene s).mod f := by
  unfold scene Scene.mod
  rw [hb, hp]
  cases hbl : s.blocks with
  | nil => exact absurd hbl hn
  | cons b bs =>
    have hcb := cur_eq hbl
    obtain ⟨h1, h2⟩ := hx b bs hbl
    simp only [List.map_cons]
    congr 1
    · rw [← hcb, hc]
      congr 1
      apply List.map_congr_left
      intro b' hb'
      rw [ho b'.attr (Or.inl (by rw [hbl]; simp; exact Or.inr ⟨b', hb', rfl⟩)) (by rw [hcb]; exact h1 b' hb')]
    · apply List.map_congr_left
      intro a ha
      exact ho a (Or.inr ha) (by rw [hcb]; exact h2 a ha)

theorem find_put (t : List (Name × Nat)) (n : Name) (l : Nat) (m : Name) :
    (put t n l).lookup m = if m = n then some l else t.lookup m := by
  unfold put
  rw [List.lookup_cons]
  by_cases hm : m = n
  · subst hm; simp
  · rw [if_neg hm, show (m == n) = false by simpa using hm]
    show (t.filter _).lookup m = _
    induction t with
    | nil => rfl
    | cons e t ih =>
      obtain ⟨k, i⟩ := e
      by_cases hk : k = n
      · rw [List.filter_cons_of_neg (by simp [hk]), ih, List.lookup_cons, show (m == k) = false by simpa [hk] using hm]
      · rw [List.filter_cons_of_pos (by simp [hk]), List.lookup_cons, List.lookup_cons, ih]

theorem mem_put {t : List (Name × Nat)} {n : Name} {l : Nat} {e} (h : e ∈ put t n l) : e = (n, l) ∨ (e ∈ t ∧ e.1 ≠ n) := by
  unfold put at h
  simp only [List.mem_cons, List.mem_filter, Bool.not_eq_true', beq_eq_false_iff_ne] at h
  exact h

theorem nodup_put {t : List (Name × Nat)} (n : Name) (l : Nat) (h : (t.map Prod.fst).Nodup) :
    ((put t n l).map Prod.fst).Nodup := by
  unfold put
  rw [List.map_cons, List.nodup_cons]
  constructor
  · intro hm
    obtain ⟨e, he, hn⟩ := List.mem_map.1 hm
    simp only [List.mem_filter, Bool.not_eq_true', beq_eq_false_iff_ne] at he
    exact he.2 hn
  · exact h.sublist (List.filter_sublist.map _)

/-- A new list in the table of the current object. -/
theorem newList_spec {s : St V} (h : Inv s) (hx : Excl s) (n : Name) (pl : PList V) (hpl : pl.name = n)
    (hv : ∀ p, pl.params p = (value s (cur s)).params n p) :
    let s' := modCur { s with lists := Function.update s.lists s.nLists pl, nLists := s.nLists + 1 }
      fun o => { o with table := put o.table n s.nLists }
    Inv s' ∧ scene s' = scene s ∧ Excl s' ∧ cur s' = cur s ∧ s'.blocks = s.blocks ∧ s'.prims = s.prims
      ∧ (s'.attrs (cur s')).table.lookup n = some s.nLists
      ∧ ∀ a, (a ∈ s'.blocks.map (·.attr) ∨ a ∈ s'.prims) → ∀ e ∈ (s'.attrs a).table, e.2 = s.nLists → a = cur s' ∧ e.1 = n := by
  intro s'
  have hcl := cur_lt h
  have hatt : s'.attrs = Function.update s.attrs (cur s) { s.attrs (cur s) with table := put (s.attrs (cur s)).table n s.nLists } := rfl
  have hold : ∀ a, a ≠ cur s → s'.attrs a = s.attrs a := fun a ha => by rw [hatt, Function.update_of_ne ha]
  have hcur : s'.attrs (cur s) = { s.attrs (cur s) with table := put (s.attrs (cur s)).table n s.nLists } := by
    rw [hatt, Function.update_self]
  have hlist : ∀ l, l < s.nLists → s'.lists l = s.lists l := fun l hl => by
    show Function.update s.lists s.nLists pl l = _
    rw [Function.update_of_ne (by omega)]
  have hnew : s'.lists s.nLists = pl := by
    show Function.update s.lists s.nLists pl s.nLists = _
    rw [Function.update_self]
  have hinv : Inv s' := by
    refine ⟨h.ne, h.blk, h.prm, ?_, ?_, ?_⟩
    · intro a ha
      by_cases hac : a = cur s
      · rw [hac, hcur]; exact nodup_put _ _ (h.nodup _ hcl)
      · rw [hold a hac]; exact h.nodup a ha
    · intro a ha e he
      show e.2 < s.nLists + 1 ∧ _
      by_cases hac : a = cur s
      · rw [hac, hcur] at he
        rcases mem_put he with rfl | ⟨he, _⟩
        · exact ⟨Nat.lt_succ_self _, by rw [hnew]; exact hpl⟩
        · obtain ⟨h1, h2⟩ := h.tab _ hcl e he
          exact ⟨Nat.lt_succ_of_lt h1, by rw [hlist _ h1]; exact h2⟩
      · rw [hold a hac] at he
        obtain ⟨h1, h2⟩ := h.tab a ha e he
        exact ⟨Nat.lt_succ_of_lt h1, by rw [hlist _ h1]; exact h2⟩
    · intro a ha
      by_cases hac : a = cur s
      · rw [hac, hcur]; exact h.shd _ hcl
      · rw [hold a hac]; exact h.shd a ha
  have hlt : ∀ a, (a ∈ s.blocks.map (·.attr) ∨ a ∈ s.prims) → a < s.nAttrs := by
    rintro a (ha | ha)
    · obtain ⟨b, hb, rfl⟩ := List.mem_map.1 ha; exact h.blk b hb
    · exact h.prm a ha
  refine ⟨hinv, ?_, hx, rfl, rfl, rfl, ?_, ?_⟩
  · have := scene_excl (s := s) (s' := s') h.ne hx rfl rfl id ?_ ?_
    · rw [this]
      unfold Scene.mod
      cases hs : (scene s).blocks with
      | nil => rfl
      | cons b bs => obtain ⟨t, v⟩ := b; simp only [id]; rw [← hs]
    · intro a ha hac
      apply value_congr (hold a hac)
      · intro e he; rw [hlist _ (h.tab a (hlt a ha) e he).1]
      · intro _ _ _; rfl
    · show value s' (cur s) = value s (cur s)
      unfold value
      rw [hcur]
      congr 1
      funext m p
      show (match (put (s.attrs (cur s)).table n s.nLists).lookup m with
        | some l => (s'.lists l).params p
        | none => none) = _
      rw [find_put]
      by_cases hm : m = n
      · rw [if_pos hm]
        show (s'.lists s.nLists).params p = _
        rw [hnew, hm, hv p]; rfl
      · rw [if_neg hm]
        cases hq : (s.attrs (cur s)).table.lookup m with
        | none => rfl
        | some l => show (s'.lists l).params p = _; rw [hlist _ (h.tab _ hcl _ (mem_of_lookup hq)).1]
  · show (s'.attrs (cur s)).table.lookup n = _
    rw [hcur]
    show (put (s.attrs (cur s)).table n s.nLists).lookup n = _
    rw [find_put, if_pos rfl]
  · intro a ha e he hen
    by_cases hac : a = cur s
    · refine ⟨hac, ?_⟩
      rw [hac, hcur] at he
      rcases mem_put he with rfl | ⟨he, _⟩
      · rfl
      · exact absurd hen (Nat.ne_of_lt (h.tab _ hcl e he).1)
    · rw [hold a hac] at he
      exact absurd hen (Nat.ne_of_lt (h.tab a (hlt a ha) e he).1)

/-- `pAttributeWrite`. -/
theorem listWrite_spec {s : St V} (h : Inv s) (hx : Excl s) (n : Name) :
    let s' := (listWrite s n).1
    let l := (listWrite s n).2
    Inv s' ∧ scene s' = scene s ∧ Excl s' ∧ (s'.attrs (cur s')).table.lookup n = some l
      ∧ ∀ a, (a ∈ s'.blocks.map (·.attr) ∨ a ∈ s'.prims) → ∀ e ∈ (s'.attrs a).table, e.2 = l → a = cur s' ∧ e.1 = n := by
  have hcl := cur_lt h
  unfold listWrite find
  cases hq : (s.attrs (cur s)).table.lookup n with
  | none =>
    obtain ⟨h1, h2, h3, _, _, _, h4, h5⟩ := newList_spec h hx n ⟨n, fun _ => none⟩ rfl (by intro p; simp [value, hq])
    exact ⟨h1, h2, h3, h4, h5⟩
  | some l =>
    have hml := mem_of_lookup hq
    have hll := h.tab _ hcl _ hml
    by_cases hr : listRefs s l + 1 ≤ 2
    · simp only [if_pos hr]
      refine ⟨h, trivial, hx, hq, ?_⟩
      intro a ha e he hel
      have hlive : ∀ a, (a ∈ s.blocks.map (·.attr) ∨ a ∈ s.prims) → attrRefs s a ≠ 0 := by
        intro a ha h0
        unfold attrRefs at h0
        rw [List.length_eq_zero_iff, List.filter_eq_nil_iff] at h0
        exact h0 a (List.mem_append.2 ha) (by simp)
      have hlt : ∀ a, (a ∈ s.blocks.map (·.attr) ∨ a ∈ s.prims) → a < s.nAttrs := by
        rintro a (ha | ha)
        · obtain ⟨b, hb, rfl⟩ := List.mem_map.1 ha; exact h.blk b hb
        · exact h.prm a ha
      have hcm : cur s ∈ s.blocks.map (·.attr) := by
        cases hb : s.blocks with
        | nil => exact absurd hb h.ne
        | cons b bs => rw [cur_eq hb]; simp
      have mem : ∀ a, (a ∈ s.blocks.map (·.attr) ∨ a ∈ s.prims) → ∀ e ∈ (s.attrs a).table, e.2 = l →
          (a, e.1) ∈ ((List.range s.nAttrs).flatMap fun a =>
            if attrRefs s a = 0 then [] else ((s.attrs a).table.filter (·.2 == l)).map fun e => (a, e.1)) := by
        intro a ha e he hel
        rw [List.mem_flatMap]
        refine ⟨a, List.mem_range.2 (hlt a ha), ?_⟩
        rw [if_neg (hlive a ha), List.mem_map]
        exact ⟨e, List.mem_filter.2 ⟨he, by simp [hel]⟩, rfl⟩
      have m1 := mem a ha e he hel
      have m2 := mem (cur s) (Or.inl hcm) _ hml rfl
      unfold listRefs at hr
      generalize ((List.range s.nAttrs).flatMap fun a =>
            if attrRefs s a = 0 then [] else ((s.attrs a).table.filter (·.2 == l)).map fun e => (a, e.1)) = L at hr m1 m2
      match L, hr, m1, m2 with
      | [x], _, m1, m2 =>
        rw [List.mem_singleton] at m1 m2
        rw [← m2] at m1
        exact ⟨(Prod.mk.inj m1).1, (Prod.mk.inj m1).2⟩
      | x :: y :: L, hr, _, _ => exfalso; simp at hr
    · simp only [if_neg hr]
      obtain ⟨h1, h2, h3, _, _, _, h4, h5⟩ := newList_spec h hx n (s.lists l) hll.2 (by intro p; simp [value, hq])
      exact ⟨h1, h2, h3, h4, h5⟩

theorem mod_id (c : Scene V) {f : Val V → Val V} (hf : ∀ v, f v = v) : c.mod f = c := by
  unfold Scene.mod
  cases hs : c.blocks with
  | nil => rfl
  | cons b bs => obtain ⟨t, v⟩ := b; simp only [hf]; rw [← hs]

theorem setParam_spec {s : St V} (h : Inv s) (n p : Name) (v : V) :
    Inv (setParam s n p v) ∧ scene (setParam s n p v) = (scene s).step (.param n p v) := by
  obtain ⟨hi, hs, hx, _, _⟩ := writeCur_spec h
  obtain ⟨h1, h2, h3, h4, h5⟩ := listWrite_spec hi hx n
  rw [← hs, ← h2]
  unfold setParam
  simp only
  generalize (listWrite (writeCur s) n).1 = s1 at *
  generalize (listWrite (writeCur s) n).2 = l at *
  show Inv { s1 with lists := Function.update s1.lists l { s1.lists l with params := Function.update (s1.lists l).params p (some v) } } ∧ _
  set s' : St V := { s1 with lists := Function.update s1.lists l { s1.lists l with params := Function.update (s1.lists l).params p (some v) } } with hs'
  have hcl := cur_lt h1
  have hname : ∀ i, (s'.lists i).name = (s1.lists i).name := by
    intro i
    show (Function.update s1.lists l _ i).name = _
    by_cases hil : i = l
    · subst hil; rw [Function.update_self]
    · rw [Function.update_of_ne hil]
  have hother : ∀ i, i ≠ l → s'.lists i = s1.lists i := fun i hil => by
    show Function.update s1.lists l _ i = _
    rw [Function.update_of_ne hil]
  refine ⟨⟨h1.ne, h1.blk, h1.prm, h1.nodup, ?_, h1.shd⟩, ?_⟩
  · intro a ha e he
    obtain ⟨q1, q2⟩ := h1.tab a ha e he
    exact ⟨q1, by rw [hname]; exact q2⟩
  · show scene s' = (scene s1).mod _
    apply scene_excl (s' := s') h1.ne h3 rfl rfl
    · intro a ha hac
      apply value_congr (s := s1) (s' := s') rfl
      · intro e he
        rw [hother e.2 (fun hel => hac (h5 a ha e he hel).1)]
      · intro _ _ _; rfl
    · unfold value
      congr 1
      funext m q
      show (match (s1.attrs (cur s1)).table.lookup m with
        | some i => (s'.lists i).params q
        | none => none) = _
      by_cases hm : m = n
      · subst hm
        simp only [h4]
        show (Function.update s1.lists l _ l).params q = _
        rw [Function.update_self]
        by_cases hqp : q = p
        · subst hqp; simp
        · simp [hqp]
      · rw [if_neg (by tauto)]
        show _ = (match (s1.attrs (cur s1)).table.lookup m with
          | some i => (s1.lists i).params q
          | none => none)
        cases hq : (s1.attrs (cur s1)).table.lookup m with
        | none => rfl
        | some i =>
          have hcm : cur s1 ∈ s1.blocks.map (·.attr) := by
            cases hb : s1.blocks with
            | nil => exact absurd hb h1.ne
            | cons b bs => rw [cur_eq hb]; simp
          have : i ≠ l := fun hil => hm (h5 _ (Or.inl hcm) _ (mem_of_lookup hq) hil).2
          show (s'.lists i).params q = _
          rw [hother i this]

/-- Changing shaders, lights or trim curves of the current object. -/
theorem modCur_spec {s : St V} (h : Inv s) (hx : Excl s) (f : AttrObj → AttrObj) (g : Val V → Val V)
    (ht : ∀ o, (f o).table = o.table) (hsh : ∀ o, (∀ k i, o.shaders k = some i → i < s.nShaders) →
      ∀ k i, (f o).shaders k = some i → i < s.nShaders)
    (hg : value (modCur s f) (cur s) = g (value s (cur s))) :
    Inv (modCur s f) ∧ scene (modCur s f) = (scene s).mod g := by
  have hold : ∀ a, a ≠ cur s → (modCur s f).attrs a = s.attrs a := fun a ha => by
    show Function.update _ _ _ a = _; rw [Function.update_of_ne ha]
  have hcur : (modCur s f).attrs (cur s) = f (s.attrs (cur s)) := by
    show Function.update _ _ _ (cur s) = _; rw [Function.update_self]
  refine ⟨⟨h.ne, h.blk, h.prm, ?_, ?_, ?_⟩, ?_⟩
  · intro a ha
    by_cases hac : a = cur s
    · rw [hac, hcur, ht]; exact h.nodup _ (cur_lt h)
    · rw [hold a hac]; exact h.nodup a ha
  · intro a ha
    by_cases hac : a = cur s
    · rw [hac, hcur, ht]; exact h.tab _ (cur_lt h)
    · rw [hold a hac]; exact h.tab a ha
  · intro a ha
    by_cases hac : a = cur s
    · rw [hac, hcur]; exact hsh _ (h.shd _ (cur_lt h))
    · rw [hold a hac]; exact h.shd a ha
  · apply scene_excl (s' := modCur s f) h.ne hx rfl rfl
    · intro a _ hac
      exact value_congr (hold a hac) (fun _ _ => rfl) (fun _ _ _ => rfl)
    · exact hg

/-- A new shader object. -/
theorem newShader_spec {s : St V} (h : Inv s) (sh : Shader) :
    let s1 : St V := { s with shaders := Function.update s.shaders s.nShaders sh, nShaders := s.nShaders + 1 }
    Inv s1 ∧ scene s1 = scene s := by
  intro s1
  have hlt : ∀ i, i < s.nShaders → s1.shaders i = s.shaders i := fun i hi => by
    show Function.update _ _ _ i = _; rw [Function.update_of_ne (by omega)]
  refine ⟨⟨h.ne, h.blk, h.prm, h.nodup, h.tab, fun a ha k i hi => Nat.lt_succ_of_lt (h.shd a ha k i hi)⟩, ?_⟩
  have hv : ∀ a < s.nAttrs, value s1 a = value s a := fun a ha =>
    value_congr rfl (fun _ _ => rfl) (fun k i hi => hlt i (h.shd a ha k i hi))
  unfold scene
  congr 1
  · exact List.map_congr_left fun b hb => by rw [hv _ (h.blk b hb)]
  · exact List.map_congr_left fun a ha => hv a (h.prm a ha)

theorem putShader_spec {s : St V} (h : Inv s) (k : Kind) (sh : Shader) :
    let s1 : St V := { s with shaders := Function.update s.shaders s.nShaders sh, nShaders := s.nShaders + 1 }
    let s2 := modCur (writeCur s1) fun o => { o with shaders := Function.update o.shaders k (some s.nShaders) }
    Inv s2 ∧ scene s2 = (scene s).mod fun o => { o with shaders := fun k' => if k' = k then some sh else o.shaders k' } := by
  intro s1 s2
  obtain ⟨hi, hs⟩ := newShader_spec h sh
  obtain ⟨hi1, hs1, hx1, e1, e2⟩ := writeCur_spec hi
  rw [← hs, ← hs1]
  refine modCur_spec hi1 hx1 _ _ (fun _ => rfl) ?_ ?_
  · intro o ho k' i hki
    simp only at hki
    by_cases hk : k' = k
    · rw [hk, Function.update_self, Option.some.injEq] at hki
      rw [e2, ← hki]; exact Nat.lt_succ_self _
    · rw [Function.update_of_ne hk] at hki
      exact ho k' i hki
  · unfold value
    have hcur : s2.attrs (cur (writeCur s1)) = { (writeCur s1).attrs (cur (writeCur s1)) with
        shaders := Function.update ((writeCur s1).attrs (cur (writeCur s1))).shaders k (some s.nShaders) } := by
      show Function.update _ _ _ (cur _) = _; rw [Function.update_self]
    show (⟨_, _, _⟩ : Val V) = _
    rw [hcur]
    congr 1
    funext k'
    show (Function.update ((writeCur s1).attrs (cur (writeCur s1))).shaders k (some s.nShaders) k').map (writeCur s1).shaders = _
    by_cases hk : k' = k
    · rw [if_pos hk, hk, Function.update_self, Option.map_some, e1]
      show some (Function.update _ _ _ _) = _
      rw [Function.update_self]
    · rw [if_neg hk, Function.update_of_ne hk]

theorem allowed_eq (o t : Ty) : allowed o t = mayOpen o t := by cases o <;> cases t <;> rfl

theorem begin_spec {s : St V} (h : Inv s) (t : Ty) :
    Inv (beginBlock s t) ∧ scene (beginBlock s t) = (scene s).step (.openB t) := by
  unfold beginBlock
  cases hb : s.blocks with
  | nil => exact absurd hb h.ne
  | cons b bs =>
    have hba : b.attr < s.nAttrs := h.blk b (by simp [hb])
    have hE : (scene s).step (.openB t) = if allowed b.ty t then
        { scene s with blocks := (t, value s b.attr) :: (scene s).blocks } else scene s := by
      unfold Scene.step
      have : (scene s).blocks = (b.ty, value s b.attr) :: bs.map fun b => (b.ty, value s b.attr) := by
        simp [scene, hb]
      rw [this, allowed_eq]
    simp only
    rw [hE]
    by_cases ha : allowed b.ty t = true
    · rw [if_pos ha, if_pos ha]
      by_cases hs : shares t = true
      · rw [if_pos hs]
        refine ⟨⟨by simp, ?_, h.prm, h.nodup, h.tab, h.shd⟩, ?_⟩
        · intro b' hb'
          simp only [List.mem_cons] at hb'
          rcases hb' with rfl | hb'
          · exact hba
          · exact h.blk b' (by rw [hb]; exact List.mem_cons.2 hb')
        · unfold scene
          simp only [hb, List.map_cons]
          rfl
      · rw [if_neg hs]
        have hi := inv_addAttr h hba
        refine ⟨⟨by simp, ?_, hi.prm, hi.nodup, hi.tab, hi.shd⟩, ?_⟩
        · intro b' hb'
          simp only [List.mem_cons] at hb'
          rcases hb' with rfl | hb'
          · exact Nat.lt_succ_self _
          · exact Nat.lt_succ_of_lt (h.blk b' (by rw [hb]; exact List.mem_cons.2 hb'))
        · have hv : ∀ L a, value { (addAttr s (clone (s.attrs b.attr))).1 with blocks := L } a
              = value (addAttr s (clone (s.attrs b.attr))).1 a := fun _ _ => rfl
          unfold scene
          congr 1
          · show (t, value { (addAttr s (clone (s.attrs b.attr))).1 with blocks := _ } s.nAttrs) :: List.map _ (b :: bs) = _
            rw [hv, value_addAttr_new]
            congr 1
            show _ = List.map _ s.blocks
            rw [hb]
            apply List.map_congr_left
            intro b' hb'
            have : b'.attr < s.nAttrs := h.blk b' (by rw [hb]; exact hb')
            exact congrArg (Prod.mk b'.ty) (value_addAttr _ _ this)
          · apply List.map_congr_left
            intro a ha
            exact value_addAttr _ _ (h.prm a ha)
    · rw [if_neg ha, if_neg ha]
      exact ⟨h, rfl⟩

theorem end_spec {s : St V} (h : Inv s) (t : Ty) :
    Inv (endBlock s t) ∧ scene (endBlock s t) = (scene s).step (.closeB t) := by
  have hsh : (shares t = true) = (t = .transform ∨ t = .motion) := by cases t <;> simp [shares]
  unfold endBlock
  match hb : s.blocks with
  | [] => exact absurd hb h.ne
  | [b] =>
    refine ⟨h, ?_⟩
    unfold Scene.step
    have : (scene s).blocks = [(b.ty, value s b.attr)] := by simp [scene, hb]
    rw [this]
  | b :: b' :: bs =>
    have hE : (scene s).step (.closeB t) = if b.ty = t then
        (if t = .transform ∨ t = .motion then
          { scene s with blocks := (b'.ty, value s b.attr) :: bs.map fun b => (b.ty, value s b.attr) }
        else { scene s with blocks := (b'.ty, value s b'.attr) :: bs.map fun b => (b.ty, value s b.attr) }) else scene s := by
      unfold Scene.step
      have : (scene s).blocks = (b.ty, value s b.attr) :: (b'.ty, value s b'.attr) :: bs.map fun b => (b.ty, value s b.attr) := by
        simp [scene, hb]
      rw [this]
    simp only
    rw [hE]
    by_cases ht : b.ty = t
    · rw [if_pos ht, if_pos ht]
      by_cases hs : shares t = true
      · rw [if_pos hs, if_pos (hsh ▸ hs)]
        refine ⟨⟨by simp, ?_, h.prm, h.nodup, h.tab, h.shd⟩, rfl⟩
        intro c hc
        simp only [List.mem_cons] at hc
        rcases hc with rfl | hc
        · exact h.blk b (by simp [hb])
        · exact h.blk c (by simp [hb, hc])
      · rw [if_neg hs, if_neg (hsh ▸ hs)]
        refine ⟨⟨by simp, ?_, h.prm, h.nodup, h.tab, h.shd⟩, rfl⟩
        intro c hc
        exact h.blk c (by rw [hb]; exact List.mem_cons_of_mem _ hc)
    · rw [if_neg ht, if_neg ht]
      exact ⟨h, rfl⟩

/-- One request. -/
theorem step_spec {s : St V} (h : Inv s) (op : Op V) (hl : ∀ k id, op = .layer k id → ∀ t v bs,
      (scene s).blocks = (t, v) :: bs → ∀ ls, v.shaders k ≠ some (.layered ls)) :
    Inv (step s op) ∧ scene (step s op) = (scene s).step op := by
  cases op with
  | param n p v => exact setParam_spec h n p v
  | shader k id => exact putShader_spec h k (.plain id)
  | light id on =>
    obtain ⟨hi1, hs1, hx1, e1, e2⟩ := writeCur_spec h
    have hcur : ∀ f, (modCur (writeCur s) f).attrs (cur (writeCur s)) = f ((writeCur s).attrs (cur (writeCur s))) := fun f => by
      show Function.update _ _ _ (cur _) = _; rw [Function.update_self]
    cases on with
    | true =>
      have e : step s (.light id true) = modCur (writeCur s) (fun o =>
          if true = true then (if id ∈ o.lights then o else { o with lights := o.lights ++ [id] })
          else { o with lights := o.lights.erase id }) := rfl
      rw [e, ← hs1]
      apply modCur_spec hi1 hx1
      · intro o; simp only [if_true]; split <;> rfl
      · intro o ho; simp only [if_true]; split <;> exact ho
      · unfold value
        rw [hcur]
        simp only [if_true]
        split <;> simp_all [modCur]
    | false =>
      have e : step s (.light id false) = modCur (writeCur s) (fun o =>
          if false = true then (if id ∈ o.lights then o else { o with lights := o.lights ++ [id] })
          else { o with lights := o.lights.erase id }) := rfl
      rw [e, ← hs1]
      apply modCur_spec hi1 hx1
      · intro o; rfl
      · intro o ho; exact ho
      · unfold value
        rw [hcur]
        rfl
  | trim loops =>
    obtain ⟨hi1, hs1, hx1, e1, e2⟩ := writeCur_spec h
    have := modCur_spec hi1 hx1 (fun o => { o with trim := loops }) id (fun _ => rfl) (fun _ ho => ho) (by
      unfold value
      have : (modCur (writeCur s) fun o => { o with trim := loops }).attrs (cur (writeCur s))
        = { (writeCur s).attrs (cur (writeCur s)) with trim := loops } := by
          show Function.update _ _ _ (cur _) = _; rw [Function.update_self]
      rw [this]; rfl)
    refine ⟨this.1, ?_⟩
    show scene (modCur (writeCur s) fun o => { o with trim := loops }) = scene s
    rw [this.2, mod_id _ (f := id) (fun _ => rfl), hs1]
  | layer k id =>
    obtain ⟨b, bs, hb⟩ : ∃ b bs, s.blocks = b :: bs := by
      cases hb : s.blocks with
      | nil => exact absurd hb h.ne
      | cons b bs => exact ⟨b, bs, rfl⟩
    have hc := cur_eq hb
    have hsb : (scene s).blocks = (b.ty, value s b.attr) :: bs.map fun b => (b.ty, value s b.attr) := by simp [scene, hb]
    have hnl := hl k id rfl _ _ _ hsb
    have hadd : addTo id ((value s b.attr).shaders k) = .layered [id] := by
      unfold addTo
      split
      · next ls heq => exact absurd heq (hnl ls)
      · rfl
    have hspec : (scene s).step (.layer k id)
        = (scene s).mod fun o => { o with shaders := fun k' => if k' = k then some (.layered [id]) else o.shaders k' } := by
      unfold Scene.step Scene.mod
      rw [hsb]
      simp only [hadd]
    rw [hspec]
    have hstep : step s (.layer k id) = modCur (writeCur { s with shaders := Function.update s.shaders s.nShaders (.layered [id]), nShaders := s.nShaders + 1 }) fun o =>
        { o with shaders := Function.update o.shaders k (some s.nShaders) } := by
      show addLayer s k id = _
      unfold addLayer
      rw [hc]
      cases hk : (s.attrs b.attr).shaders k with
      | none => rfl
      | some i =>
        cases hsi : s.shaders i with
        | plain j => simp only [hsi]
        | layered ls =>
          exact absurd (show (value s b.attr).shaders k = some (.layered ls) by simp [value, hk, hsi]) (hnl ls)
    rw [hstep]
    exact putShader_spec h k (.layered [id])
  | openB t => exact begin_spec h t
  | closeB t => exact end_spec h t
  | prim =>
    refine ⟨⟨h.ne, h.blk, ?_, h.nodup, h.tab, h.shd⟩, ?_⟩
    · intro a ha
      have ha : a ∈ cur s :: s.prims := ha
      rcases List.mem_cons.1 ha with rfl | ha
      · exact cur_lt h
      · exact h.prm a ha
    · cases hb : s.blocks with
      | nil => exact absurd hb h.ne
      | cons b bs =>
        have hsb : (scene s).blocks = (b.ty, value s b.attr) :: bs.map fun b => (b.ty, value s b.attr) := by simp [scene, hb]
        unfold Scene.step
        rw [hsb]
        show scene (makePrim s) = _
        have e : scene (makePrim s) = { scene s with prims := value s (cur s) :: (scene s).prims } := rfl
        rw [e, cur_eq hb]
        simp only [hsb]

theorem run_spec {s : St V} (h : Inv s) (ops : List (Op V)) (hl : (scene s).NoSecondLayer ops) :
    Inv (run s ops) ∧ scene (run s ops) = (scene s).run ops := by
  induction ops generalizing s with
  | nil => exact ⟨h, rfl⟩
  | cons op ops ih =>
    obtain ⟨h1, h2⟩ := step_spec h op hl.1
    have := ih h1 (by rw [h2]; exact hl.2)
    rw [h2] at this
    exact this

theorem inv_initial : Inv (initial : St V) := by
  refine ⟨by simp [initial], ?_, ?_, ?_, ?_, ?_⟩
  · intro b hb
    simp only [initial, List.mem_singleton] at hb
    subst hb; exact Nat.zero_lt_one
  · intro a ha; simp [initial] at ha
  · intro a _; simp [initial]
  · intro a _ e he
    simp only [initial, List.mem_singleton] at he
    subst he; exact ⟨Nat.zero_lt_one, rfl⟩
  · intro a _ k i hi; simp [initial] at hi

/-- Requests that close every block they open, in a block of the given type. -/
inductive Balanced : Ty → List (Op V) → Prop where
  | nil (t : Ty) : Balanced t []
  | one (t : Ty) (op : Op V) (ops : List (Op V)) (ho : ∀ u, op ≠ .openB u) (hc : ∀ u, op ≠ .closeB u) (h : Balanced t ops) :
      Balanced t (op :: ops)
  | block (t u : Ty) (body ops : List (Op V)) (hm : mayOpen t u) (hb : Balanced u body) (h : Balanced t ops) :
      Balanced t (.openB u :: body ++ .closeB u :: ops)

theorem run_append (c : Scene V) (a b : List (Op V)) : c.run (a ++ b) = (c.run a).run b := List.foldl_append

theorem mod_blocks (c : Scene V) (f : Val V → Val V) {t v bs} (h : c.blocks = (t, v) :: bs) :
    (c.mod f).blocks = (t, f v) :: bs := by
  unfold Scene.mod; rw [h]

theorem simple_step (c : Scene V) (op : Op V) (ho : ∀ u, op ≠ .openB u) (hc : ∀ u, op ≠ .closeB u) {t v bs}
    (h : c.blocks = (t, v) :: bs) : ∃ v', (c.step op).blocks = (t, v') :: bs := by
  cases op with
  | param n p v => exact ⟨_, mod_blocks _ _ h⟩
  | shader k id => exact ⟨_, mod_blocks _ _ h⟩
  | light id on => cases on <;> exact ⟨_, mod_blocks _ _ h⟩
  | trim l => exact ⟨_, h⟩
  | layer k id => exact ⟨_, mod_blocks _ _ h⟩
  | openB u => exact absurd rfl (ho u)
  | closeB u => exact absurd rfl (hc u)
  | prim =>
    refine ⟨v, ?_⟩
    unfold Scene.step
    simp only [h]

theorem balanced_run {t : Ty} {ops : List (Op V)} (hb : Balanced t ops) :
    ∀ (c : Scene V) v bs, c.blocks = (t, v) :: bs → ∃ v', (c.run ops).blocks = (t, v') :: bs := by
  induction hb with
  | nil t => intro c v bs h; exact ⟨v, h⟩
  | one t op ops ho hc _ ih =>
    intro c v bs h
    obtain ⟨v', h'⟩ := simple_step c op ho hc h
    exact ih _ _ _ h'
  | block t u body ops hm _ _ ih1 ih2 =>
    intro c v bs h
    have h1 : (c.step (.openB u)).blocks = (u, v) :: (t, v) :: bs := by
      unfold Scene.step; simp only [h]; rw [if_pos hm]
    obtain ⟨v2, h2⟩ := ih1 _ _ _ h1
    have h3 : ∃ v3, ((((c.step (.openB u)).run body)).step (.closeB u)).blocks = (t, v3) :: bs := by
      generalize (c.step (.openB u)).run body = d at h2
      unfold Scene.step
      simp only [h2, if_true]
      by_cases hu : u = .transform ∨ u = .motion
      · exact ⟨v2, by rw [if_pos hu]⟩
      · exact ⟨v, by rw [if_neg hu]⟩
    obtain ⟨v3, h3⟩ := h3
    have e : c.run (.openB u :: body ++ .closeB u :: ops)
        = ((((c.step (.openB u)).run body)).step (.closeB u)).run ops := by
      rw [List.cons_append]
      show (c.step (.openB u)).run (body ++ .closeB u :: ops) = _
      rw [run_append]
      rfl
    rw [e]
    exact ih2 _ _ _ h3

theorem prims_step (c : Scene V) (op : Op V) : c.prims <:+ (c.step op).prims := by
  have hm : ∀ f, c.prims <:+ (c.mod f).prims := by
    intro f
    unfold Scene.mod
    split <;> exact List.suffix_refl _
  cases op with
  | light id on => cases on <;> exact hm _
  | trim l => exact List.suffix_refl _
  | openB u =>
    unfold Scene.step
    simp only
    split
    · exact List.suffix_refl _
    · split <;> exact List.suffix_refl _
  | closeB u =>
    unfold Scene.step
    simp only
    split
    · split
      · split <;> exact List.suffix_refl _
      · exact List.suffix_refl _
    · exact List.suffix_refl _
  | prim =>
    unfold Scene.step
    simp only
    split
    · exact List.suffix_refl _
    · exact List.suffix_cons _ _
  | _ => exact hm _

theorem prims_run (c : Scene V) (ops : List (Op V)) : c.prims <:+ (c.run ops).prims := by
  induction ops generalizing c with
  | nil => exact List.suffix_refl _
  | cons op ops ih => exact (prims_step c op).trans (ih _)

theorem noSecond_append {c : Scene V} {a b : List (Op V)} (h : c.NoSecondLayer (a ++ b)) :
    c.NoSecondLayer a ∧ (c.run a).NoSecondLayer b := by
  induction a generalizing c with
  | nil => exact ⟨trivial, h⟩
  | cons op a ih =>
    obtain ⟨h1, h2⟩ := h
    obtain ⟨h3, h4⟩ := ih h2
    exact ⟨⟨h1, h3⟩, h4⟩

end Verif.State.Attr
