import Verif.Shader.StackSpec
import Mathlib.Data.List.Basic
import Mathlib.Data.List.Nodup
import Mathlib.Tactic.Tauto

/-! Lemmas about the stack of the shader virtual machine. -/

namespace Verif.Shader.Stack

variable {V : Type}

/-! ## Cells -/

theorem get_var {c : Cell V} (h : c.varying = true) (i : Nat) : c.get i = c.vals[i]? := by
  simp [Cell.get, h]

theorem get_uni {c : Cell V} (h : c.varying = false) (i : Nat) : c.get i = c.vals[0]? := by
  simp [Cell.get, h]

theorem put_var {c : Cell V} (h : c.varying = true) {i : Nat} (hi : i < c.vals.length) (v : V) :
    c.put i v = some { c with vals := c.vals.set i v } := by
  simp [Cell.put, h, hi]

theorem put_uni {c : Cell V} (h : c.varying = false) (hl : c.vals.length = 1) (i : Nat) (v : V) :
    c.put i v = some { c with vals := c.vals.set 0 v } := by
  simp [Cell.put, h, hl]

theorem get_set_var {c : Cell V} (h : c.varying = true) {i : Nat} (hi : i < c.vals.length) (v : V)
    (j : Nat) : ({ c with vals := c.vals.set i v } : Cell V).get j = if j = i then some v else c.get j := by
  rw [get_var h, get_var (c := { c with vals := c.vals.set i v }) h]
  simp only [List.getElem?_set]
  by_cases hj : i = j
  · subst hj; simp [hi]
  · rw [if_neg hj, if_neg (fun h => hj h.symm)]

theorem fill_get (c : Cell V) (v : V) (n : Nat) (hl : c.vals.length = if c.varying then n else 1)
    (i : Nat) (hi : i < n) : (c.fill v).get i = some v := by
  have h : (c.fill v).vals = c.vals.map fun _ => v := rfl
  have hv : (c.fill v).varying = c.varying := rfl
  cases hc : c.varying with
  | false =>
    rw [get_uni (hv.trans hc), h, List.getElem?_map]
    rw [hc] at hl
    simp at hl
    rw [List.getElem?_eq_getElem (by omega)]; rfl
  | true =>
    rw [get_var (hv.trans hc), h, List.getElem?_map]
    rw [hc] at hl
    simp at hl
    rw [List.getElem?_eq_getElem (by omega)]; rfl

/-- Same type, class and number of elements. -/
def Same (c d : Cell V) : Prop := d.ty = c.ty ∧ d.varying = c.varying ∧ d.vals.length = c.vals.length

theorem Same.rfl' (c : Cell V) : Same c c := ⟨rfl, rfl, rfl⟩

theorem Same.trans {a b c : Cell V} (h : Same a b) (k : Same b c) : Same a c :=
  ⟨k.1.trans h.1, k.2.1.trans h.2.1, k.2.2.trans h.2.2⟩

theorem Same.upd {c d : Cell V} {i : Nat} {v : V}
    (h : Same { c with vals := c.vals.set i v } d) : Same c d := by
  obtain ⟨h1, h2, h3⟩ := h
  exact ⟨h1, h2, by simpa using h3⟩

theorem fill_same (c : Cell V) (v : V) : Same c (c.fill v) := by simp [Same, Cell.fill]

theorem loop2_spec (run : Nat → Bool) (f : V → V → V) (a b : Nat → Option V) : ∀ (k i : Nat)
    (r : Cell V), r.varying = true → i + k ≤ r.vals.length →
    (∀ j, i ≤ j → j < i + k → run j = true → (a j).isSome ∧ (b j).isSome) →
    ∃ r', loop2 run f a b k i r = some r' ∧ Same r r' ∧ ∀ j, r'.get j =
      if i ≤ j ∧ j < i + k ∧ run j = true then (a j).bind fun x => (b j).map fun y => f x y
      else r.get j
  | 0, i, r, _, _, _ => ⟨r, rfl, Same.rfl' r, fun j => by rw [if_neg (by omega)]⟩
  | k + 1, i, r, hv, hl, hab => by
    by_cases hr : run i = true
    · obtain ⟨h1, h2⟩ := hab i (Nat.le_refl _) (by omega) hr
      obtain ⟨x, hx⟩ := Option.isSome_iff_exists.1 h1
      obtain ⟨y, hy⟩ := Option.isSome_iff_exists.1 h2
      have hi : i < r.vals.length := by omega
      obtain ⟨r', e, hs, hg⟩ := loop2_spec run f a b k (i + 1) { r with vals := r.vals.set i (f x y) } hv
        (by simp; omega) (fun j h h' => hab j (by omega) (by omega))
      refine ⟨r', ?_, Same.upd hs, fun j => ?_⟩
      · rw [loop2, if_pos hr, hx, hy]
        simp only [Option.bind_eq_bind, Option.bind_some, put_var hv hi]
        exact e
      · rw [hg j, get_set_var hv hi]
        by_cases hj : j = i
        · subst hj
          rw [if_neg (by omega), if_pos rfl, if_pos ⟨Nat.le_refl _, by omega, hr⟩, hx, hy]; rfl
        · rw [if_neg hj]
          by_cases hc : i + 1 ≤ j ∧ j < i + 1 + k ∧ run j = true
          · rw [if_pos hc, if_pos ⟨by omega, by omega, hc.2.2⟩]
          · rw [if_neg hc, if_neg (fun h => hc ⟨by omega, by omega, h.2.2⟩)]
    · obtain ⟨r', e, hs, hg⟩ := loop2_spec run f a b k (i + 1) r hv (by omega)
        (fun j h h' => hab j (by omega) (by omega))
      refine ⟨r', by rw [loop2, if_neg hr]; exact e, hs, fun j => ?_⟩
      rw [hg j]
      by_cases hc : i + 1 ≤ j ∧ j < i + 1 + k ∧ run j = true
      · rw [if_pos hc, if_pos ⟨by omega, by omega, hc.2.2⟩]
      · rw [if_neg hc, if_neg]
        rintro ⟨h, h', h''⟩
        by_cases hj : j = i
        · exact hr (hj ▸ h'')
        · exact hc ⟨by omega, by omega, h''⟩

theorem loop1_eq (run : Nat → Bool) (f : V → V) (a : Nat → Option V) : ∀ (k i : Nat) (r : Cell V),
    loop1 run f a k i r = loop2 run (fun x _ => f x) a a k i r
  | 0, _, _ => rfl
  | k + 1, i, r => by
    rw [loop1, loop2]
    split
    · cases h : a i with
      | none => rfl
      | some x =>
        simp only [Option.bind_eq_bind, Option.bind_some]
        cases r.put i (f x) with
        | none => rfl
        | some r' => exact loop1_eq run f a k (i + 1) r'
    · exact loop1_eq run f a k (i + 1) r

theorem mergeLoop_spec (truth : V → Bool) (c t f : Cell V) : ∀ (k i : Nat) (r : Cell V),
    r.varying = true → i + k ≤ r.vals.length →
    (∀ j, i ≤ j → j < i + k → (c.get j).isSome ∧ (t.get j).isSome ∧ (f.get j).isSome) →
    ∃ r', mergeLoop truth c t f k i r = some r' ∧ Same r r' ∧ ∀ j, r'.get j =
      if i ≤ j ∧ j < i + k then (c.get j).bind fun x => if truth x then t.get j else f.get j
      else r.get j
  | 0, i, r, _, _, _ => ⟨r, rfl, Same.rfl' r, fun j => by rw [if_neg (by omega)]⟩
  | k + 1, i, r, hv, hl, hab => by
    obtain ⟨h1, h2, h3⟩ := hab i (Nat.le_refl _) (by omega)
    obtain ⟨x, hx⟩ := Option.isSome_iff_exists.1 h1
    obtain ⟨y, hy⟩ := Option.isSome_iff_exists.1 h2
    obtain ⟨z, hz⟩ := Option.isSome_iff_exists.1 h3
    have hi : i < r.vals.length := by omega
    obtain ⟨r', e, hs, hg⟩ := mergeLoop_spec truth c t f k (i + 1)
      { r with vals := r.vals.set i (if truth x then y else z) } hv (by simp; omega)
      (fun j h h' => hab j (by omega) (by omega))
    refine ⟨r', ?_, Same.upd hs, fun j => ?_⟩
    · rw [mergeLoop, hx, hy, hz]
      simp only [Option.bind_eq_bind, Option.bind_some, put_var hv hi]
      exact e
    · rw [hg j, get_set_var hv hi]
      by_cases hj : j = i
      · subst hj
        have hc : j ≤ j ∧ j < j + (k + 1) := ⟨Nat.le_refl _, by omega⟩
        rw [if_neg (by omega), if_pos rfl, if_pos hc, hx, hy, hz]
        simp only [Option.bind_some]; cases truth x <;> rfl
      · rw [if_neg hj]
        by_cases hc : i + 1 ≤ j ∧ j < i + 1 + k
        · rw [if_pos hc, if_pos ⟨by omega, by omega⟩]
        · rw [if_neg hc, if_neg (fun h => hc ⟨by omega, by omega⟩)]

theorem getLoop_spec (truth : V → Bool) (run : Nat → Bool) (c : Cell V) : ∀ (k i : Nat)
    (cur : Nat → Bool), (∀ j, i ≤ j → j < i + k → run j = true → (c.get j).isSome) →
    getLoop truth run c k i cur = some fun j =>
      if i ≤ j ∧ j < i + k ∧ run j = true then ((c.get j).map truth).getD false else cur j
  | 0, i, cur, _ => by
    rw [getLoop]; congr 1; funext j; rw [if_neg (by omega)]
  | k + 1, i, cur, h => by
    rw [getLoop]
    by_cases hr : run i = true
    · obtain ⟨x, hx⟩ := Option.isSome_iff_exists.1 (h i (Nat.le_refl _) (by omega) hr)
      rw [if_pos hr, hx]
      simp only [Option.bind_eq_bind, Option.bind_some]
      rw [getLoop_spec truth run c k (i + 1) _ (fun j h1 h2 => h j (by omega) (by omega))]
      congr 1; funext j
      by_cases hj : j = i
      · subst hj; rw [if_neg (by omega), if_pos rfl, if_pos ⟨Nat.le_refl _, by omega, hr⟩, hx]; rfl
      · rw [if_neg hj]
        by_cases hc : i + 1 ≤ j ∧ j < i + 1 + k ∧ run j = true
        · rw [if_pos hc, if_pos ⟨by omega, by omega, hc.2.2⟩]
        · rw [if_neg hc, if_neg (fun h => hc ⟨by omega, by omega, h.2.2⟩)]
    · rw [if_neg hr, getLoop_spec truth run c k (i + 1) _ (fun j h1 h2 => h j (by omega) (by omega))]
      congr 1; funext j
      by_cases hc : i + 1 ≤ j ∧ j < i + 1 + k ∧ run j = true
      · rw [if_pos hc, if_pos ⟨by omega, by omega, hc.2.2⟩]
      · rw [if_neg hc, if_neg]
        rintro ⟨h, h', h''⟩
        by_cases hj : j = i
        · exact hr (hj ▸ h'')
        · exact hc ⟨by omega, by omega, h''⟩

theorem popLoop_var (run : Nat → Bool) (w : Cell V) : ∀ (var : Bool) (k i : Nat) (v : Cell V),
    v.varying = true → i + k ≤ v.vals.length → (∀ j, i ≤ j → j < i + k → (w.get j).isSome) →
    ∃ v', popLoop run var w k i v = some v' ∧ Same v v' ∧ ∀ j, v'.get j =
      if i ≤ j ∧ j < i + k ∧ (var = false ∨ run j = true) then w.get j else v.get j
  | var, 0, i, r, _, _, _ => ⟨r, rfl, Same.rfl' r, fun j => by rw [if_neg (by omega)]⟩
  | var, k + 1, i, r, hv, hl, hab => by
    by_cases hr : (!var || run i) = true
    · have hr' : var = false ∨ run i = true := by cases var <;> simp_all
      obtain ⟨x, hx⟩ := Option.isSome_iff_exists.1 (hab i (Nat.le_refl _) (by omega))
      have hi : i < r.vals.length := by omega
      obtain ⟨r', e, hs, hg⟩ := popLoop_var run w var k (i + 1) { r with vals := r.vals.set i x } hv
        (by simp; omega) (fun j h h' => hab j (by omega) (by omega))
      refine ⟨r', ?_, Same.upd hs, fun j => ?_⟩
      · rw [popLoop, if_pos hr]
        have hk : setFrom r w i = some { r with vals := r.vals.set i x } := by
          unfold setFrom
          rw [if_pos hv, hx]
          exact put_var hv hi x
        simp only [hk, Option.bind_eq_bind, Option.bind_some]
        exact e
      · rw [hg j, get_set_var hv hi]
        by_cases hj : j = i
        · subst hj
          rw [if_neg (by omega), if_pos rfl, if_pos ⟨Nat.le_refl _, by omega, hr'⟩, hx]
        · rw [if_neg hj]
          by_cases hc : i + 1 ≤ j ∧ j < i + 1 + k ∧ (var = false ∨ run j = true)
          · rw [if_pos hc, if_pos ⟨by omega, by omega, hc.2.2⟩]
          · rw [if_neg hc, if_neg (fun h => hc ⟨by omega, by omega, h.2.2⟩)]
    · have hr' : ¬ (var = false ∨ run i = true) := by cases var <;> simp_all
      obtain ⟨r', e, hs, hg⟩ := popLoop_var run w var k (i + 1) r hv (by omega)
        (fun j h h' => hab j (by omega) (by omega))
      refine ⟨r', by rw [popLoop, if_neg hr]; exact e, hs, fun j => ?_⟩
      rw [hg j]
      by_cases hc : i + 1 ≤ j ∧ j < i + 1 + k ∧ (var = false ∨ run j = true)
      · rw [if_pos hc, if_pos ⟨by omega, by omega, hc.2.2⟩]
      · rw [if_neg hc, if_neg]
        rintro ⟨h, h', h''⟩
        by_cases hj : j = i
        · exact hr' (hj ▸ h'')
        · exact hc ⟨by omega, by omega, h''⟩

theorem popLoop_uni (run : Nat → Bool) (w : Cell V) (x : V) (hx : w.get 0 = some x) :
    ∀ (var : Bool) (k i : Nat) (v : Cell V), v.varying = false → v.vals.length = 1 →
    ∃ v', popLoop run var w k i v = some v' ∧ Same v v' ∧
      ((∃ j, i ≤ j ∧ j < i + k ∧ (var = false ∨ run j = true)) → v'.vals = [x]) ∧
      ((¬ ∃ j, i ≤ j ∧ j < i + k ∧ (var = false ∨ run j = true)) → v'.vals = v.vals)
  | var, 0, i, r, _, _ => ⟨r, rfl, Same.rfl' r, by rintro ⟨j, h, h', _⟩; omega, fun _ => rfl⟩
  | var, k + 1, i, r, hv, hl => by
    by_cases hr : (!var || run i) = true
    · have hr' : var = false ∨ run i = true := by cases var <;> simp_all
      have h1 : r.vals.set 0 x = [x] := by
        match hq : r.vals, hl with
        | [q], _ => rfl
      obtain ⟨r', e, hs, hg, hg'⟩ := popLoop_uni run w x hx var k (i + 1)
        { r with vals := r.vals.set 0 x } hv (by simp [hl])
      have hall : r'.vals = [x] := by
        by_cases hc : ∃ j, i + 1 ≤ j ∧ j < i + 1 + k ∧ (var = false ∨ run j = true)
        · exact hg hc
        · rw [hg' hc]; exact h1
      refine ⟨r', ?_, Same.upd hs, fun _ => hall, fun h => ?_⟩
      · rw [popLoop, if_pos hr]
        have hk : setFrom r w i = some { r with vals := r.vals.set 0 x } := by
          unfold setFrom
          rw [if_neg (by simp [hv]), hx]
          exact put_uni hv hl i x
        simp only [hk, Option.bind_eq_bind, Option.bind_some]
        exact e
      · exact absurd ⟨i, Nat.le_refl _, by omega, hr'⟩ h
    · have hr' : ¬ (var = false ∨ run i = true) := by cases var <;> simp_all
      obtain ⟨r', e, hs, hg, hg'⟩ := popLoop_uni run w x hx var k (i + 1) r hv hl
      have key : (∃ j, i ≤ j ∧ j < i + (k + 1) ∧ (var = false ∨ run j = true)) ↔
          ∃ j, i + 1 ≤ j ∧ j < i + 1 + k ∧ (var = false ∨ run j = true) := by
        constructor
        · rintro ⟨j, h1, h2, h3⟩
          by_cases hj : j = i
          · exact absurd (hj ▸ h3) hr'
          · exact ⟨j, by omega, by omega, h3⟩
        · rintro ⟨j, h1, h2, h3⟩; exact ⟨j, by omega, by omega, h3⟩
      exact ⟨r', by rw [popLoop, if_neg hr]; exact e, hs, fun h => hg (key.1 h),
        fun h => hg' (fun h' => h (key.2 h'))⟩

/-! ## Running -/

theorem isRunning_iff (E : Env V) (run : Nat → Bool) :
    E.isRunning run = true ↔ someRun E.points run := by
  simp [Env.isRunning, someRun]

theorem active_narrow (n : Nat) (run : Nat → Bool) (i : Nat) :
    active n run false i = true ↔ someRun n run := by simp [active]

theorem active_wide (n : Nat) (run : Nat → Bool) (i : Nat) : active n run true i = run i := by
  simp [active]

/-! ## Storage -/

theorem Own.perm {heap : List (Cell V)} {pools : Ty → Bool → List Nat} {vars u u' : List Nat}
    (h : Own heap pools vars u) (hp : u.Perm u') : Own heap pools vars u' :=
  { h with
    used_nodup := hp.nodup_iff.1 h.used_nodup
    used_ok := fun p hq => h.used_ok p (hp.mem_iff.2 hq)
    kept := fun p hq => (h.kept p hq).imp_left hp.mem_iff.1 }

/-- Writing a cell of the same kind. -/
theorem Own.write {heap : List (Cell V)} {pools : Ty → Bool → List Nat} {vars u : List Nat}
    (h : Own heap pools vars u) {p : Nat} {d d' : Cell V} (hd : heap[p]? = some d) (ht : d'.ty = d.ty)
    (hv : d'.varying = d.varying) (hl : d'.varying = false → d'.vals.length = 1) :
    Own (heap.set p d') pools vars u := by
  have hp : p < heap.length := (List.getElem?_eq_some_iff.1 hd).1
  refine ⟨h.used_nodup, fun q hq => ?_, h.vars_nodup, fun q hq => ?_, h.pool_nodup, fun t c q hq => ?_,
    fun q e he hve => ?_, fun q hq => h.kept q (by simpa using hq)⟩
  · rw [List.length_set]; exact h.used_ok q hq
  · rw [List.length_set]; exact h.vars_ok q hq
  · obtain ⟨e, he, h1, h2⟩ := h.pool_ok t c q hq
    by_cases hpq : p = q
    · subst hpq
      rw [hd] at he; cases he
      exact ⟨d', by simp [hp], ht.trans h1, hv.trans h2⟩
    · exact ⟨e, by rw [List.getElem?_set_ne hpq]; exact he, h1, h2⟩
  · by_cases hpq : p = q
    · subst hpq
      rw [List.getElem?_set_self hp] at he; cases he
      exact hl hve
    · rw [List.getElem?_set_ne hpq] at he; exact h.uniform q e he hve

/-- Heaps that agree off one address. -/
def Off (h h' : List (Cell V)) (p : Nat) : Prop := ∀ q, q < h.length → q ≠ p → h'[q]? = h[q]?

theorem Off.trans {h h' h'' : List (Cell V)} {p : Nat} (a : Off h h' p) (b : Off h' h'' p)
    (hl : h.length ≤ h'.length) : Off h h'' p :=
  fun q hq hne => (b q (by omega) hne).trans (a q hq hne)

theorem Off.set (h : List (Cell V)) (p : Nat) (d : Cell V) : Off h (h.set p d) p :=
  fun _ _ hne => List.getElem?_set_ne (fun h => hne h.symm)

theorem getTemp_spec (z : V) (t : Ty) (c : Bool) (s : State V) (used : List Nat)
    (h : Own s.heap s.pools s.vars used) :
    ∃ p hp ps d, getTemp z t c s = (p, { s with heap := hp, pools := ps }) ∧
      Own hp ps s.vars (p :: used) ∧ Off s.heap hp p ∧ s.heap.length ≤ hp.length ∧
      hp[p]? = some d ∧ d.ty = t ∧ d.varying = c := by
  unfold getTemp
  cases hq : s.pools t c with
  | nil =>
    have hne : ∀ p, p < s.heap.length → p ≠ s.heap.length := fun p h => by omega
    refine ⟨s.heap.length, s.heap ++ [⟨t, c, [z]⟩], s.pools, ⟨t, c, [z]⟩, rfl, ?_, ?_, by simp, by simp,
      rfl, rfl⟩
    · refine ⟨List.nodup_cons.2 ⟨fun hm => hne _ (h.used_ok _ hm).1 rfl, h.used_nodup⟩, fun q hm => ?_,
        h.vars_nodup, fun q hm => ?_, h.pool_nodup, fun t' c' q hm => ?_, fun q e he hve => ?_,
        fun q hm => ?_⟩
      · rcases List.mem_cons.1 hm with rfl | hm
        · refine ⟨by simp, fun hv => hne _ (h.vars_ok _ hv).1 rfl, fun t' c' hm' => ?_⟩
          obtain ⟨e, he, _⟩ := h.pool_ok _ _ _ hm'
          exact hne _ (List.getElem?_eq_some_iff.1 he).1 rfl
        · have := h.used_ok q hm
          exact ⟨by simp; omega, this.2⟩
      · have := h.vars_ok q hm
        exact ⟨by simp; omega, this.2⟩
      · obtain ⟨e, he, h1⟩ := h.pool_ok t' c' q hm
        exact ⟨e, by rw [List.getElem?_append_left (List.getElem?_eq_some_iff.1 he).1]; exact he, h1⟩
      · by_cases hlt : q < s.heap.length
        · rw [List.getElem?_append_left hlt] at he
          exact h.uniform q e he hve
        · rw [List.getElem?_append_right (by omega)] at he
          have : q - s.heap.length = 0 := by
            have := (List.getElem?_eq_some_iff.1 he).1
            simp at this; omega
          rw [this] at he
          simp at he; subst he; rfl
      · by_cases hlt : q < s.heap.length
        · exact (h.kept q hlt).imp_left (List.mem_cons_of_mem _)
        · left
          have : q = s.heap.length := by simp at hm; omega
          rw [this]; exact List.mem_cons_self ..
    · intro q hlt _
      exact List.getElem?_append_left hlt
  | cons p ps =>
    have hmem : p ∈ s.pools t c := by rw [hq]; exact List.mem_cons_self ..
    obtain ⟨d, hd, ht, hv⟩ := h.pool_ok t c p hmem
    have hnd : p ∉ ps ∧ ps.Nodup := by
      have := h.pool_nodup t c
      rw [hq] at this
      exact List.nodup_cons.1 this
    have hsub : ∀ t' c' q, q ∈ setPool s.pools t c ps t' c' → q ∈ s.pools t' c' ∧ q ≠ p := by
      intro t' c' q hm
      unfold setPool at hm
      split at hm
      · rename_i he
        rw [he.1, he.2, hq]
        exact ⟨List.mem_cons_of_mem _ hm, fun h => hnd.1 (h ▸ hm)⟩
      · rename_i he
        refine ⟨hm, fun hqp => he ?_⟩
        subst hqp
        obtain ⟨d', hd', ht', hv'⟩ := h.pool_ok t' c' q hm
        rw [hd] at hd'; cases hd'
        exact ⟨ht'.symm.trans ht, hv'.symm.trans hv⟩
    refine ⟨p, s.heap, setPool s.pools t c ps, d, rfl, ?_, fun _ _ _ => rfl, Nat.le_refl _, hd, ht, hv⟩
    refine ⟨List.nodup_cons.2 ⟨fun hm => (h.used_ok p hm).2.2 t c hmem, h.used_nodup⟩, fun q hm => ?_,
      h.vars_nodup, fun q hm => ?_, fun t' c' => ?_, fun t' c' q hm => h.pool_ok t' c' q (hsub _ _ _ hm).1,
      h.uniform, fun q hm => ?_⟩
    · rcases List.mem_cons.1 hm with rfl | hm
      · exact ⟨(List.getElem?_eq_some_iff.1 hd).1, fun hv => (h.vars_ok _ hv).2 t c hmem,
          fun t' c' hm' => (hsub _ _ _ hm').2 rfl⟩
      · have := h.used_ok q hm
        exact ⟨this.1, this.2.1, fun t' c' hm' => this.2.2 t' c' (hsub _ _ _ hm').1⟩
    · have := h.vars_ok q hm
      exact ⟨this.1, fun t' c' hm' => this.2 t' c' (hsub _ _ _ hm').1⟩
    · unfold setPool
      split
      · exact hnd.2
      · exact h.pool_nodup t' c'
    · rcases h.kept q hm with k | k | ⟨t', c', k⟩
      · exact .inl (List.mem_cons_of_mem _ k)
      · exact .inr (.inl k)
      · by_cases hqp : q = p
        · left; rw [hqp]; exact List.mem_cons_self ..
        · right; right
          refine ⟨t', c', ?_⟩
          unfold setPool
          split
          · rename_i he
            rw [he.1, he.2, hq] at k
            exact (List.mem_cons.1 k).resolve_left hqp
          · exact k

theorem setSize_kind (z : V) (n : Nat) (c : Cell V) : (c.setSize z n).ty = c.ty ∧
    (c.setSize z n).varying = c.varying ∧
    (c.varying = true → (c.setSize z n).vals.length = n) ∧
    (c.varying = false → (c.setSize z n).vals = c.vals) := by
  unfold Cell.setSize
  cases h : c.varying
  · simp [h]
  · simp; omega

theorem result_spec (E : Env V) (t : Ty) (c : Bool) (s : State V) (used : List Nat)
    (h : Own s.heap s.pools s.vars used) :
    ∃ p hp ps d, result E t c s = some (p, { s with heap := hp, pools := ps }) ∧
      Own hp ps s.vars (p :: used) ∧ Off s.heap hp p ∧ s.heap.length ≤ hp.length ∧
      hp[p]? = some d ∧ d.varying = c ∧ d.vals.length = (if c then E.points else 1) := by
  obtain ⟨p, hp, ps, d, e, ho, hoff, hlen, hd, ht, hv⟩ := getTemp_spec E.fresh t c s used h
  have hplt : p < hp.length := (List.getElem?_eq_some_iff.1 hd).1
  obtain ⟨k1, k2, k3, k4⟩ := setSize_kind E.fresh E.points d
  refine ⟨p, hp.set p (d.setSize E.fresh E.points), ps, d.setSize E.fresh E.points, ?_, ?_, ?_, by simpa,
    by simp [hplt], k2.trans hv, ?_⟩
  · unfold result
    rw [e]
    simp only [hd, Option.map_some]
  · exact ho.write hd k1 k2 (fun hf => by
      rw [k2] at hf; rw [k4 hf]; exact ho.uniform p d hd hf)
  · exact hoff.trans (Off.set hp p _) hlen
  · cases c with
    | true => exact k3 hv
    | false => rw [k4 hv]; exact ho.uniform p d hd hv

theorem release_spec (s : State V) (e : Entry) (used : List Nat)
    (h : Own s.heap s.pools s.vars (temps [e] ++ used)) :
    ∃ ps, release s e = some { s with pools := ps } ∧ Own s.heap ps s.vars used := by
  unfold release
  cases he : e.isTemp with
  | false =>
    refine ⟨s.pools, by simp, ?_⟩
    simpa [temps, he] using h
  | true =>
    have h : Own s.heap s.pools s.vars (e.data :: used) := by simpa [temps, he] using h
    obtain ⟨hlt, hnv, hnp⟩ := h.used_ok e.data (List.mem_cons_self ..)
    obtain ⟨c, hc⟩ : ∃ c, s.heap[e.data]? = some c := ⟨_, List.getElem?_eq_getElem hlt⟩
    have hnd := List.nodup_cons.1 h.used_nodup
    have hsub : ∀ t' c' q, q ∈ setPool s.pools c.ty c.varying
        (s.pools c.ty c.varying ++ [e.data]) t' c' →
        q ∈ s.pools t' c' ∨ q = e.data ∧ t' = c.ty ∧ c' = c.varying := by
      intro t' c' q hm
      unfold setPool at hm
      split at hm
      · rename_i hk
        rcases List.mem_append.1 hm with hm | hm
        · left; rw [hk.1, hk.2]; exact hm
        · right; exact ⟨by simpa using hm, hk⟩
      · exact .inl hm
    refine ⟨_, by simp only [if_true, hc, Option.bind_eq_bind, Option.bind_some]; rfl, ?_⟩
    refine ⟨hnd.2, fun q hm => ?_, h.vars_nodup, fun q hm => ?_, fun t' c' => ?_, fun t' c' q hm => ?_,
      h.uniform, fun q hm => ?_⟩
    · have := h.used_ok q (List.mem_cons_of_mem _ hm)
      refine ⟨this.1, this.2.1, fun t' c' hm' => ?_⟩
      rcases hsub _ _ _ hm' with hm' | ⟨rfl, _⟩
      · exact this.2.2 _ _ hm'
      · exact hnd.1 hm
    · have := h.vars_ok q hm
      refine ⟨this.1, fun t' c' hm' => ?_⟩
      rcases hsub _ _ _ hm' with hm' | ⟨rfl, _⟩
      · exact this.2 _ _ hm'
      · exact hnv hm
    · unfold setPool
      split
      · rw [List.nodup_append]
        refine ⟨h.pool_nodup _ _, by simp, fun a ha b hb hab => ?_⟩
        have : b = e.data := by simpa using hb
        subst this; subst hab
        exact hnp _ _ ha
      · exact h.pool_nodup t' c'
    · rcases hsub _ _ _ hm with hm' | ⟨rfl, h1, h2⟩
      · exact h.pool_ok _ _ _ hm'
      · exact ⟨c, hc, h1.symm, h2.symm⟩
    · have keep : ∀ t' c' q, q ∈ s.pools t' c' → q ∈ setPool s.pools c.ty c.varying
          (s.pools c.ty c.varying ++ [e.data]) t' c' := by
        intro t' c' q k
        unfold setPool
        split
        · rename_i hk
          rw [hk.1, hk.2] at k
          exact List.mem_append_left _ k
        · exact k
      rcases h.kept q hm with k | k | ⟨t', c', k⟩
      · rcases List.mem_cons.1 k with rfl | k
        · right; right
          refine ⟨c.ty, c.varying, ?_⟩
          unfold setPool
          rw [if_pos ⟨rfl, rfl⟩]
          exact List.mem_append_right _ (List.mem_singleton.2 rfl)
        · exact .inl k
      · exact .inr (.inl k)
      · exact .inr (.inr ⟨t', c', keep _ _ _ k⟩)

/-! ## The stack -/

theorem push_live (s : State V) (e : Entry) (h : s.top ≤ s.stack.length) :
    live (push s e) = e :: live s ∧ (push s e).top ≤ (push s e).stack.length ∧
    (push s e).heap = s.heap ∧ (push s e).pools = s.pools ∧ (push s e).vars = s.vars ∧
    (push s e).cur = s.cur ∧ (push s e).run = s.run ∧ (push s e).stk = s.stk := by
  have key : ∀ st : List Entry, s.top < st.length → st.take s.top = s.stack.take s.top →
      ((st.set s.top e).take (s.top + 1)).reverse = e :: (s.stack.take s.top).reverse ∧
      s.top + 1 ≤ (st.set s.top e).length := by
    intro st hlt ht
    refine ⟨?_, by simpa⟩
    rw [List.take_add_one]
    simp [hlt, ht, List.take_set_of_le]
  unfold push live
  by_cases hc : s.top ≥ s.stack.length
  · have := key (s.stack ++ List.replicate (s.top + 4 - s.stack.length) ⟨0, false⟩) (by simp; omega)
      (by rw [List.take_append_of_le_length h])
    simp only [if_pos hc]
    exact ⟨this.1, this.2, trivial, trivial, trivial, trivial, trivial, trivial⟩
  · have := key s.stack (by omega) rfl
    simp only [if_neg hc]
    exact ⟨this.1, this.2, trivial, trivial, trivial, trivial, trivial, trivial⟩

theorem pop_live (s : State V) (e : Entry) (l : List Entry) (h : s.top ≤ s.stack.length)
    (hl : live s = e :: l) :
    pop s = some (e, { s with top := s.top - 1 }) ∧ live { s with top := s.top - 1 } = l ∧
    s.top - 1 ≤ s.stack.length ∧ s.top ≠ 0 ∧ s.stack[s.top - 1]? = some e := by
  have h0 : s.top ≠ 0 := by
    intro h0; simp [live, h0] at hl
  obtain ⟨k, hk⟩ : ∃ k, s.top = k + 1 := ⟨s.top - 1, by omega⟩
  have hlt : k < s.stack.length := by omega
  have : s.stack.take (k + 1) = s.stack.take k ++ [s.stack[k]] := by
    rw [List.take_add_one]; simp [hlt]
  have hl' := hl
  unfold live at hl'
  rw [hk, this, List.reverse_append] at hl'
  simp at hl'
  have hget : s.stack[k]? = some e := by rw [List.getElem?_eq_getElem hlt, hl'.1]
  refine ⟨?_, ?_, by omega, h0, by rw [hk]; exact hget⟩
  · unfold pop
    have hk0 : k + 1 ≠ 0 := by omega
    simp only [hk, if_pos hk0, Nat.add_sub_cancel, hget, Option.map_some]
  · simp only [live, hk, Nat.add_sub_cancel]; exact hl'.2

/-! ## Values -/

theorem HoldsV.off {n : Nat} {h h' : List (Cell V)} {p q : Nat} {v : Val V} (hv : HoldsV n h q v)
    (ho : Off h h' p) (hne : q ≠ p) : HoldsV n h' q v := by
  obtain ⟨c, hc, r⟩ := hv
  exact ⟨c, by rw [ho q (List.getElem?_eq_some_iff.1 hc).1 hne]; exact hc, r⟩

theorem stands_off {n : Nat} {h h' : List (Cell V)} {vars : List Nat} {p : Nat} (ho : Off h h' p) :
    ∀ {l : List Entry} {st : List (Item V)}, p ∉ temps l → List.Forall₂ (Stands n h vars) l st →
    List.Forall₂ (Stands n h' vars) l st
  | _, _, _, .nil => .nil
  | e :: l, i :: st, hp, .cons h1 h2 => by
    refine .cons ?_ (stands_off ho (fun hm => hp ?_) h2)
    · cases i with
      | ref x => exact h1
      | val v =>
        refine ⟨h1.1, h1.2.off ho (fun he => hp ?_)⟩
        simp [temps, h1.1, he]
    · unfold temps at hm ⊢
      rw [List.filter_cons]
      split
      · exact List.mem_cons_of_mem _ hm
      · exact hm

theorem vars_off {n : Nat} {h h' : List (Cell V)} {p : Nat} (ho : Off h h' p) :
    ∀ {l : List Nat} {vs : List (Val V)}, p ∉ l → List.Forall₂ (HoldsV n h) l vs →
    List.Forall₂ (HoldsV n h') l vs
  | _, _, _, .nil => .nil
  | q :: l, v :: vs, hp, .cons h1 h2 => by
    simp at hp
    exact .cons (h1.off ho (fun h => hp.1 h.symm)) (vars_off ho hp.2 h2)

theorem forall2_get {α β : Type} {R : α → β → Prop} : ∀ {l : List α} {m : List β},
    List.Forall₂ R l m → ∀ (x : Nat) (b : β), m[x]? = some b → ∃ a, l[x]? = some a ∧ R a b
  | _, _, .nil, x, b, h => by simp at h
  | a :: l, b' :: m, .cons h1 h2, x, b, h => by
    cases x with
    | zero => simp at h; subst h; exact ⟨a, rfl, h1⟩
    | succ x => simpa using forall2_get h2 x b (by simpa using h)

theorem look_holds {n : Nat} {h : List (Cell V)} {vars : List Nat} {a : Abs V} {e : Entry} {i : Item V}
    {v : Val V} (hs : Stands n h vars e i) (hv : List.Forall₂ (HoldsV n h) vars a.vars)
    (hl : a.look i = some v) : HoldsV n h e.data v := by
  cases i with
  | val w => simp [Abs.look] at hl; subst hl; exact hs.2
  | ref x =>
    obtain ⟨p, hp, hh⟩ := forall2_get hv x v hl
    have := hs.2
    rw [hp] at this; cases this
    exact hh

/-- What an operator sees of a value. -/
theorem HoldsV.parts {n : Nat} {h : List (Cell V)} {p : Nat} {v : Val V} (hn : 0 < n)
    (hv : HoldsV n h p v) : ∃ c, h[p]? = some c ∧ v.wide = decide (c.size > 1) ∧
      (∀ i, i < n → (c.get i).isSome) ∧ (∀ i x, i < n → v.at_ i = some x → c.get i = some x) ∧
      (v.wide = true → c.varying = true ∧ c.size = n ∧ ∀ i, c.vals[i]? = c.get i) ∧
      (v.wide = false → ∀ i, i < n → c.get i = c.get 0) ∧
      c.vals.length = (if c.varying then n else 1) := by
  obtain ⟨c, hc, hl, hw, hg⟩ := hv
  refine ⟨c, hc, hw, fun i hi => ?_, hg, fun hwt => ?_, fun hwf i hi => ?_, hl⟩
  · unfold Cell.get
    cases hvar : c.varying
    · simp [hvar] at hl ⊢; omega
    · simp [hvar] at hl ⊢; omega
  · have : c.varying = true := by
      cases hvar : c.varying with
      | true => rfl
      | false => rw [hw] at hwt; simp [hvar] at hl hwt; omega
    exact ⟨this, by simpa [this, Cell.size] using hl, fun i => (get_var this i).symm⟩
  · cases hvar : c.varying with
    | false => rw [get_uni hvar, get_uni hvar]
    | true =>
      rw [hw] at hwf; simp [hvar] at hl hwf
      have : i = 0 := by omega
      rw [this]

theorem temps_cons (e : Entry) (l : List Entry) : temps (e :: l) = temps [e] ++ temps l := by
  unfold temps; rw [List.filter_cons]; split <;> simp [*]

end Verif.Shader.Stack
