import Verif.Util.Pool
import Mathlib.Data.List.Nodup
/-
C27: the object pool never hands out memory that is in use.
-/
namespace Verif.Util.Pool

/-- The free list, read along the links. -/
def segF (link : Addr → Option Addr) : List Addr → Prop
  | [] => True
  | x :: t => link x = t.head? ∧ segF link t

/-- A place where an element can be. -/
def Slot (size es : Nat) (st : State) (a : Addr) : Prop :=
  a.chunk < st.chunks ∧ ∃ k, k < size / es ∧ a.off = k * es

structure Inv (size es : Nat) (s : State × List Addr) (fl : List Addr) : Prop where
  head : s.1.head = fl.head?
  seg : segF s.1.link fl
  nodup : (fl ++ s.2).Nodup
  slot : ∀ a ∈ fl ++ s.2, Slot size es s.1 a

theorem segF_congr {l1 l2 : Addr → Option Addr} {l : List Addr} (h : ∀ a ∈ l, l1 a = l2 a)
    (hs : segF l1 l) : segF l2 l := by
  induction l with
  | nil => trivial
  | cons x t ih =>
    exact ⟨by rw [← h x (by simp)]; exact hs.1, ih (fun a ha => h a (by simp [ha])) hs.2⟩

/-- The free list of a new chunk from element `i` on. -/
def newList (es c n i : Nat) : List Addr := (List.range' i (n - i)).map (fun k => ⟨c, k * es⟩)

theorem newList_cons {es c n i : Nat} (h : i < n) :
    newList es c n i = ⟨c, i * es⟩ :: newList es c n (i + 1) := by
  unfold newList
  rw [show n - i = (n - (i + 1)) + 1 by omega, List.range'_succ]
  rfl

theorem segF_newList {size es c : Nat} (hes : 0 < es) (link) : ∀ (m i : Nat),
    size / es - i = m → segF (growLink size es c link) (newList es c (size / es) i) := by
  intro m
  induction m with
  | zero => intro i h; simp [newList, h, segF]
  | succ m ih =>
    intro i h
    have hi : i < size / es := by omega
    rw [newList_cons hi]
    refine ⟨?_, ih (i + 1) (by omega)⟩
    have e1 : i * es % es = 0 := Nat.mul_mod_left i es
    have e2 : i * es / es = i := Nat.mul_div_cancel i hes
    simp only [growLink, e1, e2, hi, and_self, if_true]
    by_cases h2 : i + 1 < size / es
    · rw [if_pos h2, newList_cons h2]
      simp [Nat.add_mul]
    · rw [if_neg h2]
      simp [newList, show size / es - (i + 1) = 0 by omega]

theorem mem_newList {es c n i : Nat} {a : Addr} (h : a ∈ newList es c n i) :
    ∃ k, k < n ∧ a = ⟨c, k * es⟩ := by
  unfold newList at h
  obtain ⟨k, hk, rfl⟩ := List.mem_map.mp h
  rw [List.mem_range'_1] at hk
  exact ⟨k, by omega, rfl⟩

theorem newList_nodup {es c n i : Nat} (hes : 0 < es) : (newList es c n i).Nodup := by
  unfold newList
  apply List.Nodup.map
  · intro a b h
    simp only [Addr.mk.injEq, true_and] at h
    exact Nat.eq_of_mul_eq_mul_right hes h
  · exact List.nodup_range'

theorem step_alloc {size es : Nat} (hes : 0 < es) (hfit : es ≤ size) {s : State × List Addr}
    {fl : List Addr} (h : Inv size es s fl) :
    ∃ s' fl', step size es s .alloc = some s' ∧ Inv size es s' fl' ∧ ∃ p, s'.2 = p :: s.2 := by
  cases fl with
  | cons p fl =>
    have hh : s.1.head = some p := h.head
    refine ⟨({ s.1 with head := s.1.link p }, p :: s.2), fl, by simp only [step, alloc, hh],
      ⟨h.seg.1, h.seg.2, ?_, ?_⟩, p, rfl⟩
    · have := h.nodup
      rw [List.cons_append] at this
      exact (List.perm_middle.nodup_iff).mpr this
    · intro a ha
      exact h.slot a (by simp at ha ⊢; rcases ha with h | h | h <;> simp [h])
  | nil =>
    have hh : s.1.head = none := h.head
    have hn : 0 < size / es := Nat.div_pos hfit hes
    have hne : ¬ size / es = 0 := by omega
    have hseg := segF_newList (size := size) (c := s.1.chunks) hes s.1.link (size / es) 0 rfl
    rw [newList_cons hn] at hseg
    have hold : ∀ a ∈ s.2, a.chunk < s.1.chunks := fun a ha => (h.slot a (by simp [ha])).1
    refine ⟨_, newList es s.1.chunks (size / es) 1, by
      simp only [step, alloc, hh, grow, if_neg hne]
      rfl, ⟨?_, hseg.2, ?_, ?_⟩, ⟨s.1.chunks, 0⟩, rfl⟩
    · have := hseg.1
      simpa using this
    · have hnd := newList_nodup (es := es) (c := s.1.chunks) (n := size / es) (i := 0) hes
      rw [newList_cons hn] at hnd
      simp only [Nat.zero_mul] at hnd
      rw [List.perm_middle.nodup_iff, ← List.cons_append, List.nodup_append]
      refine ⟨hnd, by simpa using h.nodup, ?_⟩
      intro a ha b hb hab
      have hc : a.chunk = s.1.chunks := by
        rcases List.mem_cons.mp ha with rfl | ha
        · rfl
        · obtain ⟨k, _, rfl⟩ := mem_newList ha; rfl
      have := hold b hb
      rw [← hab, hc] at this
      omega
    · intro a ha
      simp only [List.mem_append, List.mem_cons] at ha
      rcases ha with ha | rfl | ha
      · obtain ⟨k, hk, rfl⟩ := mem_newList ha
        exact ⟨Nat.lt_succ_self _, k, hk, rfl⟩
      · exact ⟨Nat.lt_succ_self _, 0, hn, by simp⟩
      · obtain ⟨h1, h2⟩ := h.slot a (by simp [ha])
        exact ⟨Nat.lt_succ_of_lt h1, h2⟩

theorem perm_eraseIdx : ∀ (l : List Addr) (i : Nat) (h : i < l.length),
    l.Perm (l[i] :: l.eraseIdx i)
  | [], _, h => by simp at h
  | x :: l, 0, _ => by simp
  | x :: l, i + 1, h => by
    have ih := perm_eraseIdx l i (by simpa using h)
    simp only [List.getElem_cons_succ, List.eraseIdx_cons_succ]
    exact (List.Perm.cons x ih).trans (List.Perm.swap _ _ _)

theorem step_inv {size es : Nat} (hes : 0 < es) (hfit : es ≤ size) {s : State × List Addr}
    {fl : List Addr} (h : Inv size es s fl) (o : Op) :
    ∃ s' fl', step size es s o = some s' ∧ Inv size es s' fl' := by
  cases o with
  | alloc =>
    obtain ⟨s', fl', h1, h2, _⟩ := step_alloc hes hfit h
    exact ⟨s', fl', h1, h2⟩
  | free i =>
    cases hi : s.2[i]? with
    | none => exact ⟨s, fl, by simp only [step, hi], h⟩
    | some p =>
      have hlt : i < s.2.length := by
        apply Classical.byContradiction
        intro hn
        rw [List.getElem?_eq_none (by omega)] at hi
        simp at hi
      have hp : s.2[i] = p := by rw [List.getElem?_eq_getElem hlt] at hi; simpa using hi
      have hperm : s.2.Perm (p :: s.2.eraseIdx i) := by
        rw [← hp]
        exact perm_eraseIdx s.2 i hlt
      have hnd : (p :: (fl ++ s.2.eraseIdx i)).Nodup := by
        have h1 : (fl ++ s.2).Perm (fl ++ p :: s.2.eraseIdx i) := List.Perm.append_left fl hperm
        exact ((h1.trans List.perm_middle).nodup_iff).mp h.nodup
      refine ⟨(free s.1 p, s.2.eraseIdx i), p :: fl, by simp only [step, hi],
        ⟨rfl, ⟨?_, ?_⟩, hnd, ?_⟩⟩
      · simp [free, h.head]
      · apply segF_congr _ h.seg
        intro a ha
        have : a ≠ p := by
          rintro rfl
          exact (List.nodup_cons.mp hnd).1 (by simp [ha])
        simp [free, this]
      · intro a ha
        apply h.slot a
        simp only [List.cons_append, List.mem_cons, List.mem_append] at ha ⊢
        rcases ha with rfl | ha | ha
        · exact Or.inr (hperm.mem_iff.mpr (by simp))
        · exact Or.inl ha
        · exact Or.inr (hperm.mem_iff.mpr (by simp [ha]))
  | scribble i v =>
    cases hi : s.2[i]? with
    | none => exact ⟨s, fl, by simp only [step, hi], h⟩
    | some p =>
      have hp : p ∈ s.2 := List.mem_of_getElem? hi
      refine ⟨({ s.1 with link := fun a => if a = p then v else s.1.link a }, s.2), fl,
        by simp only [step, hi], ⟨h.head, ?_, h.nodup, h.slot⟩⟩
      apply segF_congr _ h.seg
      intro a ha
      have : a ≠ p := by
        rintro rfl
        exact (List.nodup_append.mp h.nodup).2.2 a ha a hp rfl
      simp [this]

theorem run_inv {size es : Nat} (hes : 0 < es) (hfit : es ≤ size) : ∀ (os : List Op)
    {s : State × List Addr} {fl : List Addr}, Inv size es s fl →
    ∃ s' fl', run size es s os = some s' ∧ Inv size es s' fl' := by
  intro os
  induction os with
  | nil => intro s fl h; exact ⟨s, fl, rfl, h⟩
  | cons o os ih =>
    intro s fl h
    obtain ⟨s1, fl1, h1, h2⟩ := step_inv hes hfit h o
    obtain ⟨s2, fl2, h3, h4⟩ := ih h2
    exact ⟨s2, fl2, by simp only [run, h1, h3], h4⟩

theorem inv_init (size es : Nat) : Inv size es (init, []) [] :=
  ⟨rfl, trivial, by simp, by simp⟩

/-- Spec: two elements of `es` bytes have no byte in common. -/
def Disjoint (es : Nat) (a b : Addr) : Prop :=
  ∀ i j, i < es → j < es → (⟨a.chunk, a.off + i⟩ : Addr) ≠ ⟨b.chunk, b.off + j⟩

/-- Spec: an element lies in a chunk that exists, at a multiple of its size. -/
def Inside (size es : Nat) (st : State) (a : Addr) : Prop :=
  a.chunk < st.chunks ∧ a.off + es ≤ size ∧ a.off % es = 0

/-- **C27.**  For every element size that fits a chunk, after every history of
allocations, frees and writes to elements in use, the pool works (nothing
undefined) and the elements in use lie inside chunks and have no byte in
common. -/
theorem C27_history (size es : Nat) (hes : 0 < es) (hfit : es ≤ size) (os : List Op) :
    ∃ st used, run size es (init, []) os = some (st, used) ∧
      (∀ a ∈ used, Inside size es st a) ∧ used.Pairwise (Disjoint es) := by
  obtain ⟨⟨st, used⟩, fl, h1, h2⟩ := run_inv hes hfit os (inv_init size es)
  refine ⟨st, used, h1, ?_, ?_⟩
  · intro a ha
    obtain ⟨hc, k, hk, ho⟩ := h2.slot a (by simp [ha])
    refine ⟨hc, ?_, by rw [ho]; exact Nat.mul_mod_left k es⟩
    have h3 : (k + 1) * es ≤ size / es * es := Nat.mul_le_mul_right es hk
    have h4 := Nat.div_mul_le_self size es
    rw [ho]
    rw [Nat.add_mul] at h3
    omega
  · have hnd : used.Nodup := (List.nodup_append.mp h2.nodup).2.1
    apply List.Pairwise.imp_of_mem _ hnd
    intro a b ha hb hab i j hi hj heq
    obtain ⟨_, k, _, ho⟩ := h2.slot a (by simp [ha])
    obtain ⟨_, l, _, hp⟩ := h2.slot b (by simp [hb])
    simp only [Addr.mk.injEq] at heq
    apply hab
    have hkl : k = l := by
      have e : k * es + i = l * es + j := by rw [← ho, ← hp]; exact heq.2
      have e1 : (k * es + i) / es = k := by
        rw [Nat.mul_comm, Nat.mul_add_div hes, Nat.div_eq_of_lt hi, Nat.add_zero]
      have e2 : (l * es + j) / es = l := by
        rw [Nat.mul_comm, Nat.mul_add_div hes, Nat.div_eq_of_lt hj, Nat.add_zero]
      rw [← e1, e, e2]
    cases a; cases b
    simp only [Addr.mk.injEq]
    simp only at ho hp heq
    exact ⟨heq.1, by rw [ho, hp, hkl]⟩

/-- **C27.**  An allocation returns a new element: the elements in use before
are still in use, with one more in front. -/
theorem C27_alloc (size es : Nat) (hes : 0 < es) (hfit : es ≤ size) (os : List Op) :
    ∃ st used st' p, run size es (init, []) os = some (st, used) ∧
      alloc size es st = some (p, st') ∧
      Inside size es st' p ∧ ∀ a ∈ used, Disjoint es p a := by
  obtain ⟨⟨st, used⟩, fl, h1, h2⟩ := run_inv hes hfit os (inv_init size es)
  obtain ⟨st', used', h3, h4, h5⟩ := C27_history size es hes hfit (os ++ [.alloc])
  have happ : ∀ (os : List Op) (s s' : State × List Addr) , run size es s os = some s' →
      run size es s (os ++ [.alloc]) = step size es s' .alloc := by
    intro os
    induction os with
    | nil =>
      intro s s' h
      simp only [run, Option.some.injEq] at h
      subst h
      simp only [List.nil_append, run]
      cases step size es s .alloc <;> rfl
    | cons o os ih =>
      intro s s' h
      simp only [List.cons_append, run] at h ⊢
      cases ho : step size es s o with
      | none => rw [ho] at h; simp at h
      | some s1 => rw [ho] at h; exact ih _ _ h
  rw [happ os _ _ h1] at h3
  simp only [step] at h3
  cases ha : alloc size es st with
  | none => rw [ha] at h3; simp at h3
  | some r =>
    obtain ⟨p, st1⟩ := r
    rw [ha] at h3
    simp only [Option.some.injEq, Prod.mk.injEq] at h3
    obtain ⟨rfl, rfl⟩ := h3
    exact ⟨st, used, st1, p, h1, ha, h4 p (by simp), (List.pairwise_cons.mp h5).1⟩

example : (run 40 16 (init, []) [.alloc, .alloc, .alloc, .free 1, .scribble 0 (some ⟨9, 9⟩), .alloc]).map
    (fun s => s.2) = some [⟨0, 16⟩, ⟨1, 0⟩, ⟨0, 0⟩] := by decide

/-- Invariant: every slot is free or in use. -/
structure Full (size es : Nat) (s : State × List Addr) (fl : List Addr) : Prop extends Inv size es s fl where
  all : fl.length + s.2.length = s.1.chunks * (size / es)

theorem step_full {size es : Nat} (hes : 0 < es) (hfit : es ≤ size) {s : State × List Addr}
    {fl : List Addr} (h : Full size es s fl) (o : Op) :
    ∃ s' fl', step size es s o = some s' ∧ Full size es s' fl' ∧
      (s'.1.chunks = s.1.chunks ∨
        s'.1.chunks = s.1.chunks + 1 ∧ s'.2.length = s.1.chunks * (size / es) + 1) := by
  obtain ⟨s', fl', hst, hinv⟩ := step_inv hes hfit h.toInv o
  have hlen : ∀ a b, segF s'.1.link a → segF s'.1.link b → a.head? = b.head? → a.Nodup → a = b := by
    intro a
    induction a with
    | nil => intro b _ _ hh _; cases b with
      | nil => rfl
      | cons x t => cases hh
    | cons x t ih =>
      intro b ha hb hh hn
      cases b with
      | nil => cases hh
      | cons y u =>
        simp only [List.head?_cons, Option.some.injEq] at hh
        subst hh
        rw [ih u ha.2 hb.2 (ha.1.symm.trans hb.1) (List.nodup_cons.1 hn).2]
  cases o with
  | scribble i v =>
    cases hi : s.2[i]? with
    | none =>
      simp only [step, hi, Option.some.injEq] at hst
      subst hst
      exact ⟨s, fl, by simp only [step, hi], h, .inl rfl⟩
    | some p =>
      have hp : p ∈ s.2 := List.mem_of_getElem? hi
      have hfl : segF (fun a => if a = p then v else s.1.link a) fl := by
        apply segF_congr _ h.seg
        intro a ha
        have : a ≠ p := by
          rintro rfl
          exact (List.nodup_append.mp h.nodup).2.2 a ha a hp rfl
        simp [this]
      exact ⟨({ s.1 with link := fun a => if a = p then v else s.1.link a }, s.2), fl,
        by simp only [step, hi], ⟨⟨h.head, hfl, h.nodup, h.slot⟩, h.all⟩, .inl rfl⟩
  | free i =>
    cases hi : s.2[i]? with
    | none =>
      simp only [step, hi, Option.some.injEq] at hst
      subst hst
      exact ⟨s, fl, by simp only [step, hi], h, .inl rfl⟩
    | some p =>
      have hlt : i < s.2.length := (List.getElem?_eq_some_iff.1 hi).1
      simp only [step, hi, Option.some.injEq] at hst
      subst hst
      refine ⟨_, fl', by simp only [step, hi], ⟨hinv, ?_⟩, .inl rfl⟩
      have hfl : fl' = p :: fl := by
        have hnp : p ∉ fl := fun hm =>
          (List.nodup_append.mp h.nodup).2.2 p hm p (List.mem_of_getElem? hi) rfl
        refine hlen _ _ hinv.seg ⟨?_, ?_⟩ (by rw [← hinv.head]; rfl) (List.nodup_append.1 hinv.nodup).1
        · simp [free, h.head]
        · apply segF_congr _ h.seg
          intro a ha
          have : a ≠ p := by rintro rfl; exact hnp ha
          simp [free, this]
      have := h.all
      rw [hfl]
      simp only [List.length_cons, List.length_eraseIdx_of_lt hlt, free]
      omega
  | alloc =>
    cases hfl : fl with
    | cons p t =>
      subst hfl
      have hh : s.1.head = some p := h.head
      simp only [step, alloc, hh, Option.some.injEq] at hst
      subst hst
      refine ⟨_, fl', by simp only [step, alloc, hh], ⟨hinv, ?_⟩, .inl rfl⟩
      have : fl' = t := hlen _ _ hinv.seg h.seg.2 (hinv.head.symm.trans h.seg.1)
        (List.nodup_append.1 hinv.nodup).1
      have h2 := h.all
      simp only [List.length_cons] at h2 ⊢
      rw [this]
      omega
    | nil =>
      subst hfl
      have hh : s.1.head = none := h.head
      have hn : 0 < size / es := Nat.div_pos hfit hes
      have hne : ¬ size / es = 0 := by omega
      simp only [step, alloc, hh, grow, if_neg hne, Option.some.injEq] at hst
      subst hst
      have h2 := h.all
      simp only [List.length_nil, Nat.zero_add] at h2
      refine ⟨_, fl', by simp only [step, alloc, hh, grow, if_neg hne], ⟨hinv, ?_⟩, .inr ⟨rfl, ?_⟩⟩
      · have hseg := segF_newList (size := size) (c := s.1.chunks) hes s.1.link (size / es) 0 rfl
        rw [newList_cons hn] at hseg
        simp only [Nat.zero_mul] at hseg
        have : fl' = newList es s.1.chunks (size / es) 1 :=
          hlen _ _ hinv.seg hseg.2 (hinv.head.symm.trans hseg.1) (List.nodup_append.1 hinv.nodup).1
        rw [this]
        simp only [newList, List.length_map, List.length_range', List.length_cons, Nat.add_mul, h2]
        omega
      · simp only [List.length_cons, h2]

/-- **C27.**  No memory is lost: however elements were allocated, given back and written to, the number
of chunks is the least that holds the largest number of elements ever in use at the same time. -/
theorem C27_no_leak (size es : Nat) (hes : 0 < es) (hfit : es ≤ size) (os : List Op) :
    ∃ st used, run size es (init, []) os = some (st, used) ∧
      (∀ pre, pre <+: os → ∃ st' used', run size es (init, []) pre = some (st', used') ∧
        used'.length ≤ st.chunks * (size / es)) ∧
      ∃ pre, pre <+: os ∧ ∃ st' used', run size es (init, []) pre = some (st', used') ∧
        st.chunks = (used'.length + (size / es - 1)) / (size / es) := by
  have key : ∀ (os : List Op) (s : State × List Addr) fl, Full size es s fl →
      ∃ s', run size es s os = some s' ∧ s.1.chunks ≤ s'.1.chunks ∧
        (∀ pre, pre <+: os → ∃ t, run size es s pre = some t ∧ t.2.length ≤ s'.1.chunks * (size / es)) ∧
        (s'.1.chunks = s.1.chunks ∨ ∃ pre, pre <+: os ∧ ∃ t, run size es s pre = some t ∧
          1 ≤ s'.1.chunks ∧ t.2.length = (s'.1.chunks - 1) * (size / es) + 1) := by
    intro os
    induction os with
    | nil =>
      intro s fl h
      refine ⟨s, rfl, Nat.le_refl _, ?_, .inl rfl⟩
      intro pre hp
      rw [List.prefix_nil.1 hp]
      have := h.all
      exact ⟨s, rfl, by omega⟩
    | cons o os ih =>
      intro s fl h
      obtain ⟨s1, fl1, h1, h2, h3⟩ := step_full hes hfit h o
      obtain ⟨s2, r, hle, ha, hb⟩ := ih s1 fl1 h2
      refine ⟨s2, by simp only [run, h1, r], by omega, ?_, ?_⟩
      · intro pre hp
        cases pre with
        | nil =>
          have := h.all
          have hm : s.1.chunks * (size / es) ≤ s2.1.chunks * (size / es) :=
            Nat.mul_le_mul_right _ (by omega)
          exact ⟨s, rfl, by omega⟩
        | cons x pre =>
          obtain ⟨rfl, hp'⟩ := List.cons_prefix_cons.1 hp
          obtain ⟨t, ht, hl⟩ := ha pre hp'
          exact ⟨t, by simp only [run, h1, ht], hl⟩
      · rcases hb with hb | ⟨pre, hp, t, ht, hl⟩
        · rcases h3 with h3 | ⟨h3, h4⟩
          · exact .inl (by omega)
          · refine .inr ⟨[o], by simp, s1, by simp only [run, h1], by omega, ?_⟩
            rw [h4, hb, h3]; rfl
        · exact .inr ⟨o :: pre, List.cons_prefix_cons.2 ⟨rfl, hp⟩, t, by simp only [run, h1, ht], hl⟩
  have hN : 0 < size / es := Nat.div_pos hfit hes
  obtain ⟨s', r, _, ha, hb⟩ := key os (init, []) [] ⟨inv_init size es, by simp [init]⟩
  refine ⟨s'.1, s'.2, r, fun pre hp => ?_, ?_⟩
  · obtain ⟨t, ht, hl⟩ := ha pre hp
    exact ⟨t.1, t.2, ht, hl⟩
  · rcases hb with hb | ⟨pre, hp, t, ht, h1, hl⟩
    · refine ⟨[], List.nil_prefix, init, [], rfl, ?_⟩
      rw [hb, List.length_nil, Nat.zero_add, Nat.div_eq_of_lt (by omega)]
      rfl
    · refine ⟨pre, hp, t.1, t.2, ht, ?_⟩
      rw [hl, show (s'.1.chunks - 1) * (size / es) + 1 + (size / es - 1) =
        (s'.1.chunks - 1 + 1) * (size / es) by rw [Nat.add_mul]; omega, Nat.mul_div_cancel _ hN]
      omega

example : (run 40 16 (init, []) [.alloc, .alloc, .free 0, .alloc, .free 0, .alloc]).map
    (fun s => s.1.chunks) = some 1 := by decide

/-- The pools of the renderer: a type that fits the default chunk of 8 kB
(pool.h:34,43,69). -/
theorem C27_default (sizeT : Nat) (h : sizeT ≤ 8176) :
    0 < esizeOf sizeT ∧ esizeOf sizeT ≤ chunkSize 8 := by
  unfold esizeOf chunkSize
  split <;> omega

/-- **C27 violated.**  The element size is not checked: with elements larger than
a chunk the very first allocation is undefined. -/
theorem C27_large_violated (size es : Nat) (h : size < es) : alloc size es init = none := by
  have : size / es = 0 := Nat.div_eq_of_lt h
  simp [alloc, init, grow, this]

/-- include/aqsis/util/pool.h:41-46: `m_mem` follows an 8 byte pointer in a
chunk that `new` aligns to 16: the machine address of an element, relative to a
multiple of 16. -/
def machineAddr (a : Addr) : Nat := 8 + a.off

/-- **C27.**  Alignment: elements are aligned to any `al` that divides the
element size and 8. -/
theorem C27_aligned (size es al : Nat) (st : State) (a : Addr) (h : Inside size es st a)
    (h1 : al ∣ es) (h2 : al ∣ 8) : al ∣ machineAddr a := by
  have h3 : es ∣ a.off := Nat.dvd_of_mod_eq_zero h.2.2
  exact Nat.dvd_add h2 (Nat.dvd_trans h1 h3)

/-- **C27 violated.**  Types that want 16 bytes (vector registers) get memory
that is not: the first element of every chunk is at 8 modulo 16. -/
theorem C27_aligned_violated :
    ∃ st p, alloc (chunkSize 8) 32 init = some (p, st) ∧ ¬ 16 ∣ machineAddr p := by
  refine ⟨_, _, rfl, by decide⟩

/-- **C27 violated.**  The links of the free list themselves are misaligned for
element sizes that are not a multiple of 8 (sizeof(T) = 12): the second element
of a chunk keeps its pointer at an address that is not a multiple of 8. -/
theorem C27_link_violated :
    ∃ s p, run (chunkSize 8) (esizeOf 12) (init, []) [.alloc, .alloc] = some s ∧
      s.2.head? = some p ∧ ¬ 8 ∣ machineAddr p := by
  refine ⟨_, _, rfl, rfl, by decide⟩

end Verif.Util.Pool
