import Verif.Util.IntrusiveList
import Mathlib.Data.List.Nodup
import Mathlib.Tactic.Tauto
/-
C26: linking and unlinking keeps forward and backward links consistent.
-/
namespace Verif.Util.IList

/-- Spec: along `l` every entry leads to the one after it, the last to `e`. -/
def seg (lk : Nat → Option Nat) : List Nat → Option Nat → Prop
  | [], _ => True
  | x :: t, e => lk x = t.head?.or e ∧ seg lk t e

/-- Spec: `l` is a complete chain: read forwards it is `l`, read backwards it is
`l` reversed. -/
def Chain (st : St) (l : List Nat) : Prop :=
  l.Nodup ∧ seg st.next l none ∧ seg st.prev l.reverse none

theorem head_append (b : List Nat) (c : List Nat) (e : Option Nat) :
    (b ++ c).head?.or e = b.head?.or (c.head?.or e) := by
  cases b <;> simp

theorem seg_append (lk) (a b : List Nat) (e) :
    seg lk (a ++ b) e ↔ seg lk a (b.head?.or e) ∧ seg lk b e := by
  induction a with
  | nil => simp [seg]
  | cons x a ih => simp only [List.cons_append, seg, ih, head_append, and_assoc]

theorem seg_upd (lk) (k v) (l : List Nat) (e) (hk : k ∉ l) :
    seg (upd lk k v) l e ↔ seg lk l e := by
  induction l with
  | nil => simp [seg]
  | cons x l ih =>
    simp only [List.mem_cons, not_or] at hk
    have : x ≠ k := fun h => hk.1 h.symm
    simp [seg, ih hk.2, upd, this]

theorem seg_updO (lk) (k v) (l : List Nat) (e) (hk : ∀ y, k = some y → y ∉ l) :
    seg (updO lk k v) l e ↔ seg lk l e := by
  cases k with
  | none => rfl
  | some k => exact seg_upd lk k v l e (hk k rfl)

/-- Redirecting the end of a segment. -/
theorem seg_upd_last (lk) (l : List Nat) (t : Nat) (v e : Option Nat) (ht : t ∉ l)
    (h : seg lk (l ++ [t]) e) : seg (upd lk t v) (l ++ [t]) v := by
  rw [seg_append] at h ⊢
  refine ⟨?_, by simp [seg, upd]⟩
  rw [seg_upd _ _ _ _ _ ht]
  simpa using h.1

theorem walk_seg (lk) : ∀ (l : List Nat) (x fuel : Nat), seg lk (x :: l) none → l.length < fuel →
    walk lk fuel x = some ((x :: l).getLast (by simp)) := by
  intro l
  induction l with
  | nil =>
    intro x fuel h hf
    cases fuel with
    | zero => omega
    | succ f => simp [seg] at h; simp [walk, h]
  | cons y l ih =>
    intro x fuel h hf
    cases fuel with
    | zero => omega
    | succ f =>
      have h1 : lk x = some y := by simpa using h.1
      simp only [walk, h1]
      rw [ih y f h.2 (by simpa using hf)]
      simp

theorem getLast?_rev_head (a : List Nat) : a.reverse.head? = a.getLast? := by simp

/-- A chain split at an entry: what is before and after. -/
theorem chain_mid {st : St} {a d : List Nat} {x : Nat} (h : Chain st (a ++ x :: d)) :
    (a ++ x :: d).Nodup ∧ seg st.next a (some x) ∧ st.next x = d.head? ∧ seg st.next d none ∧
    seg st.prev d.reverse (some x) ∧ st.prev x = a.getLast? ∧ seg st.prev a.reverse none := by
  obtain ⟨h1, h2, h3⟩ := h
  rw [seg_append] at h2
  simp only [List.reverse_append, List.reverse_cons, List.append_assoc] at h3
  rw [seg_append, seg_append] at h3
  obtain ⟨h4, h5, h6⟩ := h2
  obtain ⟨h7, h8, h9⟩ := h3
  refine ⟨h1, by simpa using h4, by simpa using h5, h6, by simpa using h7, ?_, h9⟩
  simpa [seg] using h8.1

theorem chain_mk {st : St} {a d : List Nat} {x : Nat} (h1 : (a ++ x :: d).Nodup)
    (h4 : seg st.next a (some x)) (h5 : st.next x = d.head?) (h6 : seg st.next d none)
    (h7 : seg st.prev d.reverse (some x)) (h8 : st.prev x = a.getLast?)
    (h9 : seg st.prev a.reverse none) : Chain st (a ++ x :: d) := by
  refine ⟨h1, ?_, ?_⟩
  · rw [seg_append]
    exact ⟨by simpa using h4, by simpa using h5, h6⟩
  · simp only [List.reverse_append, List.reverse_cons, List.append_assoc]
    rw [seg_append, seg_append]
    exact ⟨by simpa using h7, by simpa [seg] using h8, h9⟩

theorem getLast?_mem' {l : List Nat} {y : Nat} (h : l.getLast? = some y) : y ∈ l :=
  List.mem_of_getLast? h

/-- Cutting a chain before an entry. -/
theorem seg_cut (nx : Nat → Option Nat) (a : List Nat) (x : Nat) (hn : a.Nodup)
    (h : seg nx a (some x)) : seg (updO nx a.getLast? none) a none := by
  rcases List.eq_nil_or_concat a with rfl | ⟨l, t, rfl⟩
  · trivial
  · simp only [List.concat_eq_append] at hn h ⊢
    simp only [List.getLast?_append, List.getLast?_singleton, Option.some_or, updO]
    apply seg_upd_last _ _ _ _ _ _ h
    intro hm
    rw [List.nodup_append] at hn
    exact hn.2.2 _ hm t (by simp) rfl

/-- The links after `LinkAfter`, computed on chains. -/
theorem linkAfter_links {st : St} {a d b c : List Nat} {x p : Nat}
    (hA : Chain st (a ++ x :: d)) (hB : Chain st (b ++ p :: c))
    (hdis : ∀ y ∈ a ++ x :: d, y ∉ b ++ p :: c) (fuel : Nat) (hf : d.length < fuel) :
    ∃ st', linkAfter fuel st x (some p) = .ok st' ∧
      st'.next = upd (upd (updO st.next a.getLast? none) ((x :: d).getLast (by simp)) c.head?) p
        (some x) ∧
      st'.prev = upd (updO (upd st.prev x none) c.head? (some x)) x (some p) ∧
      st'.invalid = st.invalid := by
  obtain ⟨n1, a1, a2, a3, a4, a5, a6⟩ := chain_mid hA
  obtain ⟨n2, b1, b2, b3, b4, b5, b6⟩ := chain_mid hB
  have hxp : x ≠ p := fun h => hdis x (by simp) (by simp [h])
  have hlast : ∀ y, a.getLast? = some y → y ∈ a := fun y hy => getLast?_mem' hy
  have hnx0p : updO st.next (st.prev x) none p = c.head? := by
    rw [a5]
    cases hl : a.getLast? with
    | none => exact b2
    | some y =>
      have : p ≠ y := fun h => hdis y (by simp [hlast y hl]) (by simp [h])
      simp [updO, upd, this, b2]
  have hseg : seg (updO st.next (st.prev x) none) (x :: d) none := by
    rw [seg_updO]
    · exact ⟨by simpa using a2, a3⟩
    · intro y hy hm
      rw [a5] at hy
      rw [List.nodup_append] at n1
      exact n1.2.2 y (hlast y hy) y hm rfl
  have hw := walk_seg _ d x fuel hseg hf
  have htail : (x :: d).getLast (by simp) ∈ x :: d := List.getLast_mem _
  generalize ht : (x :: d).getLast (by simp) = tail at *
  simp only [linkAfter, hw, hnx0p]
  have hxnew : upd (updO (upd st.prev x none) c.head? (some x)) x (some p) x = some p := by
    simp [upd]
  rw [hxnew]
  have hnew : upd (upd (updO st.next (st.prev x) none) tail c.head?) p (some x) x ≠ some p := by
    simp only [upd, if_neg hxp]
    have hpc : ∀ y, c.head? = some y → y ≠ p := by
      intro y hy h
      rw [List.nodup_append] at n2
      have := (List.nodup_cons.mp n2.2.1).1
      exact this (h ▸ List.mem_of_head? hy)
    split
    · intro h; exact hpc p h rfl
    · rw [hseg.1]
      intro h
      have : p ∈ d := by
        apply List.mem_of_head?
        simpa using h
      exact hdis p (by simp [this]) (by simp)
  rw [if_neg (fun h => hnew h.1.symm)]
  exact ⟨_, rfl, by rw [a5], rfl, rfl⟩

/-- The forward links are right whatever the chains. -/
theorem linkAfter_forward {st st' : St} {a d b c : List Nat} {x p : Nat}
    (hA : Chain st (a ++ x :: d)) (hB : Chain st (b ++ p :: c))
    (hdis : ∀ y ∈ a ++ x :: d, y ∉ b ++ p :: c) (fuel : Nat) (hf : d.length < fuel)
    (h : linkAfter fuel st x (some p) = .ok st') :
    seg st'.next a none ∧ seg st'.next (b ++ p :: x :: d ++ c) none := by
  obtain ⟨st1, h1, hn, hp, _⟩ := linkAfter_links hA hB hdis fuel hf
  rw [h1] at h
  injection h with h
  subst h
  obtain ⟨n1, a1, a2, a3, a4, a5, a6⟩ := chain_mid hA
  obtain ⟨n2, b1, b2, b3, b4, b5, b6⟩ := chain_mid hB
  have hlast : ∀ y, a.getLast? = some y → y ∈ a := fun y hy => getLast?_mem' hy
  have htail : (x :: d).getLast (by simp) ∈ x :: d := List.getLast_mem _
  have na : a.Nodup := (List.nodup_append.mp n1).1
  have nxd : (x :: d).Nodup := (List.nodup_append.mp n1).2.1
  have hax : ∀ y ∈ a, y ∉ x :: d := fun y hy hm => (List.nodup_append.mp n1).2.2 y hy y hm rfl
  have nb := (List.nodup_append.mp n2).1
  have npc := (List.nodup_append.mp n2).2.1
  have hbp : ∀ y ∈ b, y ∉ p :: c := fun y hy hm => (List.nodup_append.mp n2).2.2 y hy y hm rfl
  rw [hn]
  constructor
  · rw [seg_upd _ _ _ _ _ (fun hm => hdis p (by simp [hm]) (by simp)),
      seg_upd _ _ _ _ _ (fun hm => hax _ hm htail)]
    exact seg_cut st.next a x na a1
  · rw [show b ++ p :: x :: d ++ c = b ++ (p :: ((x :: d) ++ c)) by simp, seg_append]
    refine ⟨?_, ?_, ?_⟩
    · rw [seg_upd _ _ _ _ _ (fun hm => hbp p hm (by simp)),
        seg_upd _ _ _ _ _ (fun hm => hdis _ (List.mem_append.mpr (Or.inr htail)) (List.mem_append.mpr (Or.inl hm))),
        seg_updO _ _ _ _ _ (fun y hy hm => hdis y (by simp [hlast y hy]) (by simp [hm]))]
      simpa using b1
    · simp [upd]
    · rw [seg_upd _ _ _ _ _ (by
        intro hm
        rcases List.mem_append.mp hm with hm | hm
        · exact hdis p (List.mem_append.mpr (Or.inr hm)) (by simp)
        · exact (List.nodup_cons.mp npc).1 hm), seg_append]
      refine ⟨?_, ?_⟩
      · have hs0 : seg (updO st.next a.getLast? none) (x :: d) none := by
          rw [seg_updO _ _ _ _ _ (fun y hy hm => hax y (hlast y hy) hm)]
          exact ⟨by simpa using a2, a3⟩
        rw [show c.head?.or none = c.head? by simp]
        have hd := List.dropLast_concat_getLast (l := x :: d) (by simp)
        have hnot : (x :: d).getLast (by simp) ∉ (x :: d).dropLast := by
          intro hm
          rw [← hd] at nxd
          exact (List.nodup_append.mp nxd).2.2 _ hm _ (by simp) rfl
        have := seg_upd_last (updO st.next a.getLast? none) (x :: d).dropLast
          ((x :: d).getLast (by simp)) c.head? none hnot (by rw [hd]; exact hs0)
        rwa [hd] at this
      · rw [seg_upd _ _ _ _ _ (fun hm => hdis _ (List.mem_append.mpr (Or.inr htail)) (by simp [hm])),
          seg_updO _ _ _ _ _ (fun y hy hm => hdis y (by simp [hlast y hy]) (by simp [hm]))]
        exact b3

theorem nodup_after {a d b c : List Nat} {x p : Nat} (n1 : (a ++ x :: d).Nodup)
    (n2 : (b ++ p :: c).Nodup) (hdis : ∀ y ∈ a ++ x :: d, y ∉ b ++ p :: c) :
    (b ++ p :: x :: d ++ c).Nodup := by
  have h : (b ++ p :: x :: d ++ c).Perm ((x :: d) ++ (b ++ p :: c)) := by
    have e1 : (b ++ p :: x :: d ++ c) = (b ++ [p]) ++ ((x :: d) ++ c) := by simp
    have e2 : ((x :: d) ++ (b ++ p :: c)) = (x :: d) ++ ((b ++ [p]) ++ c) := by simp
    rw [e1, e2]
    have := (List.perm_append_comm (l₁ := b ++ [p]) (l₂ := x :: d)).append_right c
    simpa [List.append_assoc] using this
  rw [h.nodup_iff, List.nodup_append]
  refine ⟨(List.nodup_append.mp n1).2.1, n2, ?_⟩
  intro y hy z hz hyz
  exact hdis y (List.mem_append.mpr (Or.inr hy)) (hyz ▸ hz)

/-- **C26, partial.**  Linking an entry `x` after an entry `p` of another chain
cuts `x` and what follows it off its chain and puts it between `p` and what
followed `p`, the links staying consistent both ways, provided `x` has nothing
after it or `p` has nothing after it.  Missing: a chain of several entries put
in the middle of another one, see `C26_chain_violated`. -/
theorem C26_link_after_partial {st : St} {a d b c : List Nat} {x p : Nat}
    (hA : Chain st (a ++ x :: d)) (hB : Chain st (b ++ p :: c))
    (hdis : ∀ y ∈ a ++ x :: d, y ∉ b ++ p :: c) (hcase : d = [] ∨ c = [])
    (fuel : Nat) (hf : d.length < fuel) :
    ∃ st', linkAfter fuel st x (some p) = .ok st' ∧ Chain st' a ∧
      Chain st' (b ++ p :: x :: d ++ c) ∧ st'.invalid = st.invalid ∧
      (∀ l, Chain st l → (∀ y ∈ l, y ∉ a ++ x :: d ∧ y ∉ b ++ p :: c) → Chain st' l) := by
  obtain ⟨st', h1, hn, hp, hi⟩ := linkAfter_links hA hB hdis fuel hf
  obtain ⟨f1, f2⟩ := linkAfter_forward hA hB hdis fuel hf h1
  obtain ⟨n1, a1, a2, a3, a4, a5, a6⟩ := chain_mid hA
  obtain ⟨n2, b1, b2, b3, b4, b5, b6⟩ := chain_mid hB
  have hax : ∀ y ∈ a, y ∉ x :: d := fun y hy hm => (List.nodup_append.mp n1).2.2 y hy y hm rfl
  have npc := (List.nodup_append.mp n2).2.1
  have hbp : ∀ y ∈ b, y ∉ p :: c := fun y hy hm => (List.nodup_append.mp n2).2.2 y hy y hm rfl
  have nxd := List.nodup_cons.mp (List.nodup_append.mp n1).2.1
  have hcm : ∀ y, c.head? = some y → y ∈ c := fun y hy => List.mem_of_head? hy
  -- a segment of `prev` that avoids `x` and the head of `c` is as before
  have keep : ∀ (l : List Nat) (e : Option Nat), x ∉ l → (∀ y, c.head? = some y → y ∉ l) →
      (seg st'.prev l e ↔ seg st.prev l e) := by
    intro l e hx hc
    rw [hp, seg_upd _ _ _ _ _ hx, seg_updO _ _ _ _ _ hc, seg_upd _ _ _ _ _ hx]
  refine ⟨st', h1, ⟨(List.nodup_append.mp n1).1, f1, ?_⟩,
    ⟨nodup_after n1 n2 hdis, f2, ?_⟩, hi, ?_⟩
  · rw [keep]
    · exact a6
    · intro hm; exact hax x (by simpa using hm) (by simp)
    · intro y hy hm
      exact hdis y (by simp at hm; simp [hm]) (by simp [hcm y hy])
  · rw [show (b ++ p :: x :: d ++ c).reverse =
      c.reverse ++ (d.reverse ++ ([x] ++ ([p] ++ b.reverse))) by simp]
    have hseg_b : seg st'.prev ([p] ++ b.reverse) none := by
      rw [keep]
      · exact ⟨by simpa using b5, b6⟩
      · intro hm; exact hdis x (by simp) (by simp at hm; rcases hm with h | h <;> simp [h])
      · intro y hy hm
        have hyc := hcm y hy
        simp only [List.singleton_append, List.mem_cons, List.mem_reverse] at hm
        rcases hm with h | h
        · exact (List.nodup_cons.mp npc).1 (h ▸ hyc)
        · exact hbp y h (by simp [hyc])
    have hseg_x : seg st'.prev ([x] ++ ([p] ++ b.reverse)) none := by
      refine ⟨?_, hseg_b⟩
      rw [hp]; simp [upd]
    have hseg_d : seg st'.prev (d.reverse ++ ([x] ++ ([p] ++ b.reverse))) none := by
      rw [seg_append]
      refine ⟨?_, hseg_x⟩
      rw [keep]
      · simpa using a4
      · intro hm; exact nxd.1 (by simpa using hm)
      · intro y hy hm
        exact hdis y (by simp at hm; simp [hm]) (by simp [hcm y hy])
    rw [seg_append]
    refine ⟨?_, hseg_d⟩
    cases hc : c with
    | nil => trivial
    | cons y t =>
      rcases hcase with rfl | h0
      · -- the entry after `p` gets `x` as previous
        have hyx : y ≠ x := fun h => hdis x (by simp) (by simp [hc, h])
        have hyt : y ∉ t := by
          rw [hc] at npc
          exact (List.nodup_cons.mp (List.nodup_cons.mp npc).2).1
        simp only [List.reverse_cons]
        rw [seg_append]
        refine ⟨?_, ?_⟩
        · rw [keep]
          · rw [hc] at b4
            simp only [List.reverse_cons] at b4
            rw [seg_append] at b4
            exact b4.1
          · intro hm; exact hdis x (by simp) (by simp at hm; simp [hc, hm])
          · intro z hz hm
            rw [hc] at hz
            simp at hz hm
            exact hyt (hz ▸ hm)
        · rw [hp, hc]
          simp [seg, upd, updO, hyx]
      · rw [hc] at h0; simp at h0
  · rintro l ⟨l1, l2, l3⟩ hl
    refine ⟨l1, ?_, ?_⟩
    · rw [hn, seg_upd _ _ _ _ _ (fun hm => (hl p hm).2 (by simp)),
        seg_upd _ _ _ _ _ (fun hm => (hl _ hm).1
          (List.mem_append.mpr (Or.inr (List.getLast_mem _)))),
        seg_updO _ _ _ _ _ (fun y hy hm => (hl y hm).1
          (List.mem_append.mpr (Or.inl (getLast?_mem' hy))))]
      exact l2
    · rw [keep]
      · exact l3
      · intro hm; exact (hl x (by simpa using hm)).1 (by simp)
      · intro y hy hm; exact (hl y (by simpa using hm)).2 (by simp [hcm y hy])

/-- Exchanging the two directions. -/
def flip (st : St) : St := { st with prev := st.next, next := st.prev }

theorem chain_flip (st : St) (l : List Nat) : Chain (flip st) l ↔ Chain st l.reverse := by
  unfold Chain flip
  simp only [List.reverse_reverse, List.nodup_reverse]
  constructor <;> rintro ⟨h1, h2, h3⟩ <;> exact ⟨h1, h3, h2⟩

def Res.flip : Res → Res
  | .ok st => .ok (IList.flip st)
  | r => r

/-- `LinkBefore` is `LinkAfter` in the mirror. -/
theorem linkBefore_flip (fuel : Nat) (st : St) (x : Nat) (n : Option Nat) :
    linkBefore fuel st x n = (linkAfter fuel (flip st) x n).flip := by
  cases n with
  | none => rfl
  | some n =>
    simp only [linkBefore, linkAfter, flip]
    cases walk (updO st.prev (st.next x) none) fuel x with
    | none => rfl
    | some t =>
      simp only
      have key : ∀ (u v : Option Nat) (a b : St), b = IList.flip a →
          (if u = v ∧ v ≠ none then Res.assertFails else Res.ok b) =
          (if v = u ∧ u ≠ none then Res.assertFails else Res.ok a).flip := by
        rintro u v a b rfl
        by_cases h : u = v
        · subst h
          by_cases h2 : u = none <;> simp [h2, Res.flip]
        · have h' : ¬ v = u := fun e => h e.symm
          simp [h, h', Res.flip]
      exact key _ _ _ _ rfl

/-- **C26, partial.**  `LinkBefore`, with the same restriction. -/
theorem C26_link_before_partial {st : St} {a d b c : List Nat} {x n : Nat}
    (hA : Chain st (d ++ x :: a)) (hB : Chain st (c ++ n :: b))
    (hdis : ∀ y ∈ d ++ x :: a, y ∉ c ++ n :: b) (hcase : d = [] ∨ c = [])
    (fuel : Nat) (hf : d.length < fuel) :
    ∃ st', linkBefore fuel st x (some n) = .ok st' ∧ Chain st' a ∧
      Chain st' (c ++ d ++ x :: n :: b) ∧ st'.invalid = st.invalid ∧
      (∀ l, Chain st l → (∀ y ∈ l, y ∉ d ++ x :: a ∧ y ∉ c ++ n :: b) → Chain st' l) := by
  have hA' : Chain (flip st) (a.reverse ++ x :: d.reverse) := by
    rw [chain_flip]; simpa using hA
  have hB' : Chain (flip st) (b.reverse ++ n :: c.reverse) := by
    rw [chain_flip]; simpa using hB
  obtain ⟨st', h1, h2, h3, h4, h5⟩ := C26_link_after_partial hA' hB' (by
      intro y hy hm
      exact hdis y (by simp at hy ⊢; tauto) (by simp at hm ⊢; tauto)) (by simpa using hcase)
    fuel (by simpa using hf)
  have hrev : ∀ l, Chain (flip st') l.reverse ↔ Chain st' l := by
    intro l; rw [chain_flip]; simp
  refine ⟨flip st', by rw [linkBefore_flip, h1]; rfl, ?_, ?_, h4, ?_⟩
  · rw [chain_flip]; exact h2
  · rw [chain_flip]; simpa using h3
  · intro l hl hd
    rw [chain_flip]
    apply h5
    · rw [chain_flip]; simpa using hl
    · intro y hy
      have := hd y (by simpa using hy)
      simp at this ⊢
      tauto

/-- **C26.**  `UnLink` takes an entry out of its chain and closes the gap. -/
theorem C26_unlink {st : St} {a d : List Nat} {x : Nat} (h : Chain st (a ++ x :: d)) :
    Chain (unLink st x) (a ++ d) ∧ Chain (unLink st x) [x] ∧
    (∀ l, Chain st l → (∀ y ∈ l, y ∉ a ++ x :: d) → Chain (unLink st x) l) := by
  obtain ⟨n1, a1, a2, a3, a4, a5, a6⟩ := chain_mid h
  have na := (List.nodup_append.mp n1).1
  have nxd := List.nodup_cons.mp (List.nodup_append.mp n1).2.1
  have hax : ∀ y ∈ a, y ∉ x :: d := fun y hy hm => (List.nodup_append.mp n1).2.2 y hy y hm rfl
  have hxa : x ∉ a := fun hm => hax x hm (by simp)
  have hda : ∀ y ∈ d, y ∉ a := fun y hy hm => hax y hm (by simp [hy])
  have hhd : ∀ y, d.head? = some y → y ∈ d := fun y hy => List.mem_of_head? hy
  have hla : ∀ y, a.getLast? = some y → y ∈ a := fun y hy => getLast?_mem' hy
  have hpv0 : updO st.prev d.head? (st.prev x) x = a.getLast? := by
    cases hh : d.head? with
    | none => exact a5
    | some y =>
      have : x ≠ y := fun h => nxd.1 (h ▸ hhd y hh)
      simp [updO, upd, this, a5]
  have hnext : (unLink st x).next = upd (updO st.next a.getLast? d.head?) x none := by
    simp only [unLink, a2, hpv0]
  have hprev : (unLink st x).prev = upd (updO st.prev d.head? a.getLast?) x none := by
    simp only [unLink, a2, a5]
  -- redirecting the last entry of a segment
  have redirect : ∀ (lk : Nat → Option Nat) (l : List Nat) (e v : Option Nat), l.Nodup →
      seg lk l e → seg (updO lk l.getLast? v) l v := by
    intro lk l e v hn hs
    rcases List.eq_nil_or_concat l with rfl | ⟨l', t, rfl⟩
    · trivial
    · simp only [List.concat_eq_append] at hn hs ⊢
      simp only [List.getLast?_append, List.getLast?_singleton, Option.some_or, updO]
      apply seg_upd_last _ _ _ _ _ _ hs
      intro hm
      exact (List.nodup_append.mp hn).2.2 _ hm t (by simp) rfl
  refine ⟨⟨?_, ?_, ?_⟩, ⟨by simp, ?_, ?_⟩, ?_⟩
  · exact n1.sublist (List.Sublist.append_left (List.sublist_cons_self x d) a)
  · rw [hnext, seg_append, seg_upd _ _ _ _ _ hxa, seg_upd _ _ _ _ _ nxd.1]
    refine ⟨?_, ?_⟩
    · have := redirect st.next a (some x) d.head? na a1
      simpa using this
    · rw [seg_updO _ _ _ _ _ (fun y hy hm => hda y hm (hla y hy))]
      exact a3
  · rw [hprev, List.reverse_append, seg_append, seg_upd _ _ _ _ _ (by simpa using nxd.1),
      seg_upd _ _ _ _ _ (by simpa using hxa)]
    refine ⟨?_, ?_⟩
    · have := redirect st.prev d.reverse (some x) a.getLast? (List.nodup_reverse.mpr nxd.2) a4
      simpa using this
    · rw [seg_updO _ _ _ _ _ (fun y hy hm => hda y (hhd y hy) (by simpa using hm))]
      exact a6
  · rw [hnext]; simp [seg, upd]
  · rw [hprev]; simp [seg, upd]
  · rintro l ⟨l1, l2, l3⟩ hdis
    have hx : x ∉ l := fun hm => hdis x hm (by simp)
    refine ⟨l1, ?_, ?_⟩
    · rw [hnext, seg_upd _ _ _ _ _ hx, seg_updO _ _ _ _ _ (fun y hy hm => hdis y hm (by simp [hla y hy]))]
      exact l2
    · rw [hprev, seg_upd _ _ _ _ _ (by simpa using hx),
        seg_updO _ _ _ _ _ (fun y hy hm => hdis y (by simpa using hm) (by simp [hhd y hy]))]
      exact l3

example : ∃ st', linkAfter 5 fresh 7 (some 9) = .ok st' ∧ Chain st' [9, 7] := by
  obtain ⟨st', h1, _, h3, _⟩ := C26_link_after_partial (st := fresh) (a := []) (d := []) (b := [])
    (c := []) (x := 7) (p := 9) ⟨by simp, by simp [seg, fresh], by simp [seg, fresh]⟩
    ⟨by simp, by simp [seg, fresh], by simp [seg, fresh]⟩ (by simp) (Or.inl rfl) 5 (by simp)
  exact ⟨st', h1, h3⟩

/-- **C26 violated.**  Whenever a chain of several entries is put in the middle
of another chain, the entry after it gets the first entry of the chain as its
previous one: the list cannot be read backwards any more. -/
theorem C26_chain_violated {st : St} {a d b c : List Nat} {x p : Nat}
    (hA : Chain st (a ++ x :: d)) (hB : Chain st (b ++ p :: c))
    (hdis : ∀ y ∈ a ++ x :: d, y ∉ b ++ p :: c) (hd : d ≠ []) (hc : c ≠ [])
    (fuel : Nat) (hf : d.length < fuel) :
    ∃ st', linkAfter fuel st x (some p) = .ok st' ∧
      seg st'.next (b ++ p :: x :: d ++ c) none ∧ ¬ Chain st' (b ++ p :: x :: d ++ c) := by
  obtain ⟨st', h1, hn, hp, hi⟩ := linkAfter_links hA hB hdis fuel hf
  refine ⟨st', h1, (linkAfter_forward hA hB hdis fuel hf h1).2, ?_⟩
  rintro ⟨g1, g2, g3⟩
  obtain ⟨y, t, rfl⟩ : ∃ y t, c = y :: t := by cases c with
    | nil => exact absurd rfl hc
    | cons y t => exact ⟨y, t, rfl⟩
  rcases List.eq_nil_or_concat d with rfl | ⟨d', z, rfl⟩
  · exact hd rfl
  · have hyx : y ≠ x := fun h => hdis x (by simp) (by simp [h])
    have e : (b ++ p :: x :: (d' ++ [z]) ++ y :: t).reverse =
        t.reverse ++ (y :: (z :: (d'.reverse ++ ([x] ++ ([p] ++ b.reverse))))) := by simp
    rw [List.concat_eq_append, e, seg_append] at g3
    have h4 := g3.2.1
    rw [hp] at h4
    simp [upd, updO, hyx] at h4
    have hm := (List.nodup_append.mp (chain_mid hA).1).2.1
    rw [List.nodup_cons] at hm
    exact hm.1 (by simp [h4])

/-- The state with the chains 2, 3 and 4, 5. -/
def twoChains : St :=
  { prev := fun i => if i = 3 then some 2 else if i = 5 then some 4 else none
    next := fun i => if i = 2 then some 3 else if i = 4 then some 5 else none
    invalid := fun _ => false }

/-- **C26 violated**, concretely: linking 2 (with 3 after it) after 4 (with 5
after it) reads 4, 2, 3, 5 forwards and 5, 2, 4 backwards. -/
theorem C26_violated : Chain twoChains [2, 3] ∧ Chain twoChains [4, 5] ∧
    ∃ st', linkAfter 9 twoChains 2 (some 4) = .ok st' ∧
      collect st'.next st'.invalid 9 (some 4) = [4, 2, 3, 5] ∧
      collect st'.prev st'.invalid 9 (some 5) = [5, 2, 4] := by
  refine ⟨⟨by simp, by simp [seg, twoChains], by simp [seg, twoChains]⟩,
    ⟨by simp, by simp [seg, twoChains], by simp [seg, twoChains]⟩, _, rfl, by decide, by decide⟩

/-! ### Histories -/

/-- Spec: what an operation does to the list of entries. -/
def specStep (es : List Nat) : Op → List Nat
  | .linkFirst x => x :: es
  | .linkLast x => es ++ [x]
  | .linkAfter x p => es.flatMap (fun e => if e = p then [p, x] else [e])
  | .linkBefore x n => es.flatMap (fun e => if e = n then [x, n] else [e])
  | .unLink x => es.filter (· != x)

/-- Spec: entries are linked when they are in no list, next to entries that are
in the list; only entries of the list are unlinked.  0 and 1 are the place
holders. -/
def Legal (es : List Nat) : Op → Prop
  | .linkFirst x => 2 ≤ x ∧ x ∉ es
  | .linkLast x => 2 ≤ x ∧ x ∉ es
  | .linkAfter x p => 2 ≤ x ∧ x ∉ es ∧ p ∈ es
  | .linkBefore x n => 2 ≤ x ∧ x ∉ es ∧ n ∈ es
  | .unLink x => x ∈ es

def LegalAll : List Nat → List Op → Prop
  | _, [] => True
  | es, o :: os => Legal es o ∧ LegalAll (specStep es o) os

/-- The state of a list with the entries `es`, all other entries being free. -/
def IsList (st : St) (es : List Nat) : Prop :=
  Chain st (H :: es ++ [T]) ∧ (∀ x, 2 ≤ x → x ∉ es → Chain st [x]) ∧
    (∀ x, st.invalid x = true ↔ x < 2)

theorem flatMap_id (es : List Nat) (p : Nat) (f : Nat → List Nat) (h : p ∉ es) :
    es.flatMap (fun e => if e = p then f e else [e]) = es := by
  induction es with
  | nil => rfl
  | cons a es ih =>
    simp only [List.mem_cons, not_or] at h
    have : a ≠ p := fun e => h.1 e.symm
    simp [this, ih h.2]

theorem isList_ge2 {st : St} {es : List Nat} (h : IsList st es) : ∀ e ∈ es, 2 ≤ e := by
  intro e he
  have n := h.1.1
  simp only [List.cons_append, List.nodup_cons, List.nodup_append, List.mem_append] at n
  have h0 : e ≠ 0 := fun h0 => n.1 (Or.inl (by rw [H, ← h0]; exact he))
  have h1 : e ≠ 1 := fun h1 => n.2.2.2 e he T (by simp) h1
  omega

/-- Linking a free entry after an entry of the list or the head holder. -/
theorem link_after_list {st : St} {b c : List Nat} {x p : Nat} (es es' : List Nat)
    (h : IsList st es) (hx : 2 ≤ x) (hxe : x ∉ es) (e : H :: es ++ [T] = b ++ p :: c)
    (e' : H :: es' ++ [T] = b ++ p :: x :: c) (hes : ∀ y, y ∈ es' ↔ y = x ∨ y ∈ es)
    (fuel : Nat) (hf : 0 < fuel) :
    ∃ st', linkAfter fuel st x (some p) = .ok st' ∧ IsList st' es' := by
  obtain ⟨h1, h2, h3⟩ := h
  have hxf := h2 x hx hxe
  have hnot : x ∉ b ++ p :: c := by
    rw [← e]
    simp only [List.cons_append, List.mem_cons, List.mem_append, List.not_mem_nil, or_false,
      H, T, not_or]
    exact ⟨by omega, hxe, by omega⟩
  obtain ⟨st', g1, g2, g3, g4, g5⟩ := C26_link_after_partial (a := []) (d := []) (b := b) (c := c)
    (p := p) (by simpa using hxf) (e ▸ h1)
    (by intro y hy; simp at hy; exact hy ▸ hnot) (Or.inl rfl) fuel hf
  refine ⟨st', g1, ?_, ?_, ?_⟩
  · rw [e']; simpa using g3
  · intro y hy hye
    rw [hes, not_or] at hye
    apply g5 [y] (h2 y hy hye.2)
    intro z hz
    have hz := List.mem_singleton.mp hz
    subst hz
    refine ⟨by simpa using hye.1, ?_⟩
    rw [← e]
    simp only [List.cons_append, List.mem_cons, List.mem_append, List.not_mem_nil, or_false,
      H, T, not_or]
    exact ⟨by omega, hye.2, by omega⟩
  · rw [g4]; exact h3

theorem link_before_list {st : St} {b c : List Nat} {x n : Nat} (es es' : List Nat)
    (h : IsList st es) (hx : 2 ≤ x) (hxe : x ∉ es) (e : H :: es ++ [T] = c ++ n :: b)
    (e' : H :: es' ++ [T] = c ++ x :: n :: b) (hes : ∀ y, y ∈ es' ↔ y = x ∨ y ∈ es)
    (fuel : Nat) (hf : 0 < fuel) :
    ∃ st', linkBefore fuel st x (some n) = .ok st' ∧ IsList st' es' := by
  obtain ⟨h1, h2, h3⟩ := h
  have hxf := h2 x hx hxe
  have hnot : x ∉ c ++ n :: b := by
    rw [← e]
    simp only [List.cons_append, List.mem_cons, List.mem_append, List.not_mem_nil, or_false,
      H, T, not_or]
    exact ⟨by omega, hxe, by omega⟩
  obtain ⟨st', g1, g2, g3, g4, g5⟩ := C26_link_before_partial (a := []) (d := []) (b := b) (c := c)
    (n := n) (by simpa using hxf) (e ▸ h1)
    (by intro y hy; simp at hy; exact hy ▸ hnot) (Or.inl rfl) fuel hf
  refine ⟨st', g1, ?_, ?_, ?_⟩
  · rw [e']; simpa using g3
  · intro y hy hye
    rw [hes, not_or] at hye
    apply g5 [y] (h2 y hy hye.2)
    intro z hz
    have hz := List.mem_singleton.mp hz
    subst hz
    refine ⟨by simpa using hye.1, ?_⟩
    rw [← e]
    simp only [List.cons_append, List.mem_cons, List.mem_append, List.not_mem_nil, or_false,
      H, T, not_or]
    exact ⟨by omega, hye.2, by omega⟩
  · rw [g4]; exact h3

theorem isList_nodup {st : St} {es : List Nat} (h : IsList st es) : es.Nodup := by
  have n := h.1.1
  simp only [List.cons_append, List.nodup_cons, List.nodup_append] at n
  exact n.2.1

/-- One legal operation does to the list what the spec says. -/
theorem C26_step {st : St} {es : List Nat} (h : IsList st es) (o : Op) (ho : Legal es o)
    (fuel : Nat) (hf : 0 < fuel) :
    ∃ st', step fuel st o = .ok st' ∧ IsList st' (specStep es o) := by
  have hn := isList_nodup h
  cases o with
  | linkFirst x =>
    exact link_after_list (b := []) (c := es ++ [T]) es _ h ho.1 ho.2 (by simp) (by simp [specStep])
      (by simp [specStep]) fuel hf
  | linkLast x =>
    exact link_before_list (c := H :: es) (b := []) es _ h ho.1 ho.2 (by simp)
      (by simp [specStep]) (by simp [specStep]; tauto) fuel hf
  | linkAfter x p =>
    obtain ⟨hx, hxe, hp⟩ := ho
    obtain ⟨u, v, rfl⟩ := List.append_of_mem hp
    have nu : p ∉ u := fun hm => (List.nodup_append.mp hn).2.2 p hm p (by simp) rfl
    have nv : p ∉ v := (List.nodup_cons.mp (List.nodup_append.mp hn).2.1).1
    have e : specStep (u ++ p :: v) (.linkAfter x p) = u ++ p :: x :: v := by
      simp [specStep, flatMap_id u p (fun _ => [p, x]) nu, flatMap_id v p (fun _ => [p, x]) nv]
    rw [e]
    exact link_after_list (b := H :: u) (c := v ++ [T]) _ _ h hx hxe (by simp) (by simp)
      (by simp; tauto) fuel hf
  | linkBefore x p =>
    obtain ⟨hx, hxe, hp⟩ := ho
    obtain ⟨u, v, rfl⟩ := List.append_of_mem hp
    have nu : p ∉ u := fun hm => (List.nodup_append.mp hn).2.2 p hm p (by simp) rfl
    have nv : p ∉ v := (List.nodup_cons.mp (List.nodup_append.mp hn).2.1).1
    have e : specStep (u ++ p :: v) (.linkBefore x p) = u ++ x :: p :: v := by
      simp [specStep, flatMap_id u p (fun _ => [x, p]) nu, flatMap_id v p (fun _ => [x, p]) nv]
    rw [e]
    exact link_before_list (c := H :: u) (b := v ++ [T]) _ _ h hx hxe (by simp) (by simp)
      (by simp; tauto) fuel hf
  | unLink x =>
    have hx2 := isList_ge2 h x ho
    obtain ⟨u, v, rfl⟩ := List.append_of_mem ho
    have nu : x ∉ u := fun hm => (List.nodup_append.mp hn).2.2 x hm x (by simp) rfl
    have nv : x ∉ v := (List.nodup_cons.mp (List.nodup_append.mp hn).2.1).1
    have e : specStep (u ++ x :: v) (.unLink x) = u ++ v := by
      simp only [specStep, List.filter_append, List.filter_cons]
      rw [List.filter_eq_self.mpr (by intro y hy; simp; rintro rfl; exact nu hy),
        List.filter_eq_self.mpr (by intro y hy; simp; rintro rfl; exact nv hy)]
      simp
    rw [e]
    obtain ⟨h1, h2, h3⟩ := h
    have hch : Chain st ((H :: u) ++ x :: (v ++ [T])) := by simpa using h1
    obtain ⟨g1, g2, g3⟩ := C26_unlink hch
    refine ⟨_, rfl, by simpa using g1, ?_, h3⟩
    intro y hy hye
    by_cases hyx : y = x
    · rw [hyx]; exact g2
    · simp only [List.mem_append, not_or] at hye
      apply g3 [y] (h2 y hy (by simp [hye, hyx]))
      intro z hz
      have hz := List.mem_singleton.mp hz
      subst hz
      simp only [List.cons_append, List.mem_cons, List.mem_append, List.not_mem_nil, or_false,
        H, T, not_or]
      exact ⟨by omega, hye.1, hyx, hye.2, by omega⟩

theorem newList_ok : ∃ st, newList = .ok st ∧ IsList st [] := by
  refine ⟨_, rfl, ⟨by simp [H, T], by simp [seg, upd, updO, H, T, fresh], ?_⟩, ?_, ?_⟩
  · simp [seg, upd, updO, H, T, fresh]
  · intro x hx _
    have h0 : x ≠ 0 := by omega
    have h1 : x ≠ 1 := by omega
    exact ⟨by simp, by simp [seg, upd, updO, H, T, fresh, h0, h1],
      by simp [seg, upd, updO, H, T, fresh, h1]⟩
  · intro x
    by_cases h0 : x = 0
    · simp [upd, H, T, h0]
    · by_cases h1 : x = 1
      · simp [upd, H, T, h1]
      · simp [upd, H, T, h0, h1, fresh]; omega

theorem follow_valid (lk : Nat → Option Nat) (inv : Nat → Bool) (fuel x : Nat) (o : Option Nat)
    (h1 : lk x = o) (h2 : ∀ y, o = some y → inv y = false) :
    follow lk inv (fuel + 1) x = o := by
  subst h1
  unfold follow
  cases h : lk x with
  | none => rfl
  | some y => simp [h2 y h]

theorem collect_seg (lk : Nat → Option Nat) (inv : Nat → Bool) (e : Nat) (he : lk e = none)
    (hie : inv e = true) : ∀ (es : List Nat) (x fuel : Nat), seg lk (x :: es) (some e) →
    (∀ y ∈ es, inv y = false) → es.length < fuel →
    collect lk inv fuel (some x) = x :: es := by
  intro es
  induction es with
  | nil =>
    intro x fuel hs _ hf
    cases fuel with
    | zero => omega
    | succ fuel =>
      have h1 : lk x = some e := by simpa [seg] using hs
      simp only [collect, follow, h1, hie, if_true, he]
      cases fuel <;> rfl
  | cons y es ih =>
    intro x fuel hs hi hf
    cases fuel with
    | zero => omega
    | succ fuel =>
      have h1 : lk x = some y := by simpa [seg] using hs.1
      have h2 : follow lk inv 2 x = some y := by
        simp [follow, h1, hi y (by simp)]
      simp only [collect, h2]
      rw [ih y fuel hs.2 (fun z hz => hi z (by simp [hz])) (by simpa using hf)]

/-- Reading a list forwards gives its entries in order. -/
theorem C26_read_forward {st : St} {es : List Nat} (h : IsList st es) (fuel : Nat)
    (hf : es.length < fuel) : collect st.next st.invalid fuel (pFirst 2 st) = es := by
  obtain ⟨⟨n, h1, h2⟩, h3, h4⟩ := h
  have hT : st.next T = none := by
    rw [seg_append] at h1
    simpa [seg] using h1.2.1
  have hge := isList_ge2 ⟨⟨n, h1, h2⟩, h3, h4⟩
  have hv : ∀ y ∈ es, st.invalid y = false := by
    intro y hy
    have := hge y hy
    cases hi : st.invalid y
    · rfl
    · have := (h4 y).mp hi; omega
  cases es with
  | nil =>
    have hH : st.next H = some T := by simpa [seg] using h1.1
    have : pFirst 2 st = none := by
      simp [pFirst, follow, hH, (h4 T).mpr (by decide), hT]
    rw [this]
    cases fuel <;> rfl
  | cons x es =>
    have hH : st.next H = some x := by simpa [seg] using h1.1
    have hp : pFirst 2 st = some x := by
      have hx := hge x (by simp)
      have hxT : x ≠ T := by simp only [T]; omega
      simp [pFirst, follow, hH, hv x (by simp), hxT]
    rw [hp]
    have hs : seg st.next (x :: es) (some T) := by
      have := h1.2
      rw [List.append_eq, seg_append] at this
      simpa using this.1
    exact collect_seg _ _ T hT ((h4 T).mpr (by decide)) es x fuel hs
      (fun y hy => hv y (by simp [hy])) (by simpa using Nat.lt_of_succ_lt hf)

/-- Reading a list backwards from its tail holder gives its entries in reverse
order. -/
theorem C26_read_backward {st : St} {es : List Nat} (h : IsList st es) (fuel : Nat)
    (hf : es.length < fuel) :
    collect st.prev st.invalid fuel (follow st.prev st.invalid 2 T) = es.reverse := by
  obtain ⟨⟨n, h1, h2⟩, h3, h4⟩ := h
  have hge := isList_ge2 ⟨⟨n, h1, h2⟩, h3, h4⟩
  have hv : ∀ y ∈ es, st.invalid y = false := by
    intro y hy
    have := hge y hy
    cases hi : st.invalid y
    · rfl
    · have := (h4 y).mp hi; omega
  rw [show (H :: es ++ [T]).reverse = T :: (es.reverse ++ [H]) by simp] at h2
  have hH : st.prev H = none := by
    have := h2.2
    rw [seg_append] at this
    simpa [seg] using this.2.1
  have hv' : ∀ y ∈ es.reverse, st.invalid y = false := by simpa using hv
  have hf' : es.reverse.length < fuel := by simpa using hf
  clear hv hge n h1 hf
  generalize es.reverse = r at *
  cases r with
  | nil =>
    have hT : st.prev T = some H := by simpa [seg] using h2.1
    have : follow st.prev st.invalid 2 T = none := by
      simp [follow, hT, (h4 H).mpr (by decide), hH]
    rw [this]
    cases fuel <;> rfl
  | cons x r =>
    have hT : st.prev T = some x := by simpa [seg] using h2.1
    have hp : follow st.prev st.invalid 2 T = some x := by simp [follow, hT, hv' x (by simp)]
    rw [hp]
    have hs : seg st.prev (x :: r) (some H) := by
      have := h2.2
      rw [seg_append] at this
      simpa using this.1
    exact collect_seg _ _ H hH ((h4 H).mpr (by decide)) r x fuel hs
      (fun y hy => hv' y (by simp [hy])) (by simpa using Nat.lt_of_succ_lt hf')

/-- **C26.**  After any history of legal operations on single entries, the list
read forwards is what the operations say, and read backwards the reverse of
it. -/
theorem C26_history (os : List Op) (hl : LegalAll [] os) (fuel : Nat) (hf : 0 < fuel) :
    ∃ st0 st, newList = .ok st0 ∧ runOps fuel st0 os = .ok st ∧
      ∀ k, (os.foldl specStep []).length < k →
        collect st.next st.invalid k (pFirst 2 st) = os.foldl specStep [] ∧
        collect st.prev st.invalid k (follow st.prev st.invalid 2 T) =
          (os.foldl specStep []).reverse := by
  obtain ⟨st0, h0, h1⟩ := newList_ok
  have H' : ∀ (os : List Op) (st : St) (es : List Nat), IsList st es → LegalAll es os →
      ∃ st', runOps fuel st os = .ok st' ∧ IsList st' (os.foldl specStep es) := by
    intro os
    induction os with
    | nil => intro st es h _; exact ⟨st, rfl, h⟩
    | cons o os ih =>
      intro st es h hl
      obtain ⟨st1, g1, g2⟩ := C26_step h o hl.1 fuel hf
      obtain ⟨st2, g3, g4⟩ := ih st1 _ g2 hl.2
      exact ⟨st2, by simp [runOps, g1, g3], g4⟩
  obtain ⟨st, g1, g2⟩ := H' os st0 [] h1 hl
  exact ⟨st0, st, h0, g1, fun k hk => ⟨C26_read_forward g2 k hk, C26_read_backward g2 k hk⟩⟩

example : LegalAll [] [.linkFirst 2, .linkLast 3, .linkAfter 4 2, .unLink 2, .linkBefore 2 3] ∧
    [Op.linkFirst 2, .linkLast 3, .linkAfter 4 2, .unLink 2, .linkBefore 2 3].foldl specStep [] =
      [4, 2, 3] := by
  refine ⟨by simp [LegalAll, Legal, specStep], by decide⟩

end Verif.Util.IList
