import Verif.Shader.StackLemmas

/-! The machine with storage follows the one without: one instruction. -/

namespace Verif.Shader.Stack

variable {V : Type}

/-- The two machines in the middle of an instruction that holds the temporaries `held`. -/
structure Mid (n : Nat) (s : State V) (held : List Nat) (st : List (Item V)) (av : List (Val V)) :
    Prop where
  own : Own s.heap s.pools s.vars (held ++ temps (live s))
  top : s.top ≤ s.stack.length
  stack : List.Forall₂ (Stands n s.heap s.vars) (live s) st
  vars : List.Forall₂ (HoldsV n s.heap) s.vars av

/-- Nothing but storage is different. -/
def Ctl (s s' : State V) : Prop :=
  s'.cur = s.cur ∧ s'.run = s.run ∧ s'.stk = s.stk ∧ s'.vars = s.vars

theorem Ctl.trans {a b c : State V} (h : Ctl a b) (k : Ctl b c) : Ctl a c :=
  ⟨k.1.trans h.1, k.2.1.trans h.2.1, k.2.2.1.trans h.2.2.1, k.2.2.2.trans h.2.2.2⟩

theorem mid_pop {n : Nat} {s : State V} {held : List Nat} {i : Item V} {st : List (Item V)}
    {av : List (Val V)} (h : Mid n s held (i :: st) av) :
    ∃ e s', pop s = some (e, s') ∧ Mid n s' (temps [e] ++ held) st av ∧
      Stands n s'.heap s'.vars e i ∧ s'.heap = s.heap ∧ Ctl s s' := by
  have hs := h.stack
  generalize hl : live s = l at hs
  cases hs with
  | @cons e _ l' _ h1 h2 =>
  obtain ⟨k1, k2, k3, k4, k5⟩ := pop_live s e l' h.top hl
  refine ⟨e, _, k1, ⟨?_, k3, by rw [k2]; exact h2, h.vars⟩, h1, rfl, rfl, rfl, rfl, rfl⟩
  rw [k2]
  refine h.own.perm ?_
  rw [hl, temps_cons, ← List.append_assoc]
  exact List.perm_append_comm.append_right _

theorem mid_result {n : Nat} {s : State V} {held : List Nat} {st : List (Item V)} {av : List (Val V)}
    (E : Env V) (t : Ty) (c : Bool) (h : Mid n s held st av) :
    ∃ p s' d, result E t c s = some (p, s') ∧ Mid n s' (p :: held) st av ∧ Off s.heap s'.heap p ∧
      s'.heap[p]? = some d ∧ d.varying = c ∧ d.vals.length = (if c then E.points else 1) ∧
      (∀ q, q ∈ held ∨ q ∈ s.vars → q ≠ p) ∧ Ctl s s' := by
  obtain ⟨p, hp, ps, d, e, ho, hoff, hlen, hd, hv, hl⟩ := result_spec E t c s _ h.own
  have hpu : p ∉ held ++ temps (live s) := (List.nodup_cons.1 ho.used_nodup).1
  have hpv : p ∉ s.vars := (ho.used_ok p (List.mem_cons_self ..)).2.1
  refine ⟨p, _, d, e, ⟨ho, h.top, ?_, ?_⟩, hoff, hd, hv, hl, ?_, rfl, rfl, rfl, rfl⟩
  · exact stands_off hoff (fun hm => hpu (List.mem_append_right _ hm)) h.stack
  · exact vars_off hoff hpv h.vars
  · rintro q (hq | hq) rfl
    · exact hpu (List.mem_append_left _ hq)
    · exact hpv hq

theorem mid_push {n : Nat} {s : State V} {p : Nat} {held : List Nat} {st : List (Item V)}
    {av : List (Val V)} {d r : Cell V} {v : Val V} (h : Mid n s (p :: held) st av)
    (hd : s.heap[p]? = some d) (hs : Same d r) (hv : HoldsV n (s.heap.set p r) p v) :
    Mid n (push { s with heap := s.heap.set p r } ⟨p, true⟩) held (.val v :: st) av ∧
      Ctl s (push { s with heap := s.heap.set p r } ⟨p, true⟩) := by
  have hpu : p ∉ held ++ temps (live s) := (List.nodup_cons.1 h.own.used_nodup).1
  have hpv : p ∉ s.vars := (h.own.used_ok p (List.mem_cons_self ..)).2.1
  obtain ⟨k1, k2, k3, k4, k5, k6, k7, k8⟩ := push_live { s with heap := s.heap.set p r } ⟨p, true⟩ h.top
  have hlive : live { s with heap := s.heap.set p r } = live s := rfl
  rw [hlive] at k1
  refine ⟨⟨?_, k2, ?_, ?_⟩, k6, k7, k8, k5⟩
  · rw [k3, k4, k5, k1]
    refine (h.own.write (d' := r) hd hs.1 hs.2.1 ?_).perm ?_
    · intro hf
      rw [hs.2.2]
      exact h.own.uniform p d hd (hs.2.1 ▸ hf)
    · rw [temps_cons]
      exact (List.perm_middle (l₁ := held)).symm
  · rw [k3, k5, k1]
    exact .cons ⟨rfl, hv⟩ (stands_off (Off.set _ _ _) (fun hm => hpu (List.mem_append_right _ hm)) h.stack)
  · rw [k3, k5]
    exact vars_off (Off.set _ _ _) hpv h.vars

theorem mid_release {n : Nat} {s : State V} {e : Entry} {held : List Nat} {st : List (Item V)}
    {av : List (Val V)} (h : Mid n s (temps [e] ++ held) st av) :
    ∃ s', release s e = some s' ∧ Mid n s' held st av ∧ Ctl s s' := by
  have ho := h.own
  rw [List.append_assoc] at ho
  obtain ⟨ps, k, hk⟩ := release_spec s e _ ho
  exact ⟨_, k, ⟨hk, h.top, h.stack, h.vars⟩, rfl, rfl, rfl, rfl⟩

/-- An operand is not the result. -/
theorem operand_ne {n : Nat} {h : List (Cell V)} {vars held : List Nat} {e : Entry} {i : Item V} {p : Nat}
    (hs : Stands n h vars e i) (hp : ∀ q, q ∈ held ∨ q ∈ vars → q ≠ p)
    (hh : ∀ q ∈ temps [e], q ∈ held) : e.data ≠ p := by
  cases i with
  | val v => exact hp _ (.inl (hh _ (by simp [temps, hs.1])))
  | ref x => exact hp _ (.inr (List.mem_of_getElem? hs.2))

/-- What a result holds. -/
theorem holds_result {n : Nat} {h : List (Cell V)} {p : Nat} {d r : Cell V} {v : Val V}
    (hd : h[p]? = some d) (hl : d.vals.length = (if d.varying then n else 1)) (hs : Same d r)
    (hw : v.wide = decide (1 < d.vals.length))
    (hg : ∀ i x, i < n → v.at_ i = some x → r.get i = some x) : HoldsV n (h.set p r) p v := by
  have hp : p < h.length := (List.getElem?_eq_some_iff.1 hd).1
  exact ⟨r, by simp [hp], by rw [hs.2.2, hs.2.1]; exact hl, by rw [hs.2.2]; exact hw, hg⟩

/-- The values that operators get from cells. -/
structure Sees (n : Nat) (c : Cell V) (v : Val V) : Prop where
  wide : v.wide = decide (c.size > 1)
  def_ : ∀ i, i < n → (c.get i).isSome
  val : ∀ i x, i < n → v.at_ i = some x → c.get i = some x
  isWide : v.wide = true → c.varying = true ∧ c.size = n ∧ ∀ i, c.vals[i]? = c.get i
  isNarrow : v.wide = false → ∀ i, i < n → c.get i = c.get 0

theorem HoldsV.sees {n : Nat} {h : List (Cell V)} {p : Nat} {v : Val V} (hn : 0 < n)
    (hv : HoldsV n h p v) : ∃ c, h[p]? = some c ∧ Sees n c v := by
  obtain ⟨c, hc, h1, h2, h3, h4, h5, _⟩ := hv.parts hn
  exact ⟨c, hc, h1, h2, h3, h4, h5⟩

theorem op2_spec {n : Nat} (hn : 0 < n) (run : Nat → Bool) (f : V → V → V) {a b r : Cell V}
    {v w : Val V} (ha : Sees n a v) (hb : Sees n b w) (hrv : r.varying = (v.wide || w.wide))
    (hrl : r.vals.length = (if r.varying then n else 1)) :
    ∃ r', op2 run f a b r = some r' ∧ Same r r' ∧ ∀ i, i < n →
      active n run (v.wide || w.wide) i = true →
      r'.get i = (a.get i).bind fun x => (b.get i).map fun y => f x y := by
  unfold op2
  cases hv : v.wide <;> cases hw : w.wide
  · have h1 : ¬ a.size > 1 := by have := ha.wide; rw [hv] at this; simpa using this
    have h2 : ¬ b.size > 1 := by have := hb.wide; rw [hw] at this; simpa using this
    obtain ⟨x, hx⟩ := Option.isSome_iff_exists.1 (ha.def_ 0 hn)
    obtain ⟨y, hy⟩ := Option.isSome_iff_exists.1 (hb.def_ 0 hn)
    refine ⟨r.fill (f x y), ?_, fill_same _ _, fun i hi _ => ?_⟩
    · simp only [h1, h2, hx, hy, and_false, if_false, Option.bind_eq_bind, Option.bind_some]
    · rw [fill_get r _ n hrl i hi, ha.isNarrow hv i hi, hb.isNarrow hw i hi, hx, hy]; rfl
  · have h1 : ¬ a.size > 1 := by have := ha.wide; rw [hv] at this; simpa using this
    have h2 : b.size > 1 := by have := hb.wide; rw [hw] at this; simpa using this.symm
    rw [hv, hw] at hrv
    rw [hrv] at hrl
    obtain ⟨_, hsz, hval⟩ := hb.isWide hw
    obtain ⟨r', e, hs, hg⟩ := loop2_spec run f (fun _ => a.get 0) (fun i => b.vals[i]?) b.size 0 r hrv
      (by rw [hsz]; simp at hrl; omega) (fun j _ hj _ => ⟨ha.def_ 0 hn, by
        show (b.vals[j]?).isSome = true
        rw [hval]; exact hb.def_ j (by omega)⟩)
    refine ⟨r', ?_, hs, fun i hi hact => ?_⟩
    · rw [if_neg (fun h => h1 h.1), if_neg (fun h => h1 h.2), if_pos ⟨h1, h2⟩]; exact e
    · rw [hg i, if_pos ⟨Nat.zero_le _, by omega, by simpa [active_wide] using hact⟩, hval,
        ha.isNarrow hv i hi]
  · have h1 : a.size > 1 := by have := ha.wide; rw [hv] at this; simpa using this.symm
    have h2 : ¬ b.size > 1 := by have := hb.wide; rw [hw] at this; simpa using this
    rw [hv, hw] at hrv
    rw [hrv] at hrl
    obtain ⟨_, hsz, hval⟩ := ha.isWide hv
    obtain ⟨r', e, hs, hg⟩ := loop2_spec run f (fun i => a.vals[i]?) (fun _ => b.get 0) a.size 0 r hrv
      (by rw [hsz]; simp at hrl; omega) (fun j _ hj _ => ⟨by
        show (a.vals[j]?).isSome = true
        rw [hval]; exact ha.def_ j (by omega), hb.def_ 0 hn⟩)
    refine ⟨r', ?_, hs, fun i hi hact => ?_⟩
    · rw [if_neg (fun h => h2 h.2), if_pos ⟨h2, h1⟩]; exact e
    · rw [hg i, if_pos ⟨Nat.zero_le _, by omega, by simpa [active_wide] using hact⟩, hval,
        hb.isNarrow hw i hi]
  · have h1 : a.size > 1 := by have := ha.wide; rw [hv] at this; simpa using this.symm
    have h2 : b.size > 1 := by have := hb.wide; rw [hw] at this; simpa using this.symm
    rw [hv, hw] at hrv
    rw [hrv] at hrl
    obtain ⟨_, hsz, hval⟩ := ha.isWide hv
    obtain ⟨_, hsz', hval'⟩ := hb.isWide hw
    obtain ⟨r', e, hs, hg⟩ := loop2_spec run f (fun i => a.vals[i]?) (fun i => b.vals[i]?) a.size 0 r hrv
      (by rw [hsz]; simp at hrl; omega) (fun j _ hj _ => ⟨by
        show (a.vals[j]?).isSome = true
        rw [hval]; exact ha.def_ j (by omega), by
        show (b.vals[j]?).isSome = true
        rw [hval']; exact hb.def_ j (by omega)⟩)
    refine ⟨r', ?_, hs, fun i hi hact => ?_⟩
    · rw [if_pos ⟨h1, h2⟩]; exact e
    · rw [hg i, if_pos ⟨Nat.zero_le _, by omega, by simpa [active_wide] using hact⟩, hval, hval']

theorem op1_eq (run : Nat → Bool) (f : V → V) (a r : Cell V) :
    op1 run f a r = op2 run (fun x _ => f x) a a r := by
  unfold op1 op2
  by_cases h : a.size > 1
  · rw [if_pos h, if_pos ⟨h, h⟩, loop1_eq]
  · rw [if_neg h, if_neg (fun k => h k.1), if_neg (fun k => h k.2), if_neg (fun k => h k.2)]
    cases a.get 0 <;> rfl

/-- Nothing is known where nothing ran. -/
theorem active_none {n : Nat} {run : Nat → Bool} (h : ¬ someRun n run) (w : Bool) (i : Nat)
    (hi : i < n) : active n run w i = false := by
  cases w with
  | true =>
    rw [active_wide]
    cases hr : run i with
    | false => rfl
    | true => exact absurd ⟨i, hi, hr⟩ h
  | false => simp [active, h]

theorem Sees.small {n : Nat} {c : Cell V} {v : Val V} (h : Sees n c v) (hw : v.wide = true) : 1 < n := by
  have h1 := (h.isWide hw).2.1
  have h2 := h.wide
  rw [hw] at h2
  have h3 : c.size > 1 := by simpa using h2.symm
  omega

theorem Rel.mid {n : Nat} {s : State V} {a : Abs V} (h : Rel n s a) : Mid n s [] a.stack a.vars :=
  ⟨h.own, h.top, h.stack, h.vars⟩

theorem Mid.rel {n : Nat} {s s' : State V} {a : Abs V} {st : List (Item V)} (h : Rel n s a)
    (m : Mid n s' [] st a.vars) (c : Ctl s s') : Rel n s' { a with stack := st } :=
  ⟨m.own, m.top, m.stack, m.vars, c.1.trans h.cur, c.2.1.trans h.run, c.2.2.1.trans h.stk⟩

/-- Push the result `r` of an instruction. -/
theorem Mid.done {n : Nat} {s : State V} {p : Nat} {held : List Nat} {st : List (Item V)}
    {av : List (Val V)} {d r : Cell V} {v : Val V} (h : Mid n s (p :: held) st av)
    (hd : s.heap[p]? = some d) (hl : d.vals.length = (if d.varying then n else 1)) (hs : Same d r)
    (hw : v.wide = decide (1 < d.vals.length))
    (hg : ∀ i x, i < n → v.at_ i = some x → r.get i = some x) :
    Mid n (push { s with heap := s.heap.set p r } ⟨p, true⟩) held (.val v :: st) av ∧
      Ctl s (push { s with heap := s.heap.set p r } ⟨p, true⟩) :=
  mid_push h hd hs (holds_result hd hl hs hw hg)

theorem sim_pushf {E : Env V} {s : State V} {a a' : Abs V} (h : Rel E.points s a)
    (v : V) (ha : a.step E.points E.truth (.pushf v) = some a') :
    ∃ s', step E s (.pushf v) = some s' ∧ Rel E.points s' a' := by
  obtain ⟨p, s1, d, e, m, _, hd, hv, hl, _, c⟩ := mid_result E .float false h.mid
  have hl' : d.vals.length = (if d.varying then E.points else 1) := by rw [hv]; exact hl
  obtain ⟨m', c'⟩ := m.done (v := ⟨false, fun _ => some v⟩) hd hl' (fill_same d v) (by simp [hl])
    (fun i x hi hx => by cases hx; exact fill_get d _ E.points hl' i hi)
  simp only [Abs.step] at ha
  cases ha
  refine ⟨_, ?_, m'.rel h (c.trans c')⟩
  simp only [step, e, hd, Option.bind_eq_bind, Option.bind_some]

theorem sim_pushk {E : Env V} {s : State V} {a a' : Abs V} (h : Rel E.points s a)
    (t : Ty) (v : V) (ha : a.step E.points E.truth (.pushk t v) = some a') :
    ∃ s', step E s (.pushk t v) = some s' ∧ Rel E.points s' a' := by
  obtain ⟨p, s1, d, e, m, _, hd, hv, hl, _, c⟩ := mid_result E t false h.mid
  have hl' : d.vals.length = (if d.varying then E.points else 1) := by rw [hv]; exact hl
  have hrun : s1.run = a.run := c.2.1.trans h.run
  obtain ⟨m', c'⟩ := m.done (v := ⟨false, fun i =>
      if active E.points a.run false i then some v else none⟩) (r := if E.isRunning s1.run then d.fill v else d)
    hd hl' (by split; exact fill_same d v; exact Same.rfl' d) (by simp [hl])
    (fun i x hi hx => by
      dsimp only at hx
      split at hx
      · rename_i hact
        cases hx
        rw [if_pos (by rw [isRunning_iff, hrun]; exact (active_narrow _ _ _).1 hact)]
        exact fill_get d _ E.points hl' i hi
      · cases hx)
  simp only [Abs.step] at ha
  cases ha
  refine ⟨_, ?_, m'.rel h (c.trans c')⟩
  simp only [step, e, hd, Option.bind_eq_bind, Option.bind_some]

theorem sim_pushv {E : Env V} {s : State V} {a a' : Abs V} (h : Rel E.points s a)
    (x : Nat) (ha : a.step E.points E.truth (.pushv x) = some a') :
    ∃ s', step E s (.pushv x) = some s' ∧ Rel E.points s' a' := by
  simp only [Abs.step] at ha
  split at ha
  · rename_i hx
    cases ha
    obtain ⟨p, hp, _⟩ := forall2_get h.vars x _ (List.getElem?_eq_getElem hx)
    obtain ⟨k1, k2, k3, k4, k5, k6, k7, k8⟩ := push_live s ⟨p, false⟩ h.top
    refine ⟨push s ⟨p, false⟩, ?_, ?_⟩
    · simp only [step, hp, Option.bind_eq_bind, Option.bind_some]
    · refine ⟨?_, k2, ?_, ?_, k6.trans h.cur, k7.trans h.run, k8.trans h.stk⟩
      · rw [k3, k4, k5, k1, temps_cons]
        simpa [temps] using h.own
      · rw [k3, k5, k1]
        exact .cons ⟨rfl, hp⟩ h.stack
      · rw [k3, k5]; exact h.vars
  · cases ha

theorem sim_drop {E : Env V} {s : State V} {a a' : Abs V} (h : Rel E.points s a)
    (ha : a.step E.points E.truth .drop = some a') :
    ∃ s', step E s .drop = some s' ∧ Rel E.points s' a' := by
  simp only [Abs.step] at ha
  cases hst : a.stack with
  | nil => rw [hst] at ha; cases ha
  | cons i st =>
    rw [hst] at ha
    cases ha
    have m0 := h.mid
    rw [hst] at m0
    obtain ⟨e, s1, k1, m1, _, _, c1⟩ := mid_pop m0
    obtain ⟨s2, k2, m2, c2⟩ := mid_release m1
    refine ⟨s2, ?_, m2.rel h (c1.trans c2)⟩
    simp only [step, k1, Option.bind_eq_bind, Option.bind_some]
    exact k2

theorem sim_dup {E : Env V} (hn : 0 < E.points) {s : State V} {a a' : Abs V} (h : Rel E.points s a)
    (ha : a.step E.points E.truth .dup = some a') :
    ∃ s', step E s .dup = some s' ∧ Rel E.points s' a' := by
  simp only [Abs.step] at ha
  cases hst : a.stack with
  | nil => rw [hst] at ha; cases ha
  | cons i st =>
    rw [hst] at ha
    dsimp only at ha
    cases hlk : a.look i with
    | none => rw [hlk] at ha; cases ha
    | some v =>
      rw [hlk] at ha
      cases ha
      have hs := h.stack
      generalize hl : live s = l at hs
      rw [hst] at hs
      cases hs with
      | @cons e _ l' _ h1 h2 =>
      obtain ⟨_, _, _, ht0, htop⟩ := pop_live s e l' h.top hl
      have hv := look_holds h1 h.vars hlk
      obtain ⟨c, hc, _, _, hg, _, _, hcl⟩ := hv.parts hn
      have hw : v.wide = decide (1 < c.vals.length) := by
        obtain ⟨c', hc', _, hw, _⟩ := hv
        rw [hc] at hc'; cases hc'; exact hw
      obtain ⟨p, hp, ps, d, ke, ho, hoff, hlen, hd, hty, hvar⟩ :=
        getTemp_spec E.fresh c.ty c.varying s _ h.own
      have hpu : p ∉ temps (live s) := (List.nodup_cons.1 ho.used_nodup).1
      have hpv : p ∉ s.vars := (ho.used_ok p (List.mem_cons_self ..)).2.1
      obtain ⟨q1, q2, q3, q4⟩ := setSize_kind E.fresh c.size d
      have hsz : (d.setSize E.fresh c.size).vals.length = c.vals.length := by
        cases hcv : c.varying with
        | true => exact q3 (hvar.trans hcv)
        | false =>
          rw [q4 (hvar.trans hcv), ho.uniform p d hd (hvar.trans hcv)]
          rw [hcv] at hcl; simpa using hcl.symm
      have hcopy : ∃ r, copyFrom (d.setSize E.fresh c.size) c = some r ∧
          r.ty = d.ty ∧ r.varying = c.varying ∧ r.vals = c.vals := by
        unfold copyFrom
        rw [q2, hvar]
        cases hcv : c.varying with
        | false =>
          rw [hcv] at hcl
          simp at hcl
          match hq : c.vals, hcl with
          | [x], _ =>
            have : c.get 0 = some x := by rw [get_uni hcv, hq]; rfl
            refine ⟨(d.setSize E.fresh c.size).fill x, by simp [this], q1, q2.trans (hvar.trans hcv), ?_⟩
            show List.map (fun _ => x) _ = [x]
            rw [hq] at hsz
            match hq' : (d.setSize E.fresh c.size).vals, hsz with
            | [y], _ => rfl
        | true =>
          rw [hcv] at hcl
          simp at hcl
          by_cases hbig : c.size > 1
          · refine ⟨⟨(d.setSize E.fresh c.size).ty, true, c.vals.take (d.setSize E.fresh c.size).size⟩,
              by rw [if_pos rfl, if_pos hbig, if_pos (by
                show (d.setSize E.fresh c.size).vals.length ≤ c.size
                rw [hsz]; exact Nat.le_refl _)],
              q1, rfl, ?_⟩
            show List.take (d.setSize E.fresh c.size).size c.vals = c.vals
            rw [Cell.size, hsz, List.take_length]
          · have h1' : c.vals.length = 1 := by unfold Cell.size at hbig; omega
            match hq : c.vals, h1' with
            | [x], _ =>
              have : c.get 0 = some x := by rw [get_var hcv, hq]; rfl
              refine ⟨(d.setSize E.fresh c.size).fill x, by simp [hbig, this], q1,
                q2.trans (hvar.trans hcv), ?_⟩
              show List.map (fun _ => x) _ = [x]
              rw [hq] at hsz
              match hq' : (d.setSize E.fresh c.size).vals, hsz with
              | [y], _ => rfl
      obtain ⟨r, hr, hrt, hrv, hrvals⟩ := hcopy
      have hplt : p < hp.length := (List.getElem?_eq_some_iff.1 hd).1
      have ho' : Own (hp.set p r) ps s.vars (p :: temps (live s)) :=
        ho.write hd hrt (hrv.trans hvar.symm) (fun hf => by
          rw [hrvals]; rw [hrv] at hf; rw [hf] at hcl; simpa using hcl)
      have hoff' : Off s.heap (hp.set p r) p := hoff.trans (Off.set hp p r) hlen
      obtain ⟨k1, k2, k3, k4, k5, k6, k7, k8⟩ :=
        push_live { s with heap := hp.set p r, pools := ps } ⟨p, true⟩ h.top
      refine ⟨push { s with heap := hp.set p r, pools := ps } ⟨p, true⟩, ?_, ?_⟩
      · have hplt' : hp[p]? = some d := hd
        simp only [step, topEntry, if_neg ht0, htop, hc, Option.bind_eq_bind, Option.bind_some, ke, hplt', hr]
      · have hlive : live { s with heap := hp.set p r, pools := ps } = live s := rfl
        rw [hlive] at k1
        refine ⟨?_, k2, ?_, ?_, k6.trans h.cur, k7.trans h.run, k8.trans h.stk⟩
        · rw [k3, k4, k5, k1, temps_cons]
          simpa [temps] using ho'
        · rw [k3, k5, k1]
          refine .cons ⟨rfl, r, by simp [hplt], by rw [hrvals, hrv]; exact hcl,
            by rw [hrvals]; exact hw, fun i x hi hx => ?_⟩ ?_
          · have := hg i x hi hx
            unfold Cell.get at this ⊢
            rw [hrv, hrvals]; exact this
          · have := stands_off hoff' hpu h.stack
            rw [hst] at this
            exact this
        · rw [k3, k5]
          exact vars_off hoff' hpv h.vars

theorem sim_un {E : Env V} (hn : 0 < E.points) {s : State V} {a a' : Abs V} (h : Rel E.points s a)
    (t : Ty) (f : V → V) (ha : a.step E.points E.truth (.un t f) = some a') :
    ∃ s', step E s (.un t f) = some s' ∧ Rel E.points s' a' := by
  simp only [Abs.step] at ha
  cases hst : a.stack with
  | nil => rw [hst] at ha; cases ha
  | cons i st =>
    rw [hst] at ha
    dsimp only at ha
    cases hlk : a.look i with
    | none => rw [hlk] at ha; cases ha
    | some v =>
      rw [hlk] at ha
      cases ha
      have m0 := h.mid
      rw [hst] at m0
      obtain ⟨e, s1, k1, m1, hs1, hh1, c1⟩ := mid_pop m0
      have hv := look_holds hs1 m1.vars hlk
      obtain ⟨ca, hca, hsee⟩ := hv.sees hn
      obtain ⟨p, s2, d, k2, m2, hoff, hd, hdv, hdl, hne, c2⟩ := mid_result E t (decide (ca.size > 1)) m1
      have hpe : e.data ≠ p := operand_ne hs1 hne (fun q hq => List.mem_append_left _ hq)
      have hca2 : s2.heap[e.data]? = some ca := by
        rw [hoff _ (List.getElem?_eq_some_iff.1 hca).1 hpe]; exact hca
      have hl' : d.vals.length = (if d.varying then E.points else 1) := by rw [hdv]; exact hdl
      have hrun : s2.run = a.run := c2.2.1.trans (c1.2.1.trans h.run)
      have hdv' : d.varying = (v.wide || v.wide) := by rw [hdv, ← hsee.wide]; simp
      obtain ⟨r, hr, hsr, hg⟩ : ∃ r, runIf (E.isRunning s2.run) (op1 s2.run f ca d) d = some r ∧
          Same d r ∧ ∀ i x, i < E.points →
            (if active E.points a.run v.wide i then (v.at_ i).map f else none) = some x →
            r.get i = some x := by
        unfold runIf
        by_cases hR : someRun E.points s2.run
        · rw [if_pos ((isRunning_iff E _).2 hR), op1_eq]
          obtain ⟨r, hr, hsr, hg⟩ := op2_spec hn s2.run (fun x _ => f x) hsee hsee hdv' hl'
          refine ⟨r, hr, hsr, fun i x hi hx => ?_⟩
          split at hx
          · rename_i hact
            rw [hg i hi (by rw [hrun, Bool.or_self]; exact hact)]
            cases hvi : v.at_ i with
            | none => rw [hvi] at hx; cases hx
            | some y =>
              rw [hvi] at hx
              rw [hsee.val i y hi hvi]
              exact hx
          · cases hx
        · refine ⟨d, by rw [if_neg (fun h => hR ((isRunning_iff E _).1 h))], Same.rfl' d, fun i x hi hx => ?_⟩
          rw [hrun] at hR
          rw [active_none hR _ _ hi] at hx
          simp at hx
      have hw : v.wide = decide (1 < d.vals.length) := by
        cases hvw : v.wide with
        | true =>
          have := hsee.small hvw
          rw [hdv', hvw] at hl'
          simp at hl'
          simp; omega
        | false =>
          rw [hdv', hvw] at hl'
          simp at hl'
          simp; omega
      obtain ⟨m3, c3⟩ := m2.done (v := ⟨v.wide, fun i =>
        if active E.points a.run v.wide i then (v.at_ i).map f else none⟩) hd hl' hsr hw hg
      obtain ⟨s4, k4, m4, c4⟩ := mid_release m3
      refine ⟨s4, ?_, m4.rel h ((c1.trans c2).trans (c3.trans c4))⟩
      simp only [step, k1, hca, k2, hca2, hd, hr, Option.bind_eq_bind, Option.bind_some]
      exact k4

theorem sim_bin {E : Env V} (hn : 0 < E.points) {s : State V} {a a' : Abs V} (h : Rel E.points s a)
    (t : Ty) (f : V → V → V) (ha : a.step E.points E.truth (.bin t f) = some a') :
    ∃ s', step E s (.bin t f) = some s' ∧ Rel E.points s' a' := by
  simp only [Abs.step] at ha
  match hst : a.stack with
  | [] => rw [hst] at ha; cases ha
  | [_] => rw [hst] at ha; cases ha
  | i :: j :: st =>
    rw [hst] at ha
    dsimp only at ha
    cases hlk : a.look i with
    | none => rw [hlk] at ha; cases ha
    | some v =>
    cases hlk' : a.look j with
    | none => rw [hlk, hlk'] at ha; cases ha
    | some w =>
      rw [hlk, hlk'] at ha
      simp only [Option.bind_eq_bind, Option.bind_some] at ha
      cases ha
      have m0 := h.mid
      rw [hst] at m0
      obtain ⟨e, s1, k1, m1, hs1, hh1, c1⟩ := mid_pop m0
      obtain ⟨e', s1', k1', m1', hs1', hh1', c1'⟩ := mid_pop m1
      have hs1 : Stands E.points s1'.heap s1'.vars e i := by rw [hh1', c1'.2.2.2]; exact hs1
      have hv := look_holds hs1 m1'.vars hlk
      have hv' := look_holds hs1' m1'.vars hlk'
      obtain ⟨ca, hca, hsee⟩ := hv.sees hn
      obtain ⟨cb, hcb, hsee'⟩ := hv'.sees hn
      obtain ⟨p, s2, d, k2, m2, hoff, hd, hdv, hdl, hne, c2⟩ :=
        mid_result E t (decide (ca.size > 1) || decide (cb.size > 1)) m1'
      have hpe : e.data ≠ p := operand_ne hs1 hne
        (fun q hq => List.mem_append_right _ (List.mem_append_left _ hq))
      have hpe' : e'.data ≠ p := operand_ne hs1' hne (fun q hq => List.mem_append_left _ hq)
      have hca2 : s2.heap[e.data]? = some ca := by
        rw [hoff _ (List.getElem?_eq_some_iff.1 hca).1 hpe]; exact hca
      have hcb2 : s2.heap[e'.data]? = some cb := by
        rw [hoff _ (List.getElem?_eq_some_iff.1 hcb).1 hpe']; exact hcb
      have hl' : d.vals.length = (if d.varying then E.points else 1) := by rw [hdv]; exact hdl
      have hrun : s2.run = a.run := c2.2.1.trans (c1'.2.1.trans (c1.2.1.trans h.run))
      have hdv' : d.varying = (v.wide || w.wide) := by rw [hdv, ← hsee.wide, ← hsee'.wide]
      obtain ⟨r, hr, hsr, hg⟩ : ∃ r, runIf (E.isRunning s2.run) (op2 s2.run f ca cb d) d = some r ∧
          Same d r ∧ ∀ i x, i < E.points →
            (if active E.points a.run (v.wide || w.wide) i then
              (v.at_ i).bind fun x => (w.at_ i).map fun y => f x y else none) = some x →
            r.get i = some x := by
        unfold runIf
        by_cases hR : someRun E.points s2.run
        · rw [if_pos ((isRunning_iff E _).2 hR)]
          obtain ⟨r, hr, hsr, hg⟩ := op2_spec hn s2.run f hsee hsee' hdv' hl'
          refine ⟨r, hr, hsr, fun i x hi hx => ?_⟩
          split at hx
          · rename_i hact
            rw [hg i hi (by rw [hrun]; exact hact)]
            cases hvi : v.at_ i with
            | none => rw [hvi] at hx; cases hx
            | some y =>
              cases hwi : w.at_ i with
              | none => rw [hvi, hwi] at hx; cases hx
              | some z =>
                rw [hvi, hwi] at hx
                rw [hsee.val i y hi hvi, hsee'.val i z hi hwi]
                exact hx
          · cases hx
        · refine ⟨d, by rw [if_neg (fun h => hR ((isRunning_iff E _).1 h))], Same.rfl' d, fun i x hi hx => ?_⟩
          rw [hrun] at hR
          rw [active_none hR _ _ hi] at hx
          simp at hx
      have hw : (v.wide || w.wide) = decide (1 < d.vals.length) := by
        cases hvw : (v.wide || w.wide) with
        | true =>
          have : 1 < E.points := by
            rcases (Bool.or_eq_true _ _).mp hvw with h | h
            · exact hsee.small h
            · exact hsee'.small h
          rw [hdv', hvw] at hl'
          simp at hl'
          simp; omega
        | false =>
          rw [hdv', hvw] at hl'
          simp at hl'
          simp; omega
      obtain ⟨m3, c3⟩ := m2.done (v := ⟨v.wide || w.wide, fun i =>
        if active E.points a.run (v.wide || w.wide) i then
              (v.at_ i).bind fun x => (w.at_ i).map fun y => f x y else none⟩) hd hl' hsr hw hg
      obtain ⟨s4, k4, m4, c4⟩ := mid_release m3
      obtain ⟨s5, k5, m5, c5⟩ := mid_release m4
      refine ⟨s5, ?_, m5.rel h (((c1.trans c1').trans c2).trans (c3.trans (c4.trans c5)))⟩
      simp only [step, k1, k1', hca, hcb, k2, hca2, hcb2, hd, hr, Option.bind_eq_bind, Option.bind_some, k4]
      exact k5

theorem sim_merge {E : Env V} (hn : 0 < E.points) {s : State V} {a a' : Abs V} (h : Rel E.points s a)
    (t : Ty) (ha : a.step E.points E.truth (.merge t) = some a') :
    ∃ s', step E s (.merge t) = some s' ∧ Rel E.points s' a' := by
  simp only [Abs.step] at ha
  match hst : a.stack with
  | [] => rw [hst] at ha; cases ha
  | [_] => rw [hst] at ha; cases ha
  | [_, _] => rw [hst] at ha; cases ha
  | i :: j :: k :: st =>
    rw [hst] at ha
    dsimp only at ha
    cases hlk : a.look i with
    | none => rw [hlk] at ha; cases ha
    | some vf =>
    cases hlk' : a.look j with
    | none => rw [hlk, hlk'] at ha; cases ha
    | some vt =>
    cases hlk'' : a.look k with
    | none => rw [hlk, hlk', hlk''] at ha; cases ha
    | some vc =>
      rw [hlk, hlk', hlk''] at ha
      simp only [Option.bind_eq_bind, Option.bind_some] at ha
      cases ha
      have m0 := h.mid
      rw [hst] at m0
      obtain ⟨e, s1, k1, m1, hs1, hh1, c1⟩ := mid_pop m0
      obtain ⟨e', s1', k1', m1', hs1', hh1', c1'⟩ := mid_pop m1
      obtain ⟨e'', s1'', k1'', m1'', hs1'', hh1'', c1''⟩ := mid_pop m1'
      have hs1 : Stands E.points s1''.heap s1''.vars e i := by
        rw [hh1'', c1''.2.2.2, hh1', c1'.2.2.2]; exact hs1
      have hs1' : Stands E.points s1''.heap s1''.vars e' j := by rw [hh1'', c1''.2.2.2]; exact hs1'
      obtain ⟨cf, hcf, seef⟩ := (look_holds hs1 m1''.vars hlk).sees hn
      obtain ⟨ct, hct, seet⟩ := (look_holds hs1' m1''.vars hlk').sees hn
      obtain ⟨cc, hcc, seec⟩ := (look_holds hs1'' m1''.vars hlk'').sees hn
      obtain ⟨p, s2, d, k2, m2, hoff, hd, hdv, hdl, hne, c2⟩ := mid_result E t true m1''
      have hpe : e.data ≠ p := operand_ne hs1 hne
        (fun q hq => List.mem_append_right _ (List.mem_append_right _ (List.mem_append_left _ hq)))
      have hpe' : e'.data ≠ p := operand_ne hs1' hne
        (fun q hq => List.mem_append_right _ (List.mem_append_left _ hq))
      have hpe'' : e''.data ≠ p := operand_ne hs1'' hne (fun q hq => List.mem_append_left _ hq)
      have hcf2 : s2.heap[e.data]? = some cf := by
        rw [hoff _ (List.getElem?_eq_some_iff.1 hcf).1 hpe]; exact hcf
      have hct2 : s2.heap[e'.data]? = some ct := by
        rw [hoff _ (List.getElem?_eq_some_iff.1 hct).1 hpe']; exact hct
      have hcc2 : s2.heap[e''.data]? = some cc := by
        rw [hoff _ (List.getElem?_eq_some_iff.1 hcc).1 hpe'']; exact hcc
      have hl' : d.vals.length = (if d.varying then E.points else 1) := by rw [hdv]; exact hdl
      have hl'' : d.vals.length = E.points := by simpa using hdl
      have hrun : s2.run = a.run := c2.2.1.trans (c1''.2.1.trans (c1'.2.1.trans (c1.2.1.trans h.run)))
      obtain ⟨r, hr, hsr, hg⟩ : ∃ r, runIf (E.isRunning s2.run)
            (mergeLoop E.truth cc ct cf E.points 0 d) d = some r ∧
          Same d r ∧ ∀ i x, i < E.points →
            (if active E.points a.run false i then
              (vc.at_ i).bind fun c => if E.truth c then vt.at_ i else vf.at_ i else none) = some x →
            r.get i = some x := by
        unfold runIf
        by_cases hR : someRun E.points s2.run
        · rw [if_pos ((isRunning_iff E _).2 hR)]
          obtain ⟨r, hr, hsr, hg⟩ := mergeLoop_spec E.truth cc ct cf E.points 0 d hdv (by omega)
            (fun q _ hq => ⟨seec.def_ q (by omega), seet.def_ q (by omega), seef.def_ q (by omega)⟩)
          refine ⟨r, hr, hsr, fun i x hi hx => ?_⟩
          split at hx
          · have hc : 0 ≤ i ∧ i < 0 + E.points := ⟨Nat.zero_le _, by omega⟩
            rw [hg i, if_pos hc]
            cases hvc : vc.at_ i with
            | none => rw [hvc] at hx; cases hx
            | some y =>
              rw [hvc] at hx
              rw [seec.val i y hi hvc]
              simp only [Option.bind_some] at hx ⊢
              split at hx
              · rename_i hty
                rw [if_pos hty]; exact seet.val i x hi hx
              · rename_i hty
                rw [if_neg hty]; exact seef.val i x hi hx
          · cases hx
        · refine ⟨d, by rw [if_neg (fun h => hR ((isRunning_iff E _).1 h))], Same.rfl' d, fun i x hi hx => ?_⟩
          rw [hrun] at hR
          rw [active_none hR _ _ hi] at hx
          simp at hx
      obtain ⟨m3, c3⟩ := m2.done (v := ⟨decide (1 < E.points), fun i =>
        if active E.points a.run false i then
          (vc.at_ i).bind fun c => if E.truth c then vt.at_ i else vf.at_ i else none⟩) hd hl' hsr
          (by rw [hl'']) hg
      obtain ⟨s4, k4, m4, c4⟩ := mid_release m3
      obtain ⟨s5, k5, m5, c5⟩ := mid_release m4
      obtain ⟨s6, k6, m6, c6⟩ := mid_release m5
      refine ⟨s6, ?_, m6.rel h ((((c1.trans c1').trans c1'').trans c2).trans
        (c3.trans (c4.trans (c5.trans c6))))⟩
      simp only [step, k1, k1', k1'', k2, hcf2, hct2, hcc2, hd, hr, Option.bind_eq_bind, Option.bind_some,
        k4, k5]
      exact k6

end Verif.Shader.Stack
