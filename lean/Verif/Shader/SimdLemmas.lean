import Verif.Shader.SimdSpec
import Mathlib.Tactic.SplitIfs

/-!
Lemmas for the property on varying control flow.
-/

namespace Verif.Shader.Simd

variable {V : Type} {n : Nat}

/-! ## Programs -/

/-- The code at a position. -/
def At (prog : List (Instr V)) (pc : Nat) (code : List (Instr V)) : Prop :=
  ∃ pre post, prog = pre ++ (code ++ post) ∧ pre.length = pc

theorem At.app {prog : List (Instr V)} {pc a b} (h : At prog pc (a ++ b)) :
    At prog pc a ∧ At prog (pc + a.length) b := by
  obtain ⟨pre, post, h, hl⟩ := h
  exact ⟨⟨pre, b ++ post, by rw [h]; simp, hl⟩, ⟨pre ++ a, post, by rw [h]; simp, by simp [hl]⟩⟩

theorem At.cons {prog : List (Instr V)} {pc i b} (h : At prog pc (i :: b)) :
    At prog pc [i] ∧ At prog (pc + 1) b := h.app (a := [i])

theorem At.get {prog : List (Instr V)} {pc i b} (h : At prog pc (i :: b)) : prog[pc]? = some i := by
  obtain ⟨pre, post, h, hl⟩ := h
  rw [h, ← hl]; simp

/-- The labels of a program. -/
def labels : List (Instr V) → List Nat
  | [] => []
  | .label l :: r => l :: labels r
  | _ :: r => labels r

theorem labels_append (a b : List (Instr V)) : labels (a ++ b) = labels a ++ labels b := by
  induction a with
  | nil => rfl
  | cons i a ih => cases i <;> simp [labels, ih]

theorem labelPos_none (prog : List (Instr V)) : ∀ k l, l ∉ labels prog → labelPos prog k l = none := by
  induction prog with
  | nil => intros; rfl
  | cons i r ih =>
    intro k l h
    have hr : l ∉ labels r := by
      intro hm; apply h; cases i <;> simp [labels, hm]
    cases i <;> simp_all [labels, labelPos]
    intro e; exact h e.symm

theorem labelPos_at (pre post : List (Instr V)) (l : Nat) : ∀ k, l ∉ labels post →
    labelPos (pre ++ .label l :: post) k l = some (k + pre.length) := by
  induction pre with
  | nil =>
    intro k h
    rw [List.nil_append, labelPos, labelPos_none _ _ _ h]; simp
  | cons i r ih =>
    intro k h
    cases i <;> simp [labelPos, ih _ h] <;> omega

theorem At.label {prog : List (Instr V)} {pc l b} (h : At prog pc (.label l :: b))
    (hn : (labels prog).Nodup) : labelPos prog 0 l = some pc := by
  obtain ⟨pre, post, h, hl⟩ := h
  rw [h, List.cons_append, labelPos_at]
  · simp [hl]
  · rw [h, labels_append, List.cons_append, labels] at hn
    have := (List.nodup_append.1 hn).2.1
    exact (List.nodup_cons.1 this).1

/-- The labels of the code for a statement are those between the two numbers, each once. -/
theorem compE_labels (e : Expr V) : labels (compE e) = [] := by
  induction e with
  | const v => rfl
  | var x => rfl
  | un f a ih => simp [compE, labels_append, ih, labels]
  | bin f a b iha ihb => simp [compE, labels_append, iha, ihb, labels]
  | cond c a b ihc iha ihb => simp [compE, labels_append, ihc, iha, ihb, labels]

theorem compInc_labels (inc : Option (Nat × Expr V)) : labels (compInc inc) = [] := by
  cases inc <;> simp [compInc, labels_append, compE_labels, labels]

theorem compS_labels (s : Stmt V) : ∀ ds l code l', compS s ds l = some (code, l') →
    l ≤ l' ∧ (∀ x ∈ labels code, l ≤ x ∧ x < l') ∧ (labels code).Nodup := by
  induction s with
  | assign x e =>
    intro ds l code l' h
    simp only [compS, Option.some.injEq, Prod.mk.injEq] at h
    obtain ⟨rfl, rfl⟩ := h
    simp [labels_append, compE_labels, labels]
  | expr e =>
    intro ds l code l' h
    simp only [compS, Option.some.injEq, Prod.mk.injEq] at h
    obtain ⟨rfl, rfl⟩ := h
    simp [labels_append, compE_labels, labels]
  | seq a b iha ihb =>
    intro ds l code l' h
    simp only [compS, Option.bind_eq_some_iff, Option.map_eq_some_iff, Prod.mk.injEq] at h
    obtain ⟨⟨ca, la⟩, ha, ⟨cb, lb⟩, hb, rfl, rfl⟩ := h
    obtain ⟨a1, a2, a3⟩ := iha _ _ _ _ ha
    obtain ⟨b1, b2, b3⟩ := ihb _ _ _ _ hb
    simp only at *
    refine ⟨by omega, ?_, ?_⟩
    · intro x hx
      rw [labels_append, List.mem_append] at hx
      rcases hx with hx | hx
      · have := a2 x hx; omega
      · have := b2 x hx; omega
    · rw [labels_append, List.nodup_append]
      refine ⟨a3, b3, ?_⟩
      intro x hx y hy e
      have := a2 x hx; have := b2 y hy; omega
  | ifThen c t ih =>
    intro ds l code l' h
    simp only [compS, Option.map_eq_some_iff, Prod.mk.injEq] at h
    obtain ⟨⟨ct, lt⟩, ht, rfl, rfl⟩ := h
    obtain ⟨a1, a2, a3⟩ := ih _ _ _ _ ht
    simp only [labels, labels_append, compE_labels, List.nil_append] at *
    refine ⟨by omega, ?_, ?_⟩
    · intro x hx
      rw [List.mem_append] at hx
      rcases hx with hx | hx
      · have := a2 x hx; omega
      · simp at hx; omega
    · rw [List.nodup_append]
      refine ⟨a3, by simp, ?_⟩
      intro x hx y hy e
      have := a2 x hx; simp at hy; omega
  | ifElse c t e iht ihe =>
    intro ds l code l' h
    simp only [compS, Option.bind_eq_some_iff, Option.map_eq_some_iff, Prod.mk.injEq] at h
    obtain ⟨⟨ca, la⟩, ha, ⟨cb, lb⟩, hb, rfl, rfl⟩ := h
    obtain ⟨a1, a2, a3⟩ := iht _ _ _ _ ha
    obtain ⟨b1, b2, b3⟩ := ihe _ _ _ _ hb
    simp only [labels, labels_append, compE_labels, List.nil_append] at *
    refine ⟨by omega, ?_, ?_⟩
    · intro x hx
      simp only [List.mem_append, List.mem_cons, List.not_mem_nil, or_false] at hx
      rcases hx with hx | hx | hx | hx
      · have := a2 x hx; omega
      · omega
      · have := b2 x hx; omega
      · omega
    · rw [List.nodup_append, List.nodup_cons, List.nodup_append]
      refine ⟨a3, ⟨?_, b3, by simp, ?_⟩, ?_⟩
      · intro hm
        simp only [List.mem_append, List.mem_cons, List.not_mem_nil, or_false] at hm
        rcases hm with hm | hm
        · have := b2 _ hm; omega
        · omega
      · intro x hx y hy e
        have := b2 x hx; simp at hy; omega
      · intro x hx y hy e
        have := a2 x hx
        simp only [List.mem_append, List.mem_cons, List.not_mem_nil, or_false] at hy
        rcases hy with hy | hy | hy
        · omega
        · have := b2 y hy; omega
        · omega
  | loop c b inc ih =>
    intro ds l code l' h
    simp only [compS, Option.map_eq_some_iff, Prod.mk.injEq] at h
    obtain ⟨⟨ct, lt⟩, ht, rfl, rfl⟩ := h
    obtain ⟨a1, a2, a3⟩ := ih _ _ _ _ ht
    simp only [labels, labels_append, compE_labels, compInc_labels, List.nil_append] at *
    refine ⟨by omega, ?_, ?_⟩
    · intro x hx
      simp only [List.mem_append, List.mem_cons, List.not_mem_nil, or_false] at hx
      rcases hx with hx | hx | hx
      · omega
      · have := a2 x hx; omega
      · omega
    · rw [List.nodup_cons, List.nodup_append]
      refine ⟨?_, a3, by simp, ?_⟩
      · intro hm
        simp only [List.mem_append, List.mem_cons, List.not_mem_nil, or_false] at hm
        rcases hm with hm | hm
        · have := a2 _ hm; omega
        · omega
      · intro x hx y hy e
        have := a2 x hx; simp at hy; omega
  | brk m =>
    intro ds l code l' h
    simp only [compS, Option.map_eq_some_iff, Prod.mk.injEq] at h
    obtain ⟨k, hk, rfl, rfl⟩ := h
    simp [labels]
  | cont m =>
    intro ds l code l' h
    simp only [compS, Option.map_eq_some_iff, Prod.mk.injEq] at h
    obtain ⟨k, hk, rfl, rfl⟩ := h
    simp [labels]

/-! ## Runs of the machine -/

variable (truth : V → Bool) (junk : Nat → Fin n → V) (prog : List (Instr V))

/-- One state is reached from another. -/
inductive Reach : VM V n → VM V n → Prop
  | refl (s) : Reach s s
  | step {s s' s'' i} : prog[s.pc]? = some i → exec1 truth junk prog s i = .ok s' → Reach s' s'' → Reach s s''

variable {truth junk prog}

theorem Reach.trans {a b c : VM V n} (h : Reach truth junk prog a b) (h' : Reach truth junk prog b c) :
    Reach truth junk prog a c := by
  induction h with
  | refl => exact h'
  | step h1 h2 _ ih => exact .step h1 h2 (ih h')

theorem Reach.one {s s' : VM V n} {i} (h : prog[s.pc]? = some i)
    (h' : exec1 truth junk prog s i = .ok s') : Reach truth junk prog s s' := .step h h' (.refl _)

theorem any_iff (m : Fin n → Bool) : any m = true ↔ ∃ i, m i = true := by simp [any]

theorem any_false (m : Fin n → Bool) : any m = false ↔ ∀ i, m i = false := by
  simp [any]

theorem any_of {m : Fin n → Bool} {i} (h : m i = true) : any m = true := (any_iff m).2 ⟨i, h⟩

/-- Expressions. -/
theorem simE (e : Expr V) : ∀ pc, At prog pc (compE e) → ∀ D σ cur R stk tick,
    ∃ v cur' tick', Reach truth junk prog ⟨pc, D, σ, cur, R, any R, stk, tick⟩
      ⟨pc + (compE e).length, v :: D, σ, cur', R, any R, stk, tick'⟩ ∧
      (∀ i, R i = true → v i = e.eval truth (fun x => σ x i)) ∧
      (∀ i, cur' i = true → cur i = true ∨ R i = true) := by
  induction e with
  | const c =>
    intro pc h D σ cur R stk tick
    exact ⟨_, cur, tick + 1, .one h.get rfl, fun _ _ => rfl, fun _ h => .inl h⟩
  | var x =>
    intro pc h D σ cur R stk tick
    exact ⟨_, cur, tick + 1, .one h.get rfl, fun _ _ => rfl, fun _ h => .inl h⟩
  | un f a ih =>
    intro pc h D σ cur R stk tick
    obtain ⟨ha, hb⟩ := At.app (show At prog pc (compE a ++ [.op1 f]) from h)
    obtain ⟨v, cur', tick', r, hv, hc⟩ := ih pc ha D σ cur R stk tick
    refine ⟨fun i => if any R = true ∧ R i = true then f (v i) else junk (tick' + 1) i, cur', tick' + 1,
      ?_, ?_, hc⟩
    · have e : pc + (compE (.un f a)).length = pc + (compE a).length + 1 := by simp [compE]; omega
      rw [e]; exact r.trans (.one hb.get rfl)
    · intro i hi
      simp only [any_of hi, hi, and_self, if_true, Expr.eval, hv i hi]
  | bin f a b iha ihb =>
    intro pc h D σ cur R stk tick
    obtain ⟨ha, hb⟩ := At.app (show At prog pc (compE a ++ (compE b ++ [.op2 f])) from h)
    obtain ⟨hb, hc⟩ := hb.app
    obtain ⟨v, cur', tick', r, hv, hcu⟩ := iha pc ha D σ cur R stk tick
    obtain ⟨w, cur'', tick'', r', hw, hcu'⟩ := ihb _ hb (v :: D) σ cur' R stk tick'
    refine ⟨fun i => if any R = true ∧ R i = true then f (v i) (w i) else junk (tick'' + 1) i, cur'',
      tick'' + 1, ?_, ?_, ?_⟩
    · have e : pc + (compE (.bin f a b)).length = pc + (compE a).length + (compE b).length + 1 := by
        simp [compE]; omega
      rw [e]; exact (r.trans r').trans (.one hc.get rfl)
    · intro i hi
      simp only [any_of hi, hi, and_self, if_true, Expr.eval, hv i hi, hw i hi]
    · intro i hi
      rcases hcu' i hi with h | h
      · exact hcu i h
      · exact .inr h
  | cond c a b ihc iha ihb =>
    intro pc h D σ cur R stk tick
    obtain ⟨h0, h⟩ := At.cons (show At prog pc (.sClear :: (compE c ++ (.dup :: .sGet :: .rsPush :: .rsGet ::
      (compE a ++ (.rsInverse :: (compE b ++ [.rsPop, .merge])))))) from h)
    obtain ⟨hc, h⟩ := h.app
    obtain ⟨h1, h⟩ := h.cons
    obtain ⟨h2, h⟩ := h.cons
    obtain ⟨h3, h⟩ := h.cons
    obtain ⟨h4, h⟩ := h.cons
    obtain ⟨ha, h⟩ := h.app
    obtain ⟨h5, h⟩ := h.cons
    obtain ⟨hb, h⟩ := h.app
    obtain ⟨h6, h7⟩ := h.cons
    obtain ⟨v, cu1, t1, r1, hv, hcu1⟩ := ihc _ hc D σ (fun _ => false) R stk (tick + 1)
    have hcu1' : ∀ i, cu1 i = true → R i = true := by
      intro i hi; rcases hcu1 i hi with h | h
      · cases h
      · exact h
    -- the current state after S_GET
    let cc : Fin n → Bool := if any R then fun i => if R i then truth (v i) else cu1 i else cu1
    have hcc : ∀ i, cc i = (R i && truth (v i)) := by
      intro i
      show (if any R then fun i => if R i then truth (v i) else cu1 i else cu1) i = _
      by_cases hr : R i = true
      · rw [any_of hr]; simp [hr]
      · have hcf : cu1 i = false := by
          cases hx : cu1 i
          · rfl
          · exact absurd (hcu1' i hx) hr
        split_ifs <;> simp [hr, hcf]
    obtain ⟨w, cu2, t2, r2, hw, hcu2⟩ := iha _ ha (v :: D) σ cc cc (R :: stk) (t1 + 1 + 1 + 1 + 1)
    let ci : Fin n → Bool := fun i => !cc i && R i
    obtain ⟨z, cu3, t3, r3, hz, hcu3⟩ := ihb _ hb (w :: v :: D) σ cu2 ci (R :: stk) (t2 + 1)
    refine ⟨if any R then fun i => if truth (v i) then w i else z i else junk (t3 + 1 + 1), cu3, t3 + 1 + 1,
      ?_, ?_, ?_⟩
    · have e : pc + (compE (.cond c a b)).length = pc + 1 + (compE c).length + 1 + 1 + 1 + 1 +
          (compE a).length + 1 + (compE b).length + 1 + 1 := by
        simp [compE]; omega
      rw [e]
      exact .trans (.one h0.get rfl) (.trans r1 (.trans (.one h1.get rfl) (.trans (.one h2.get rfl)
        (.trans (.one h3.get rfl) (.trans (.one h4.get rfl) (.trans r2 (.trans (.one h5.get rfl)
        (.trans r3 (.trans (.one h6.get rfl) (.one h7.get rfl))))))))))
    · intro i hi
      rw [any_of hi, if_pos rfl]
      simp only [Expr.eval, ← hv i hi]
      by_cases ht : truth (v i) = true
      · rw [if_pos ht, if_pos ht]
        exact hw i (by rw [hcc, hi, ht]; rfl)
      · rw [if_neg ht, if_neg ht]
        refine hz i ?_
        show (!cc i && R i) = true
        rw [hcc, hi]; simp at ht; simp [ht]
    · intro i hi
      refine .inr ?_
      rcases hcu3 i hi with h | h
      · rcases hcu2 i h with h | h <;>
        · rw [hcc] at h; simp at h; exact h.1
      · have : (!cc i && R i) = true := h
        simp at this; exact this.2

/-! ## Effect of leaving loops -/

/-- Number of running states which lose a point. -/
def lev (ds : List Nat) : Sig → Nat
  | .normal => 0
  | .brk k => (ds.take (k + 1)).sum
  | .cont k => (ds.take (k + 1)).sum - 1

/-- The stack of running states when point `i` has been taken out of the top `lv i` states. -/
def escape (lv : Fin n → Nat) (stk : List (Fin n → Bool)) : List (Fin n → Bool) :=
  match stk with
  | [] => []
  | m :: st => (fun i => m i && decide (lv i = 0)) :: escape (fun i => lv i - 1) st

theorem escape_length (stk : List (Fin n → Bool)) : ∀ lv, (escape lv stk).length = stk.length := by
  induction stk with
  | nil => intro _; rfl
  | cons m st ih => intro lv; simp [escape, ih]

theorem escape_zero (stk : List (Fin n → Bool)) : escape (fun _ => 0) stk = stk := by
  induction stk with
  | nil => rfl
  | cons m st ih =>
    rw [escape]; congr 1
    funext i; simp

theorem escape_escape (stk : List (Fin n → Bool)) : ∀ a b, escape b (escape a stk) =
    escape (fun i => max (a i) (b i)) stk := by
  induction stk with
  | nil => intros; rfl
  | cons m st ih =>
    intro a b
    simp only [escape]
    congr 1
    · funext i
      have : (max (a i) (b i) = 0) ↔ (a i = 0 ∧ b i = 0) := by omega
      simp [this, Bool.and_assoc]
    · rw [ih]
      congr 1; funext i; omega

theorem maskTop_eq (R : Fin n → Bool) (stk : List (Fin n → Bool)) : ∀ k,
    maskTop R k stk = escape (fun i => if R i then k else 0) stk := by
  induction stk with
  | nil => intro k; cases k <;> rfl
  | cons m st ih =>
    intro k
    cases k with
    | zero =>
      rw [maskTop]
      have : (fun i => if R i then 0 else 0) = fun _ : Fin n => 0 := by funext i; simp
      rw [this, escape_zero]
    | succ k =>
      rw [maskTop, escape, ih]
      congr 1
      · funext i; cases R i <;> simp
      · congr 1; funext i; cases R i <;> simp

/-- Signals that can leave a statement inside `d` loops. -/
def Sig.Within (d : Nat) : Sig → Prop
  | .normal => True
  | .brk k | .cont k => k < d

theorem bump_length (ds : List Nat) : (bump ds).length = ds.length := by cases ds <;> rfl

theorem exec_within : ∀ F (s : Stmt V) ds l r σ σ' sig, compS s ds l = some r → s.Counted →
    exec truth F s σ = some (σ', sig) → sig.Within ds.length := by
  intro F
  induction F with
  | zero => intro s ds l r σ σ' sig _ _ h; cases h
  | succ F ih =>
    intro s ds l r σ σ' sig hc hm h
    cases s with
    | assign x e => simp [exec] at h; rw [← h.2]; trivial
    | expr e => simp [exec] at h; rw [← h.2]; trivial
    | seq a b =>
      simp only [compS, Option.bind_eq_some_iff, Option.map_eq_some_iff] at hc
      obtain ⟨ra, ha, rb, hb, _⟩ := hc
      simp only [exec, Option.bind_eq_some_iff] at h
      obtain ⟨⟨σ1, s1⟩, h1, h2⟩ := h
      by_cases hn : s1 = .normal
      · rw [if_pos hn] at h2
        exact ih _ _ _ _ _ _ _ hb hm.2 h2
      · rw [if_neg hn] at h2
        cases h2
        exact ih _ _ _ _ _ _ _ ha hm.1 h1
    | ifThen c t =>
      simp only [compS, Option.map_eq_some_iff] at hc
      obtain ⟨ra, ha, _⟩ := hc
      rw [← bump_length ds]
      simp only [exec] at h
      split_ifs at h with ht
      · exact ih _ _ _ _ _ _ _ ha hm h
      · cases h; trivial
    | ifElse c t e =>
      simp only [compS, Option.bind_eq_some_iff, Option.map_eq_some_iff] at hc
      obtain ⟨ra, ha, rb, hb, _⟩ := hc
      rw [← bump_length ds]
      simp only [exec] at h
      split_ifs at h with ht
      · exact ih _ _ _ _ _ _ _ ha hm.1 h
      · exact ih _ _ _ _ _ _ _ hb hm.2 h
    | loop c b inc =>
      have hc0 := hc
      simp only [compS, Option.map_eq_some_iff] at hc
      obtain ⟨ra, ha, _⟩ := hc
      simp only [exec] at h
      split_ifs at h with ht
      · rw [Option.bind_eq_some_iff] at h
        obtain ⟨⟨σ1, s1⟩, h1, h2⟩ := h
        have hw := ih _ _ _ _ _ _ _ ha hm h1
        simp only [List.length_cons, bump_length] at hw
        match s1, hw, h2 with
        | .normal, _, h2 => exact ih _ _ _ _ _ _ _ hc0 hm h2
        | .cont 0, _, h2 => exact ih _ _ _ _ _ _ _ hc0 hm h2
        | .brk 0, _, h2 => cases h2; trivial
        | .brk (k + 1), hw, h2 => cases h2; simp only [Sig.Within] at hw ⊢; omega
        | .cont (k + 1), hw, h2 => cases h2; simp only [Sig.Within] at hw ⊢; omega
      · cases h; trivial
    | brk m =>
      simp only [compS, breakLevels, Option.map_eq_some_iff] at hc
      obtain ⟨k, hk, _⟩ := hc
      simp only [exec, Option.some.injEq, Prod.mk.injEq] at h
      rw [← h.2]
      have : 1 ≤ m := hm
      split_ifs at hk
      simp only [Sig.Within]; omega
    | cont m =>
      simp only [compS, breakLevels, Option.map_eq_some_iff] at hc
      obtain ⟨k, hk, _⟩ := hc
      simp only [exec, Option.some.injEq, Prod.mk.injEq] at h
      rw [← h.2]
      have : 1 ≤ m := hm
      split_ifs at hk
      simp only [Sig.Within]; omega

theorem lev_bump {ds : List Nat} (h1 : ∀ d ∈ ds, 1 ≤ d) {sig : Sig} (hw : sig.Within ds.length)
    (hs : sig ≠ .normal) : lev (bump ds) sig = lev ds sig + 1 := by
  cases ds with
  | nil => cases sig <;> simp [Sig.Within] at hw hs
  | cons d ds =>
    have := h1 d (by simp)
    cases sig with
    | normal => exact absurd rfl hs
    | brk k => simp [lev, bump, List.sum_cons]; omega
    | cont k => simp [lev, bump, List.sum_cons]; omega

theorem lev_loop_brk {ds : List Nat} (h1 : ∀ d ∈ ds, 1 ≤ d) {k : Nat} (hw : k < ds.length) :
    lev (1 :: bump ds) (.brk (k + 1)) = lev ds (.brk k) + 2 := by
  have := lev_bump (sig := .brk k) h1 hw (by simp)
  simp only [lev, List.take_succ_cons, List.sum_cons] at this ⊢
  omega

theorem lev_loop_cont {ds : List Nat} (h1 : ∀ d ∈ ds, 1 ≤ d) {k : Nat} (hw : k < ds.length) :
    lev (1 :: bump ds) (.cont (k + 1)) = lev ds (.cont k) + 2 := by
  cases ds with
  | nil => simp at hw
  | cons d ds =>
    have := h1 d (by simp)
    simp [lev, bump, List.sum_cons]; omega

end Verif.Shader.Simd
