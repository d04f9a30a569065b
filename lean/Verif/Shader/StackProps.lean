import Verif.Shader.StackExpr

/-!
# Properties of the stack of the shader virtual machine and its temporaries (C84)
-/

namespace Verif.Shader.Stack

variable {V : Type}

/-- C84.  The machine with storage (temporaries from pools, recycled when an operator is done with
them) follows the machine without storage: a program that runs on the one runs on the other, without
undefined behaviour, and values are the same where they are known. -/
theorem C84_run (E : Env V) (hn : 0 < E.points) (is : List (Instr V)) (s : State V) (a a' : Abs V)
    (h : Rel E.points s a) (ha : a.exec E.points E.truth is = some a') :
    ∃ s', exec E s is = some s' ∧ Rel E.points s' a' := sim_exec hn is h ha

/-- C84.  However a program goes, the temporaries on the stack are all different, and are neither in a
pool nor variables; no temporary is twice in a pool or in two pools; and none is lost. -/
theorem C84_storage (E : Env V) (hn : 0 < E.points) (is : List (Instr V)) (s : State V) (a a' : Abs V)
    (h : Rel E.points s a) (ha : a.exec E.points E.truth is = some a') :
    ∃ s', exec E s is = some s' ∧
      (((live s').filter (·.isTemp)).map (·.data)).Nodup ∧
      (∀ e ∈ live s', e.isTemp = true → e.data ∉ s'.vars ∧ ∀ t c, e.data ∉ s'.pools t c) ∧
      (∀ t c, (s'.pools t c).Nodup) ∧
      (∀ t c t' c' p, p ∈ s'.pools t c → p ∈ s'.pools t' c' → t = t' ∧ c = c') ∧
      (∀ p, p < s'.heap.length → (∃ e ∈ live s', e.isTemp = true ∧ e.data = p) ∨ p ∈ s'.vars ∨
        ∃ t c, p ∈ s'.pools t c) := by
  obtain ⟨s', e, r⟩ := sim_exec hn is h ha
  have mem : ∀ p, p ∈ temps (live s') ↔ ∃ e ∈ live s', e.isTemp = true ∧ e.data = p := by
    intro p; simp [temps, and_assoc]
  refine ⟨s', e, r.own.used_nodup, fun x hx ht => (r.own.used_ok x.data ((mem _).2 ⟨x, hx, ht, rfl⟩)).2,
    r.own.pool_nodup, fun t c t' c' p h1 h2 => ?_, fun p hp => ?_⟩
  · obtain ⟨d, hd, k1, k2⟩ := r.own.pool_ok t c p h1
    obtain ⟨d', hd', k1', k2'⟩ := r.own.pool_ok t' c' p h2
    rw [hd] at hd'; cases hd'
    exact ⟨k1.symm.trans k1', k2.symm.trans k2'⟩
  · exact (r.own.kept p hp).imp_left (mem p).1

theorem live_nil {s : State V} (h : s.top ≤ s.stack.length) : live s = [] ↔ s.top = 0 := by
  unfold live
  constructor
  · intro k
    have := congrArg List.length k
    rw [List.length_reverse, List.length_take, List.length_nil] at this
    omega
  · intro k; rw [k]; rfl

theorem isVarying_wide {n : Nat} {s : State V} {x p : Nat} {v : Val V} (hp : s.vars[x]? = some p)
    (h : HoldsV n s.heap p v) : v.wide = (isVarying s x && decide (1 < n)) := by
  obtain ⟨c, hc, hl, hw, _⟩ := h
  unfold isVarying
  simp only [hp, Option.bind_some, hc, Option.map_some, Option.getD_some]
  rw [hw, hl]
  cases c.varying <;> simp

/-- C84.  An assignment of an expression to a variable, between statements (when the stack is empty):
the code runs; at the running points the variable gets the value of the expression, whatever
conditional expressions are in it and whatever was in the temporaries; at the others it keeps its value;
other variables keep theirs; the stack is empty again.  A uniform variable gets the value if the
expression has only uniform variables and no conditional expression. -/
theorem C84_assign_partial (E : Env V) (hn : 0 < E.points) (s : State V) (hs : Sound E.points s)
    (htop : s.top = 0) (x : Nat) (e : Expr V) (hx : x < s.vars.length)
    (he : AllVars (· < s.vars.length) e)
    (hu : isVarying s x = false → AllVars (fun y => isVarying s y = false) e ∧ NoCond e) :
    ∃ s', exec E s (codeAssign x e) = some s' ∧ Sound E.points s' ∧ s'.top = 0 ∧
      s'.run = s.run ∧ s'.stk = s.stk ∧ s'.vars.length = s.vars.length ∧
      (∀ i, i < E.points → (isVarying s x = true → s.run i = true) → someRun E.points s.run →
        readVar s' x i = evalE E.truth (fun y => readVar s y i) e) ∧
      (∀ i, i < E.points → isVarying s x = true → s.run i = false → readVar s' x i = readVar s x i) ∧
      (¬ someRun E.points s.run → ∀ i, i < E.points → readVar s' x i = readVar s x i) ∧
      (∀ y i, y ≠ x → i < E.points → readVar s' y i = readVar s y i) ∧
      (1 < E.points → ∀ y, isVarying s' y = isVarying s y) := by
  obtain ⟨a0, r0⟩ := hs
  -- all values of variables are known
  obtain ⟨a, hadef⟩ : ∃ a : Abs V, a = { a0 with vars := s.vars.map (cellVal s.heap) } := ⟨_, rfl⟩
  have hav : a.vars = s.vars.map (cellVal s.heap) := by rw [hadef]
  have r : Rel E.points s a := by
    rw [hadef]
    exact ⟨r0.own, r0.top, r0.stack, vars_cellVal r0.vars, r0.cur, r0.run, r0.stk⟩
  have hlive : live s = [] := (live_nil r0.top).2 htop
  have hst : a.stack = [] := by
    have := r.stack
    rw [hlive] at this
    cases h : a.stack with
    | nil => rfl
    | cons _ _ => rw [h] at this; cases this
  have hok : VarsOK E.points a.vars := by
    intro y v hv
    obtain ⟨p, hp, hh⟩ := forall2_get r.vars y v hv
    have : v = cellVal s.heap p := by
      rw [hav, List.getElem?_map, hp] at hv; simpa using hv.symm
    rw [this]
    exact cell_ok hn hh
  have hlen : a.vars.length = s.vars.length := by rw [hav, List.length_map]
  have henv : ∀ i, envAt a.vars i = fun y => readVar s y i := by
    intro i; funext y; rw [hav]; exact envAt_read s i y
  obtain ⟨it, v, cur, h1, h2, h3, h4, _⟩ := code_abs (n := E.points) E.truth e a (by rw [hlen]; exact he) hok
  obtain ⟨q, hq⟩ : ∃ q, s.vars[x]? = some q := ⟨_, List.getElem?_eq_getElem hx⟩
  have hox : a.vars[x]? = some (cellVal s.heap q) := by rw [hav, List.getElem?_map, hq]; rfl
  obtain ⟨q', hq', hqo⟩ := forall2_get r.vars x _ hox
  rw [hq] at hq'; cases hq'
  generalize ho : cellVal s.heap q = o at hox hqo
  have howide : o.wide = (isVarying s x && decide (1 < E.points)) := isVarying_wide hq hqo
  obtain ⟨nv, hnv⟩ : ∃ nv : Val V, nv = if o.wide then ⟨true, fun i =>
      if a.run i then v.at_ i else o.at_ i⟩
    else ⟨false, fun i => if active E.points a.run false i then v.at_ 0 else o.at_ i⟩ := ⟨_, rfl⟩
  have hexec : a.exec E.points E.truth (codeAssign x e) =
      some { a with stack := [], cur := cur, vars := a.vars.set x nv } := by
    rw [codeAssign, absExec_append, h1, Option.bind_some, hst]
    have k : ({ a with stack := [it], cur := cur } : Abs V).look it = some v := h2
    simp only [Abs.exec, Abs.step, k, hox, Option.bind_eq_bind, Option.bind_some, hnv]
  obtain ⟨s', e', r'⟩ := sim_exec hn _ r hexec
  have hlen' : s'.vars.length = s.vars.length := by
    have h5 := r'.vars.length_eq
    simp at h5
    rw [h5, hlen]
  have hrunA : a.run = s.run := r.run.symm
  -- what the variables hold
  have hread : ∀ y w, (a.vars.set x nv)[y]? = some w → ∀ i z, i < E.points → w.at_ i = some z →
      readVar s' y i = some z := by
    intro y w hw i z hi hz
    obtain ⟨p, hp, c, hc, _, _, hg⟩ := forall2_get r'.vars y w hw
    unfold readVar
    rw [hp, Option.bind_some, hc, Option.bind_some]
    exact hg i z hi hz
  have hself : (a.vars.set x nv)[x]? = some nv := by simp [hlen, hx]
  have hoat : ∀ i, o.at_ i = readVar s x i := fun i => by rw [readVar_eq hq, ho]
  have hosome : ∀ i, i < E.points → (o.at_ i).isSome := (hok x o hox).1
  have heval : ∀ i, i < E.points → (evalE E.truth (fun y => readVar s y i) e).isSome := fun i hi => by
    rw [← henv i]; exact evalE_some hok E.truth hi e (by rw [hlen]; exact he)
  have hnarrow : isVarying s x = false → AllVars (Narrow a.vars) e ∧ NoCond e := by
    intro hf
    refine ⟨AllVars.mono (fun y hy w hw => ?_) e (hu hf).1, (hu hf).2⟩
    obtain ⟨p, hp, hh⟩ := forall2_get r.vars y w hw
    rw [isVarying_wide hp hh, hy]; rfl
  refine ⟨s', e', ⟨_, r'⟩, ?_, r'.run.trans r.run.symm, r'.stk.trans r.stk.symm, hlen', ?_, ?_, ?_, ?_, ?_⟩
  · refine (live_nil r'.top).1 ?_
    have := r'.stack
    cases h : live s' with
    | nil => rfl
    | cons _ _ => rw [h] at this; cases this
  · intro i hi hri hR
    obtain ⟨z, hz⟩ := Option.isSome_iff_exists.1 (heval i hi)
    rw [hz]
    refine hread x nv hself i z hi ?_
    rw [hnv]
    cases hw : o.wide with
    | true =>
      rw [if_pos rfl]
      have hvar : isVarying s x = true := by
        rw [howide] at hw
        exact ((Bool.and_eq_true _ _).mp hw).1
      have hr : a.run i = true := by rw [hrunA]; exact hri hvar
      show (if a.run i = true then v.at_ i else o.at_ i) = some z
      rw [if_pos hr, h3 i hi hr, henv]; exact hz
    | false =>
      rw [if_neg (by simp)]
      show (if active E.points a.run false i = true then v.at_ 0 else o.at_ i) = some z
      rw [if_pos ((active_narrow _ _ _).2 (by rw [hrunA]; exact hR))]
      cases hvar : isVarying s x with
      | true =>
        have h1' : E.points = 1 := by
          rw [howide, hvar] at hw
          simp at hw
          omega
        have : i = 0 := by omega
        subst this
        rw [h3 0 hi (by rw [hrunA]; exact hri hvar), henv]; exact hz
      | false =>
        obtain ⟨hN, hC⟩ := hnarrow hvar
        rw [(h4 hN hC).2 (by rw [hrunA]; exact hR) 0 hn, henv, ← hz]
        rw [← henv i, ← henv 0]
        refine evalE_congr E.truth e (AllVars.mono (fun y hy => ?_) e hN)
        unfold envAt
        cases hy' : a.vars[y]? with
        | none => rfl
        | some w => exact ((hok y w hy').2 (hy w hy') i hi).symm
  · intro i hi hvar hri
    obtain ⟨z, hz⟩ := Option.isSome_iff_exists.1 (hosome i hi)
    rw [← hoat i, hz]
    refine hread x nv hself i z hi ?_
    rw [hnv]
    cases hw : o.wide with
    | true =>
      rw [if_pos rfl]
      show (if a.run i = true then v.at_ i else o.at_ i) = some z
      rw [if_neg (by rw [hrunA, hri]; simp)]; exact hz
    | false =>
      rw [if_neg (by simp)]
      show (if active E.points a.run false i = true then v.at_ 0 else o.at_ i) = some z
      have h1' : E.points = 1 := by
        rw [howide, hvar] at hw
        simp at hw
        omega
      rw [active_none (n := E.points) (run := a.run) ?_ false i hi, if_neg (by simp)]
      · exact hz
      · rintro ⟨j, hj, hjr⟩
        have : j = i := by omega
        rw [this, hrunA, hri] at hjr
        cases hjr
  · intro hR i hi
    obtain ⟨z, hz⟩ := Option.isSome_iff_exists.1 (hosome i hi)
    rw [← hoat i, hz]
    refine hread x nv hself i z hi ?_
    rw [← hrunA] at hR
    rw [hnv]
    cases hw : o.wide with
    | true =>
      rw [if_pos rfl]
      show (if a.run i = true then v.at_ i else o.at_ i) = some z
      rw [if_neg (fun h => hR ⟨i, hi, h⟩)]; exact hz
    | false =>
      rw [if_neg (by simp)]
      show (if active E.points a.run false i = true then v.at_ 0 else o.at_ i) = some z
      rw [active_none hR false i hi, if_neg (by simp)]; exact hz
  · intro y i hyx hi
    cases hy : s.vars[y]? with
    | none =>
      have h5 : s'.vars[y]? = none := by
        rw [List.getElem?_eq_none_iff] at hy ⊢
        omega
      simp [readVar, hy, h5]
    | some p =>
      have hw : a.vars[y]? = some (cellVal s.heap p) := by rw [hav, List.getElem?_map, hy]; rfl
      obtain ⟨z, hz⟩ := Option.isSome_iff_exists.1 ((hok y _ hw).1 i hi)
      rw [readVar_eq hy, hz]
      refine hread y _ ?_ i z hi hz
      rw [List.getElem?_set_ne (fun h => hyx h.symm)]; exact hw
  · intro h1' y
    cases hy : s.vars[y]? with
    | none =>
      have h5 : s'.vars[y]? = none := by
        rw [List.getElem?_eq_none_iff] at hy ⊢
        omega
      simp [isVarying, hy, h5]
    | some p =>
      have hw : a.vars[y]? = some (cellVal s.heap p) := by rw [hav, List.getElem?_map, hy]; rfl
      obtain ⟨p', hp', hh⟩ := forall2_get r.vars y _ hw
      rw [hy] at hp'; cases hp'
      obtain ⟨w, hw', hwide⟩ : ∃ w, (a.vars.set x nv)[y]? = some w ∧
          w.wide = (cellVal s.heap p).wide := by
        by_cases hyx : y = x
        · subst hyx
          refine ⟨nv, hself, ?_⟩
          have hwo : cellVal s.heap p = o := by rw [hox] at hw; exact (Option.some.inj hw).symm
          rw [hwo, hnv]
          cases hw2 : o.wide <;> simp
        · exact ⟨_, by rw [List.getElem?_set_ne (fun h => hyx h.symm)]; exact hw, rfl⟩
      obtain ⟨p'', hp'', hh''⟩ := forall2_get r'.vars y w hw'
      have k1 := isVarying_wide hy hh
      have k2 := isVarying_wide hp'' hh''
      rw [hwide, k1] at k2
      simpa [h1'] using k2.symm

/-! ## Where it goes wrong, and that the theorems speak about something -/

/-- Two points, of which the second is running; numbers, where 0 is false; variable 0 is varying and
variable 1 is uniform. -/
def exEnv : Env Nat := ⟨2, 0, fun v => v != 0⟩

def exState : State Nat where
  heap := [⟨.float, true, [5, 7]⟩, ⟨.float, false, [9]⟩]
  pools := fun _ _ => []
  stack := []
  top := 0
  vars := [0, 1]
  cur := fun _ => false
  run := fun i => i == 1
  stk := []

def exAbs : Abs Nat :=
  ⟨[], [⟨true, fun i => if i = 0 then some 5 else some 7⟩, ⟨false, fun _ => some 9⟩], fun _ => false,
    fun i => i == 1, []⟩

theorem exRel : Rel 2 exState exAbs := by
  refine ⟨⟨by simp [temps, live, exState], by simp [temps, live, exState], by simp [exState],
    by simp [exState], by simp [exState], by simp [exState], ?_, ?_⟩, by simp [exState],
    by simp [live, exState, exAbs], ?_, rfl, rfl, rfl⟩
  · intro p d hd hv
    match p, hd with
    | 0, hd => simp [exState] at hd; subst hd; cases hv
    | 1, hd => simp [exState] at hd; subst hd; rfl
    | p + 2, hd => simp [exState] at hd
  · intro p hp
    right; left
    simp [exState] at hp ⊢
    omega
  · refine .cons ⟨⟨.float, true, [5, 7]⟩, rfl, rfl, rfl, fun i x hi hx => ?_⟩
      (.cons ⟨⟨.float, false, [9]⟩, rfl, rfl, rfl, fun i x hi hx => hx⟩ .nil)
    match i, hi with
    | 0, _ => exact hx
    | 1, _ => exact hx

/-- The hypotheses of the theorems hold for a state, and an assignment with a conditional expression
does what it should. -/
example : Sound 2 exState ∧ exState.top = 0 ∧
    ((exec exEnv exState (codeAssign 0 (.cond .float (.var 0) (.bin .float (· + ·) (.var 1) (.num 1))
      (.un .float (· + 3) (.var 0))))).map fun s => (s.top, s.heap.take 2)) =
      some (0, [⟨.float, true, [5, 10]⟩, ⟨.float, false, [9]⟩]) := by
  exact ⟨⟨_, exRel⟩, rfl, by decide +kernel⟩

/-- So do those of `C84_run` and `C84_storage`. -/
example : Rel 2 exState exAbs ∧
    ∃ a', exAbs.exec 2 exEnv.truth [.pushv 0, .pushf 1, .bin .float (· + ·), .drop] = some a' :=
  ⟨exRel, _, rfl⟩

/-- Violated: a varying value assigned to a uniform variable is that of the first point, even if the
first point is not running. -/
theorem C84_uniform_violated : ∃ (E : Env Nat) (s s' : State Nat) (x y : Nat), Sound E.points s ∧
    s.top = 0 ∧ exec E s (codeAssign x (.var y)) = some s' ∧
    (∀ i, i < E.points → s.run i = true → readVar s' x i ≠ readVar s y i) := by
  refine ⟨exEnv, exState, _, 1, 0, ⟨_, exRel⟩, rfl, rfl, fun i hi hr => ?_⟩
  match i, hi with
  | 1, _ => decide +kernel

/-- Violated: so may be a conditional expression of constants, which makes a varying value: an operator
on it leaves the first point alone, if that is not running, and this is what the uniform variable
gets.  (Here `u = -(1 ? 1 : 2)`, with an operator that adds 3.) -/
theorem C84_uniform_cond_violated : ∃ (E : Env Nat) (s s' : State Nat) (x : Nat) (e : Expr Nat),
    Sound E.points s ∧ s.top = 0 ∧ AllVars (fun _ => False) e ∧ exec E s (codeAssign x e) = some s' ∧
    (∀ i, i < E.points → s.run i = true →
      readVar s' x i ≠ evalE E.truth (fun y => readVar s y i) e) := by
  refine ⟨exEnv, exState, _, 1, .un .float (· + 3) (.cond .float (.num 1) (.num 1) (.num 2)),
    ⟨_, exRel⟩, rfl, ⟨trivial, trivial, trivial⟩, rfl, fun i hi hr => ?_⟩
  match i, hi with
  | 1, _ => decide +kernel

/-- Violated: `Pop` on an empty stack hands out the bottom entry once more; it is released a second
time, and two values that are pushed later share their storage. -/
theorem C84_underflow_violated : ∃ (E : Env Nat) (s s' : State Nat), Sound E.points s ∧ s.top = 0 ∧
    exec E s [.pushf 1, .drop, .drop, .pushf 2, .pushf 3] = some s' ∧
    ∃ p c, live s' = [⟨p, true⟩, ⟨p, true⟩] ∧ s'.heap[p]? = some c ∧ c.vals = [3] := by
  refine ⟨exEnv, exState, _, ⟨_, exRel⟩, rfl, rfl, 2, ⟨.float, false, [3]⟩, ?_⟩
  decide +kernel

/-- Violated: the second operand of `init_illuminance2` is lost; it is in use nowhere and in no pool. -/
theorem C84_lost_violated : ∃ (E : Env Nat) (s s1 s' : State Nat) (v : Nat), Sound E.points s ∧
    s.top = 0 ∧ exec E s [.pushf 1, .pushf 2] = some s1 ∧ initIlluminance2 E v s1 = some s' ∧
    ∃ p, p < s'.heap.length ∧ (∀ e ∈ live s', e.data ≠ p) ∧ p ∉ s'.vars ∧ ∀ t c, p ∉ s'.pools t c := by
  refine ⟨exEnv, exState, _, _, 0, ⟨_, exRel⟩, rfl, rfl, rfl, 2, ?_, ?_, ?_, ?_⟩
  · decide +kernel
  · decide +kernel
  · decide +kernel
  · intro t c
    cases t <;> cases c <;> decide +kernel

end Verif.Shader.Stack
