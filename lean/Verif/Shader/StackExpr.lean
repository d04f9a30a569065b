import Verif.Shader.StackSim2

/-! Expressions on the machine without storage. -/

namespace Verif.Shader.Stack

variable {V : Type}

theorem absExec_append (n : Nat) (truth : V → Bool) : ∀ (l m : List (Instr V)) (a : Abs V),
    a.exec n truth (l ++ m) = (a.exec n truth l).bind fun a => a.exec n truth m
  | [], m, a => rfl
  | i :: l, m, a => by
    simp only [List.cons_append, Abs.exec]
    cases a.step n truth i with
    | none => rfl
    | some a' => exact absExec_append n truth l m a'

theorem absExec_cons {n : Nat} {truth : V → Bool} {a a' : Abs V} {i : Instr V}
    (h : a.step n truth i = some a') (is : List (Instr V)) :
    a.exec n truth (i :: is) = a'.exec n truth is := by
  simp only [Abs.exec, h, Option.bind_some]

/-- Variables are known everywhere, and the narrow ones are the same everywhere. -/
def VarsOK (n : Nat) (vs : List (Val V)) : Prop :=
  ∀ (x : Nat) (v : Val V), vs[x]? = some v →
    (∀ i, i < n → (v.at_ i).isSome) ∧ (v.wide = false → ∀ i, i < n → v.at_ i = v.at_ 0)

/-- The values of the variables at a point. -/
def envAt (vs : List (Val V)) (i x : Nat) : Option V := (vs[x]?).bind fun v => v.at_ i

/-- A variable that is the same everywhere. -/
def Narrow (vs : List (Val V)) (x : Nat) : Prop := ∀ v, vs[x]? = some v → v.wide = false

theorem evalE_some {n : Nat} {vs : List (Val V)} (hv : VarsOK n vs) (truth : V → Bool) {i : Nat}
    (hi : i < n) : ∀ e : Expr V, AllVars (· < vs.length) e → (evalE truth (envAt vs i) e).isSome
  | .num v, _ => rfl
  | .con _ v, _ => rfl
  | .var x, h => by
    have h : x < vs.length := h
    have hx : vs[x]? = some vs[x] := List.getElem?_eq_getElem h
    show (envAt vs i x).isSome = true
    unfold envAt
    rw [hx]
    exact (hv x _ hx).1 i hi
  | .un _ f a, h => by
    obtain ⟨y, hy⟩ := Option.isSome_iff_exists.1 (evalE_some hv truth hi a h)
    rw [evalE, hy]; rfl
  | .bin _ f a b, h => by
    obtain ⟨y, hy⟩ := Option.isSome_iff_exists.1 (evalE_some hv truth hi a h.1)
    obtain ⟨z, hz⟩ := Option.isSome_iff_exists.1 (evalE_some hv truth hi b h.2)
    rw [evalE, hy, hz]; rfl
  | .cond _ c a b, h => by
    obtain ⟨y, hy⟩ := Option.isSome_iff_exists.1 (evalE_some hv truth hi c h.1)
    rw [evalE, hy, Option.bind_some]
    split
    · exact evalE_some hv truth hi a h.2.1
    · exact evalE_some hv truth hi b h.2.2

theorem evalE_congr (truth : V → Bool) {env env' : Nat → Option V} : ∀ e : Expr V,
    AllVars (fun x => env x = env' x) e → evalE truth env e = evalE truth env' e
  | .num v, _ => rfl
  | .con _ v, _ => rfl
  | .var x, h => h
  | .un _ f a, h => by rw [evalE, evalE, evalE_congr truth a h]
  | .bin _ f a b, h => by rw [evalE, evalE, evalE_congr truth a h.1, evalE_congr truth b h.2]
  | .cond _ c a b, h => by
    rw [evalE, evalE, evalE_congr truth c h.1, evalE_congr truth a h.2.1, evalE_congr truth b h.2.2]

theorem AllVars.mono {P Q : Nat → Prop} (h : ∀ x, P x → Q x) : ∀ e : Expr V, AllVars P e → AllVars Q e
  | .num _, _ => trivial
  | .con _ _, _ => trivial
  | .var x, k => h x k
  | .un _ _ a, k => AllVars.mono h a k
  | .bin _ _ a b, k => ⟨AllVars.mono h a k.1, AllVars.mono h b k.2⟩
  | .cond _ c a b, k => ⟨AllVars.mono h c k.1, AllVars.mono h a k.2.1, AllVars.mono h b k.2.2⟩

/-- What the code of an expression does. -/
theorem code_abs {n : Nat} (truth : V → Bool) : ∀ (e : Expr V) (a : Abs V),
    AllVars (· < a.vars.length) e → VarsOK n a.vars →
    ∃ it v cur, a.exec n truth (code e) = some { a with stack := it :: a.stack, cur := cur } ∧
      a.look it = some v ∧
      (∀ i, i < n → a.run i = true → v.at_ i = evalE truth (envAt a.vars i) e) ∧
      (AllVars (Narrow a.vars) e → NoCond e → v.wide = false ∧
        (someRun n a.run → ∀ i, i < n → v.at_ i = evalE truth (envAt a.vars i) e)) ∧
      (∀ i, i < n → a.run i = false → cur i = true → a.cur i = true)
  | .num v, a, _, _ =>
    ⟨.val ⟨false, fun _ => some v⟩, ⟨false, fun _ => some v⟩, a.cur, rfl, rfl, fun _ _ _ => rfl,
      fun _ _ => ⟨rfl, fun _ _ _ => rfl⟩, fun _ _ _ h => h⟩
  | .con t v, a, _, _ =>
    ⟨.val ⟨false, fun i => if active n a.run false i then some v else none⟩, _, a.cur, rfl, rfl,
      fun i hi hr => by
        show (if _ then _ else _) = _
        rw [if_pos ((active_narrow _ _ _).2 ⟨i, hi, hr⟩)]; rfl,
      fun _ _ => ⟨rfl, fun hR i hi => by
        show (if _ then _ else _) = _
        rw [if_pos ((active_narrow _ _ _).2 hR)]; rfl⟩, fun _ _ _ h => h⟩
  | .var x, a, hx, hv => by
    have hx : x < a.vars.length := hx
    have hx' : a.vars[x]? = some a.vars[x] := List.getElem?_eq_getElem hx
    have key : ∀ i, a.vars[x].at_ i = evalE truth (envAt a.vars i) (.var x) := by
      intro i; unfold evalE envAt; rw [hx']; rfl
    refine ⟨.ref x, a.vars[x], a.cur, ?_, hx', fun i _ _ => key i, fun hN _ => ⟨hN _ hx',
      fun _ i _ => key i⟩, fun _ _ _ h => h⟩
    simp only [code, Abs.exec, Abs.step, if_pos hx, Option.bind_some]
  | .un t f e, a, hx, hv => by
    obtain ⟨it, v, cur, h1, h2, h3, h4, h5⟩ := code_abs truth e a hx hv
    refine ⟨.val ⟨v.wide, fun i => if active n a.run v.wide i then (v.at_ i).map f else none⟩, _, cur, ?_,
      rfl, fun i hi hr => ?_, fun hN hC => ⟨(h4 hN hC).1, fun hR i hi => ?_⟩, h5⟩
    · rw [code, absExec_append, h1, Option.bind_some]
      have : ({ a with stack := it :: a.stack, cur := cur } : Abs V).look it = some v := h2
      simp only [Abs.exec, Abs.step, this, Option.map_some, Option.bind_some]
    · show (if _ then _ else _) = _
      rw [if_pos, h3 i hi hr, evalE]
      cases hw : v.wide with
      | true => rw [active_wide]; exact hr
      | false => exact (active_narrow _ _ _).2 ⟨i, hi, hr⟩
    · show (if _ then _ else _) = _
      rw [(h4 hN hC).1, if_pos ((active_narrow _ _ _).2 hR), (h4 hN hC).2 hR i hi, evalE]
  | .bin t f e e', a, hx, hv => by
    obtain ⟨it', w, cur', g1, g2, g3, g4, g5⟩ := code_abs truth e' a hx.2 hv
    obtain ⟨it, v, cur, h1, h2, h3, h4, h5⟩ :=
      code_abs truth e { a with stack := it' :: a.stack, cur := cur' } hx.1 hv
    refine ⟨.val ⟨v.wide || w.wide, fun i => if active n a.run (v.wide || w.wide) i then
        (v.at_ i).bind fun x => (w.at_ i).map fun y => f x y else none⟩, _, cur, ?_,
      rfl, fun i hi hr => ?_, fun hN hC => ⟨?_, fun hR i hi => ?_⟩, fun i hi hr hc => ?_⟩
    · rw [code, absExec_append, g1, Option.bind_some, absExec_append, h1, Option.bind_some]
      have k1 : ({ a with stack := it :: it' :: a.stack, cur := cur } : Abs V).look it = some v := h2
      have k2 : ({ a with stack := it :: it' :: a.stack, cur := cur } : Abs V).look it' = some w := g2
      simp only [Abs.exec, Abs.step, k1, k2, Option.bind_eq_bind, Option.bind_some]
    · show (if _ then _ else _) = _
      rw [if_pos, g3 i hi hr, h3 i hi hr, evalE]
      cases hw : (v.wide || w.wide) with
      | true => rw [active_wide]; exact hr
      | false => exact (active_narrow _ _ _).2 ⟨i, hi, hr⟩
    · show (v.wide || w.wide) = false
      rw [(h4 hN.1 hC.1).1, (g4 hN.2 hC.2).1]; rfl
    · show (if _ then _ else _) = _
      have hw : (v.wide || w.wide) = false := by rw [(h4 hN.1 hC.1).1, (g4 hN.2 hC.2).1]; rfl
      rw [hw, if_pos ((active_narrow _ _ _).2 hR), (g4 hN.2 hC.2).2 hR i hi, (h4 hN.1 hC.1).2 hR i hi, evalE]
    · exact g5 i hi hr (h5 i hi hr hc)
  | .cond t c e e', a, hx, hv => by
    obtain ⟨ic, vc, cur1, c1, c2, c3, _, c5⟩ :=
      code_abs truth c { a with cur := fun _ => false } hx.1 hv
    -- the running points where the condition holds
    obtain ⟨cur2, hcur2⟩ : ∃ cur2 : Nat → Bool, cur2 = fun i =>
      if i < n ∧ a.run i = true then ((vc.at_ i).map truth).getD false else cur1 i := ⟨_, rfl⟩
    obtain ⟨ia, va, cur3, a1, a2, a3, _, a5⟩ := code_abs truth e
      { a with stack := ic :: a.stack, cur := cur2, run := cur2, stk := a.run :: a.stk } hx.2.1 hv
    obtain ⟨ib, vb, cur4, b1, b2, b3, _, b5⟩ := code_abs truth e'
      { a with stack := ia :: ic :: a.stack, cur := cur3, run := fun i => !cur2 i && a.run i,
               stk := a.run :: a.stk } hx.2.2 hv
    have hdef : ∀ i, i < n → a.run i = true → (vc.at_ i).isSome := fun i hi hr => by
      rw [c3 i hi hr]; exact evalE_some hv truth hi c hx.1
    refine ⟨.val ⟨decide (1 < n), fun i => if active n a.run false i then
        (vc.at_ i).bind fun y => if truth y then va.at_ i else vb.at_ i else none⟩, _, cur4, ?_,
      rfl, fun i hi hr => ?_, fun _ hC => absurd hC (fun h => h), fun i hi hr hc => ?_⟩
    · have s0 : a.step n truth .sClear = some { a with cur := fun _ => false } := rfl
      have s1 : ({ a with stack := ic :: a.stack, cur := cur1 } : Abs V).step n truth .dup =
          some { a with stack := .val vc :: ic :: a.stack, cur := cur1 } := by
        have : ({ a with stack := ic :: a.stack, cur := cur1 } : Abs V).look ic = some vc := c2
        simp only [Abs.step, this, Option.map_some]
      have s2 : ({ a with stack := .val vc :: ic :: a.stack, cur := cur1 } : Abs V).step n truth .sGet =
          some { a with stack := ic :: a.stack, cur := cur2 } := by
        rw [hcur2]
        simp only [Abs.step, Abs.look, Option.bind_some]
        rw [if_pos hdef]
      have s3 : ({ a with stack := ic :: a.stack, cur := cur2 } : Abs V).step n truth .rsPush =
          some { a with stack := ic :: a.stack, cur := cur2, stk := a.run :: a.stk } := rfl
      have s4 : ({ a with stack := ic :: a.stack, cur := cur2, stk := a.run :: a.stk } : Abs V).step n truth
          .rsGet = some { a with stack := ic :: a.stack, cur := cur2, run := cur2, stk := a.run :: a.stk } :=
        rfl
      have s5 : ({ a with stack := ia :: ic :: a.stack, cur := cur3, run := cur2,
                          stk := a.run :: a.stk } : Abs V).step n truth .rsInverse =
          some { a with stack := ia :: ic :: a.stack, cur := cur3, run := fun i => !cur2 i && a.run i,
                        stk := a.run :: a.stk } := rfl
      have s6 : ({ a with stack := ib :: ia :: ic :: a.stack, cur := cur4, run := fun i =>
                            !cur2 i && a.run i, stk := a.run :: a.stk } : Abs V).step n truth .rsPop =
          some { a with stack := ib :: ia :: ic :: a.stack, cur := cur4 } := rfl
      have k1 : ({ a with stack := ib :: ia :: ic :: a.stack, cur := cur4 } : Abs V).look ib = some vb := b2
      have k2 : ({ a with stack := ib :: ia :: ic :: a.stack, cur := cur4 } : Abs V).look ia = some va := a2
      have k3 : ({ a with stack := ib :: ia :: ic :: a.stack, cur := cur4 } : Abs V).look ic = some vc := c2
      rw [code, absExec_cons s0, absExec_append, c1, Option.bind_some, absExec_cons s1, absExec_cons s2,
        absExec_cons s3, absExec_cons s4, absExec_append, a1, Option.bind_some, absExec_cons s5,
        absExec_append, b1, Option.bind_some, absExec_cons s6]
      simp only [Abs.exec, Abs.step, k1, k2, k3, Option.bind_eq_bind, Option.bind_some]
    · show (if _ then _ else _) = _
      rw [if_pos ((active_narrow _ _ _).2 ⟨i, hi, hr⟩), c3 i hi hr, evalE]
      obtain ⟨y, hy⟩ := Option.isSome_iff_exists.1 (evalE_some hv truth hi c hx.1)
      have hy' : vc.at_ i = some y := (c3 i hi hr).trans hy
      have hcy : cur2 i = truth y := by
        rw [hcur2]
        show (if _ then _ else _) = _
        rw [if_pos ⟨hi, hr⟩, hy']; rfl
      have hy2 : evalE truth (envAt ({ a with cur := fun _ => false } : Abs V).vars i) c = some y := hy
      rw [hy2]
      simp only [Option.bind_some]
      cases hty : truth y with
      | true => rw [if_pos rfl, if_pos rfl]; exact a3 i hi (hcy.trans hty)
      | false =>
        rw [if_neg (by simp), if_neg (by simp)]
        refine b3 i hi ?_
        show (!cur2 i && a.run i) = true
        rw [hcy, hty, hr]; rfl
    · exfalso
      have h2 : cur2 i = cur1 i := by
        rw [hcur2]
        show (if _ then _ else _) = _
        rw [if_neg (fun h => by rw [hr] at h; exact absurd h.2 (by simp))]
      have h1 : cur1 i ≠ true := fun h => absurd (c5 i hi hr h) (by simp)
      have h3 : cur3 i = true := b5 i hi (by
        show (!cur2 i && a.run i) = false
        rw [hr]; simp) hc
      have hf : cur2 i = false := by rw [h2]; simpa using h1
      have : cur2 i = true := a5 i hi hf h3
      rw [hf] at this
      cases this

/-! ## Assignments on the machine with storage -/

/-- What a cell holds, as a value. -/
def cellVal (h : List (Cell V)) (p : Nat) : Val V :=
  match h[p]? with
  | some c => ⟨decide (1 < c.vals.length), c.get⟩
  | none => ⟨false, fun _ => none⟩

theorem HoldsV.cellVal {n : Nat} {h : List (Cell V)} {p : Nat} {v : Val V} (hv : HoldsV n h p v) :
    HoldsV n h p (cellVal h p) := by
  obtain ⟨c, hc, hl, _, _⟩ := hv
  exact ⟨c, hc, hl, by simp only [Stack.cellVal, hc], fun i x _ hx => by
    simpa only [Stack.cellVal, hc] using hx⟩

theorem vars_cellVal {n : Nat} {h : List (Cell V)} : ∀ {l : List Nat} {vs : List (Val V)},
    List.Forall₂ (HoldsV n h) l vs → List.Forall₂ (HoldsV n h) l (l.map (cellVal h))
  | _, _, .nil => .nil
  | _ :: _, _ :: _, .cons h1 h2 => .cons h1.cellVal (vars_cellVal h2)

theorem cell_ok {n : Nat} (hn : 0 < n) {h : List (Cell V)} {p : Nat} {v : Val V} (hv : HoldsV n h p v) :
    (∀ i, i < n → ((cellVal h p).at_ i).isSome) ∧
    ((cellVal h p).wide = false → ∀ i, i < n → (cellVal h p).at_ i = (cellVal h p).at_ 0) := by
  obtain ⟨c, hc, h1, h2, h3, h4, h5, hl⟩ := hv.parts hn
  have e : cellVal h p = ⟨decide (1 < c.vals.length), c.get⟩ := by simp only [Stack.cellVal, hc]
  rw [e]
  refine ⟨h2, fun hw => h5 ?_⟩
  rw [h1]; exact hw

theorem forall2_mem {α β : Type} {R : α → β → Prop} : ∀ {l : List α} {m : List β},
    List.Forall₂ R l m → ∀ a ∈ l, ∃ b, R a b
  | _, _, .nil, a, h => by simp at h
  | a' :: l, b' :: m, .cons h1 h2, a, h => by
    rcases List.mem_cons.1 h with rfl | h
    · exact ⟨b', h1⟩
    · exact forall2_mem h2 a h

theorem readVar_eq {s : State V} {x i p : Nat} (hp : s.vars[x]? = some p) :
    readVar s x i = (cellVal s.heap p).at_ i := by
  unfold readVar cellVal
  rw [hp]
  simp only [Option.bind_some]
  cases s.heap[p]? <;> rfl

theorem envAt_read (s : State V) (i x : Nat) :
    envAt (s.vars.map (cellVal s.heap)) i x = readVar s x i := by
  unfold envAt
  rw [List.getElem?_map]
  cases hp : s.vars[x]? with
  | none => simp [readVar, hp]
  | some p => rw [readVar_eq hp]; rfl

end Verif.Shader.Stack
