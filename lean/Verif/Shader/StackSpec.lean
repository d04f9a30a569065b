import Verif.Shader.Stack
import Mathlib.Data.List.Forall2

/-!
# What the stack of the shader virtual machine is for

A machine without storage: the stack holds values (a value for each point, where one is known) and
references to variables.  A value that is not known is what an operator leaves at a point where it
did not run, or whatever it makes of such a value.
-/

namespace Verif.Shader.Stack

variable {V : Type}

/-- A value: is it different from point to point, and what is it at each point, if known. -/
structure Val (V : Type) where
  wide : Bool
  at_ : Nat → Option V

/-- An element of the stack: a value, or a reference to a variable. -/
inductive Item (V : Type) where
  | val (v : Val V)
  | ref (x : Nat)

/-- The machine without storage. -/
structure Abs (V : Type) where
  stack : List (Item V)
  vars : List (Val V)
  cur : Nat → Bool
  run : Nat → Bool
  stk : List (Nat → Bool)

/-- The value of an element: a reference is looked up when it is used. -/
def Abs.look (a : Abs V) : Item V → Option (Val V)
  | .val v => some v
  | .ref x => a.vars[x]?

/-- Is any of the first `n` points running? -/
def someRun (n : Nat) (run : Nat → Bool) : Prop := ∃ i, i < n ∧ run i = true

open Classical in
/-- Where an operator computes: at the running points, or everywhere if its operands are the same
everywhere and some point is running. -/
noncomputable def active (n : Nat) (run : Nat → Bool) (wide : Bool) (i : Nat) : Bool :=
  if wide then run i else decide (someRun n run)

/-- One instruction of the machine without storage, for `n` points; `none` if the stack is too short,
or a condition is not known at a running point. -/
noncomputable def Abs.step (n : Nat) (truth : V → Bool) (a : Abs V) : Instr V → Option (Abs V)
  | .pushf v => some { a with stack := .val ⟨false, fun _ => some v⟩ :: a.stack }
  | .pushk _ v =>
    some { a with
      stack := .val ⟨false, fun i => if active n a.run false i then some v else none⟩ :: a.stack }
  | .pushv x => if x < a.vars.length then some { a with stack := .ref x :: a.stack } else none
  | .dup =>
    match a.stack with
    | e :: st => (a.look e).map fun v => { a with stack := .val v :: e :: st }
    | [] => none
  | .drop =>
    match a.stack with
    | _ :: st => some { a with stack := st }
    | [] => none
  | .un _ f =>
    match a.stack with
    | e :: st => (a.look e).map fun v =>
      { a with stack := .val ⟨v.wide, fun i =>
          if active n a.run v.wide i then (v.at_ i).map f else none⟩ :: st }
    | [] => none
  | .bin _ f =>
    match a.stack with
    | e :: e' :: st => do
      let v ← a.look e
      let w ← a.look e'
      some { a with stack := .val ⟨v.wide || w.wide, fun i =>
          if active n a.run (v.wide || w.wide) i then
            (v.at_ i).bind fun x => (w.at_ i).map fun y => f x y
          else none⟩ :: st }
    | _ => none
  | .merge _ =>
    match a.stack with
    | ef :: et :: ec :: st => do
      let vf ← a.look ef
      let vt ← a.look et
      let vc ← a.look ec
      some { a with stack := .val ⟨decide (1 < n), fun i =>
          if active n a.run false i then
            (vc.at_ i).bind fun c => if truth c then vt.at_ i else vf.at_ i
          else none⟩ :: st }
    | _ => none
  | .store x =>
    match a.stack with
    | e :: st => do
      let v ← a.look e
      let o ← a.vars[x]?
      some { a with
        stack := st
        vars := a.vars.set x
          (if o.wide then ⟨true, fun i => if a.run i then v.at_ i else o.at_ i⟩
           else ⟨false, fun i => if active n a.run false i then v.at_ 0 else o.at_ i⟩) }
    | [] => none
  | .sClear => some { a with cur := fun _ => false }
  | .sGet =>
    match a.stack with
    | e :: st => (a.look e).bind fun v =>
      open Classical in
      if ∀ i, i < n → a.run i = true → (v.at_ i).isSome then
        some { a with
          stack := st
          cur := fun i => if i < n ∧ a.run i = true then ((v.at_ i).map truth).getD false else a.cur i }
      else none
    | [] => none
  | .rsPush => some { a with stk := a.run :: a.stk }
  | .rsGet => some { a with run := a.cur }
  | .rsInverse => some { a with run := fun i => !a.run i && (a.stk.head?.map fun m => m i).getD true }
  | .rsPop =>
    match a.stk with
    | m :: st => some { a with run := m, stk := st }
    | [] => none

/-- A sequence of instructions. -/
noncomputable def Abs.exec (n : Nat) (truth : V → Bool) (a : Abs V) : List (Instr V) → Option (Abs V)
  | [] => some a
  | i :: is => (a.step n truth i).bind fun a => a.exec n truth is

/-! ## What relates the two machines -/

/-- The cell at address `p` holds the value `v` at all of the `n` points where it is known. -/
def HoldsV (n : Nat) (heap : List (Cell V)) (p : Nat) (v : Val V) : Prop :=
  ∃ c, heap[p]? = some c ∧ c.vals.length = (if c.varying then n else 1) ∧
    v.wide = decide (1 < c.vals.length) ∧ ∀ i x, i < n → v.at_ i = some x → c.get i = some x

/-- The entries in use, from the top of the stack down. -/
def live (s : State V) : List Entry := (s.stack.take s.top).reverse

/-- The temporaries among them. -/
def temps (l : List Entry) : List Nat := (l.filter (·.isTemp)).map (·.data)

/-- Storage is used for one thing at a time: no temporary in use is in use twice, is in a pool or is a
variable; pools hold what they are for.  And nothing is lost: all storage is used for something. -/
structure Own (heap : List (Cell V)) (pools : Ty → Bool → List Nat) (vars used : List Nat) : Prop where
  used_nodup : used.Nodup
  used_ok : ∀ p ∈ used, p < heap.length ∧ p ∉ vars ∧ ∀ t c, p ∉ pools t c
  vars_nodup : vars.Nodup
  vars_ok : ∀ p ∈ vars, p < heap.length ∧ ∀ t c, p ∉ pools t c
  pool_nodup : ∀ t c, (pools t c).Nodup
  pool_ok : ∀ t c p, p ∈ pools t c → ∃ d, heap[p]? = some d ∧ d.ty = t ∧ d.varying = c
  uniform : ∀ (p : Nat) (d : Cell V), heap[p]? = some d → d.varying = false → d.vals.length = 1
  kept : ∀ p, p < heap.length → p ∈ used ∨ p ∈ vars ∨ ∃ t c, p ∈ pools t c

/-- An entry stands for an element of the stack. -/
def Stands (n : Nat) (heap : List (Cell V)) (vars : List Nat) (e : Entry) : Item V → Prop
  | .val v => e.isTemp = true ∧ HoldsV n heap e.data v
  | .ref x => e.isTemp = false ∧ vars[x]? = some e.data

/-- The machine with storage stands for the one without. -/
structure Rel (n : Nat) (s : State V) (a : Abs V) : Prop where
  own : Own s.heap s.pools s.vars (temps (live s))
  top : s.top ≤ s.stack.length
  stack : List.Forall₂ (Stands n s.heap s.vars) (live s) a.stack
  vars : List.Forall₂ (HoldsV n s.heap) s.vars a.vars
  cur : s.cur = a.cur
  run : s.run = a.run
  stk : s.stk = a.stk

/-! ## Expressions -/

/-- The value of an expression at one point, where the variables have the values `env`. -/
def evalE (truth : V → Bool) (env : Nat → Option V) : Expr V → Option V
  | .num v => some v
  | .con _ v => some v
  | .var x => env x
  | .un _ f a => (evalE truth env a).map f
  | .bin _ f a b => (evalE truth env a).bind fun x => (evalE truth env b).map fun y => f x y
  | .cond _ c a b => (evalE truth env c).bind fun v =>
      if truth v then evalE truth env a else evalE truth env b

/-- All variables of the expression satisfy `P`. -/
def AllVars (P : Nat → Prop) : Expr V → Prop
  | .num _ => True
  | .con _ _ => True
  | .var x => P x
  | .un _ _ a => AllVars P a
  | .bin _ _ a b => AllVars P a ∧ AllVars P b
  | .cond _ c a b => AllVars P c ∧ AllVars P a ∧ AllVars P b

/-- There is no conditional expression inside. -/
def NoCond : Expr V → Prop
  | .num _ => True
  | .con _ _ => True
  | .var _ => True
  | .un _ _ a => NoCond a
  | .bin _ _ a b => NoCond a ∧ NoCond b
  | .cond _ _ _ _ => False

/-- The value of variable `x` of the machine with storage at point `i`. -/
def readVar (s : State V) (x i : Nat) : Option V :=
  (s.vars[x]?).bind fun p => (s.heap[p]?).bind fun c => c.get i

/-- Is variable `x` of the machine with storage one of the class varying? -/
def isVarying (s : State V) (x : Nat) : Bool :=
  (((s.vars[x]?).bind fun p => s.heap[p]?).map fun c => c.varying).getD false

/-- A state of the machine that is in order. -/
def Sound (n : Nat) (s : State V) : Prop := ∃ a, Rel n s a

end Verif.Shader.Stack
