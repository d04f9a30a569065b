/-!
# Varying control flow of the shading language

The code generator for shading language statements (libs/slcomp/backend/vmoutput.cpp) and the part
of the virtual machine (libs/shadervm/shadervm1.cpp, shaderexecenv/shaderexecenv.h) that runs all
points of a grid in step, with a running state (one bit per point) and a stack of running states.

Simplifications.  There is one type of values, with the test `truth` for `GetBool`; operators are
arbitrary functions on values.  A uniform value is a value that is the same at all points.  Variables
are varying, and expressions do not assign to variables (so the references pushed by `pushv` may be
taken for the values).  What an operator leaves at the points that are not running (contents of a
recycled temporary) is not known: it is taken from an arbitrary sequence.  Bit vectors are functions
to `Bool` (their operations are the subject of C24).
-/

namespace Verif.Shader.Simd

variable {V : Type} {n : Nat}

/-- Expressions of the shading language. -/
inductive Expr (V : Type) where
  | const (v : V)
  | var (x : Nat)
  | un (f : V → V) (a : Expr V)
  | bin (f : V → V → V) (a b : Expr V)
  | cond (c a b : Expr V)

/-- Statements: assignment, expression statement, sequence, `if` without and with `else`, `while` or
`for` (with the incrementing assignment of a `for`), `break m` and `continue m`. -/
inductive Stmt (V : Type) where
  | assign (x : Nat) (e : Expr V)
  | expr (e : Expr V)
  | seq (a b : Stmt V)
  | ifThen (c : Expr V) (t : Stmt V)
  | ifElse (c : Expr V) (t e : Stmt V)
  | loop (c : Expr V) (body : Stmt V) (inc : Option (Nat × Expr V))
  | brk (m : Nat)
  | cont (m : Nat)

/-- The instructions used, libs/shadervm/shadervm1.cpp:37-572; `label` is the `nop` put in place of a
label, libs/shadervm/shadervm.cpp:1084-1095. -/
inductive Instr (V : Type) where
  | pushif (v : V)
  | pushv (x : Nat)
  | op1 (f : V → V)
  | op2 (f : V → V → V)
  | dup
  | drop
  | merge
  | pop (x : Nat)
  | sClear
  | sGet
  | sJz (l : Nat)
  | rsGet
  | rsPush
  | rsPop
  | rsInverse
  | rsJz (l : Nat)
  | rsBreak (k : Int)
  | jmp (l : Nat)
  | label (l : Nat)

/-! ## The code generator -/

/-- The code for an expression: vmoutput.cpp:476-479 (constant), 279-300 (variable), 404-432
(operators), 784-815 (conditional expression). -/
def compE : Expr V → List (Instr V)
  | .const v => [.pushif v]
  | .var x => [.pushv x]
  | .un f a => compE a ++ [.op1 f]
  | .bin f a b => compE a ++ (compE b ++ [.op2 f])
  | .cond c a b =>
    .sClear :: (compE c ++ (.dup :: .sGet :: .rsPush :: .rsGet ::
      (compE a ++ (.rsInverse :: (compE b ++ [.rsPop, .merge])))))

/-- `rsPush` counts pushes for the innermost loop, vmoutput.cpp:1061-1067.  (`rsPop`, 1069-1075,
counts back; the calls are paired.) -/
def bump : List Nat → List Nat
  | [] => []
  | d :: ds => (d + 1) :: ds

/-- vmoutput.cpp:522-552, the number of levels; `none` is the output that cannot be loaded (531-539). -/
def breakLevels (ds : List Nat) (m : Nat) : Option Int :=
  if m > ds.length then none else some ((ds.take m).sum : Nat)

/-- The code for the incrementor of a loop, vmoutput.cpp:514-515. -/
def compInc : Option (Nat × Expr V) → List (Instr V)
  | none => []
  | some (x, e) => compE e ++ [.pop x]

/-- The code for a statement, given the counts of pushes per enclosing loop (innermost first) and the
number of labels used; vmoutput.cpp:334-364 (assignment), 462-474 (expression statement), 746-782
(conditional), 486-520 (loop), 522-552 (break, continue). -/
def compS : Stmt V → List Nat → Nat → Option (List (Instr V) × Nat)
  | .assign x e, _, l => some (compE e ++ [.pop x], l)
  | .expr e, _, l => some (compE e ++ [.drop], l)
  | .seq a b, ds, l =>
    (compS a ds l).bind fun r => (compS b ds r.2).map fun r' => (r.1 ++ r'.1, r'.2)
  | .ifThen c t, ds, l =>
    (compS t (bump ds) (l + 1)).map fun r =>
      (.sClear :: (compE c ++ (.sGet :: .rsPush :: .rsGet :: .rsJz l ::
        (r.1 ++ [.label l, .rsPop]))), r.2)
  | .ifElse c t e, ds, l =>
    (compS t (bump ds) (l + 2)).bind fun r => (compS e (bump ds) r.2).map fun r' =>
      (.sClear :: (compE c ++ (.sGet :: .rsPush :: .rsGet :: .rsJz (l + 1) ::
        (r.1 ++ (.label (l + 1) :: .rsInverse :: .rsJz l ::
          (r'.1 ++ [.label l, .rsPop]))))), r'.2)
  | .loop c b inc, ds, l =>
    (compS b (1 :: bump ds) (l + 2)).map fun r =>
      (.rsPush :: .label l :: .sClear :: (compE c ++ (.sGet :: .sJz (l + 1) :: .rsGet :: .rsPush ::
        (r.1 ++ (.rsPop :: (compInc inc ++ [.jmp l, .label (l + 1), .rsPop]))))), r.2)
  | .brk m, ds, l => (breakLevels ds m).map fun k => ([.rsBreak k], l)
  | .cont m, ds, l => (breakLevels ds m).map fun k => ([.rsBreak (k - 1)], l)

/-! ## The machine -/

/-- Is any bit set?  `Count() != 0`, shaderexecenv.h:130. -/
def any (m : Fin n → Bool) : Bool := decide (∃ i, m i = true)

/-- The machine: program counter, value stack, variables, the current state, the running state,
`m_isRunning`, the stack of running states, and a counter for the unknown contents of temporaries. -/
structure VM (V : Type) (n : Nat) where
  pc : Nat
  data : List (Fin n → V)
  vars : Nat → Fin n → V
  cur : Fin n → Bool
  run : Fin n → Bool
  running : Bool
  stk : List (Fin n → Bool)
  tick : Nat

/-- A step gives a state, or is undefined, or fails an assertion. -/
inductive Res (V : Type) (n : Nat) where
  | ok (s : VM V n)
  | ub
  | assertion

/-- Position of a label, from position `k` on: the last one counts, shadervm.cpp:1085-1094. -/
def labelPos : List (Instr V) → Nat → Nat → Option Nat
  | [], _, _ => none
  | i :: r, k, l =>
    match labelPos r (k + 1) l with
    | some p => some p
    | none =>
      match i with
      | .label l' => if l' = l then some k else none
      | _ => none

/-- A jump, shadervm1.cpp:568-573; the target is looked up when the program is loaded,
shadervm.cpp:1318-1335. -/
def VM.jump (prog : List (Instr V)) (s : VM V n) (l : Nat) : Res V n :=
  match labelPos prog 0 l with
  | some p => .ok { s with pc := p }
  | none => .ub

/-- Assignment to a variable, shadervm1.cpp:132-151. -/
def VM.assign (s : VM V n) (x : Nat) (v : Fin n → V) : Nat → Fin n → V :=
  if s.running then
    fun y i => if y = x then (if n ≤ 1 ∨ s.run i = true then v i else s.vars y i) else s.vars y i
  else s.vars

/-- `RunningStatesBreak`, shaderexecenv.h:153-169: the top `k` states lose the running points. -/
def maskTop (run : Fin n → Bool) : Nat → List (Fin n → Bool) → List (Fin n → Bool)
  | 0, st => st
  | _ + 1, [] => []
  | k + 1, m :: st => (fun i => m i && !run i) :: maskTop run k st

/-- One instruction; `junk` is what temporaries contain.  shadervm1.cpp:37-63 and 90-93, 132-151,
189-218, 440-512, 568-573; shaderexecenv.h:127-169; the operators as in shaderstack.h:146-213. -/
def exec1 (truth : V → Bool) (junk : Nat → Fin n → V) (prog : List (Instr V)) (s0 : VM V n) :
    Instr V → Res V n := fun ins =>
  let s := { s0 with pc := s0.pc + 1, tick := s0.tick + 1 }
  let mk (v : Fin n → V) : Fin n → V :=
    fun i => if s.running = true ∧ s.run i = true then v i else junk s.tick i
  match ins, s.data with
  | .pushif v, d => .ok { s with data := (fun _ => v) :: d }
  | .pushv x, d => .ok { s with data := s.vars x :: d }
  | .op1 f, a :: d => .ok { s with data := mk (fun i => f (a i)) :: d }
  | .op2 f, b :: a :: d => .ok { s with data := mk (fun i => f (a i) (b i)) :: d }
  | .dup, a :: d => .ok { s with data := a :: a :: d }
  | .drop, _ :: d => .ok { s with data := d }
  | .merge, b :: a :: c :: d =>
    .ok { s with data :=
      (if s.running then fun i => if truth (c i) then a i else b i else junk s.tick) :: d }
  | .pop x, a :: d => .ok { s with data := d, vars := s.assign x a }
  | .sClear, _ => .ok { s with cur := fun _ => false }
  | .sGet, a :: d => .ok { s with
      data := d,
      cur := if s.running then fun i => if s.run i then truth (a i) else s.cur i else s.cur }
  | .sJz l, _ => if any s.cur then .ok s else s.jump prog l
  | .rsGet, _ => .ok { s with run := s.cur, running := any s.cur }
  | .rsPush, _ => .ok { s with stk := s.run :: s.stk }
  | .rsPop, _ =>
    match s.stk with
    | [] => .ub
    | m :: st => .ok { s with run := m, running := any m, stk := st }
  | .rsInverse, _ =>
    let m : Fin n → Bool := match s.stk with
      | [] => fun i => !s.run i
      | t :: _ => fun i => !s.run i && t i
    .ok { s with run := m, running := any m }
  | .rsJz l, _ => if s.running then .ok s else s.jump prog l
  | .rsBreak k, _ =>
    if k < 0 ∨ (1 + s.stk.length : Int) < k then .assertion
    else if (s.stk.length : Int) < k then .ub
    else .ok { s with stk := maskTop s.run k.toNat s.stk, run := fun _ => false, running := false }
  | .jmp l, _ => s.jump prog l
  | .label _, _ => .ok s
  | _, _ => .ub

/-- How a run ends. -/
inductive Outcome (V : Type) (n : Nat) where
  | done (s : VM V n)
  | ub
  | assertion
  | more

/-- The main loop, shadervm.cpp:1552-1559, for at most `k` instructions.  At the end the value stack
is asserted to be empty. -/
def runVM (truth : V → Bool) (junk : Nat → Fin n → V) (prog : List (Instr V)) :
    Nat → VM V n → Outcome V n
  | 0, s => if s.pc < prog.length then .more else if s.data.isEmpty then .done s else .assertion
  | k + 1, s =>
    match prog[s.pc]? with
    | none => if s.data.isEmpty then .done s else .assertion
    | some i =>
      match exec1 truth junk prog s i with
      | .ok s' => runVM truth junk prog k s'
      | .ub => .ub
      | .assertion => .assertion

/-- The machine when a program is started on a grid: all points are running, shadervm.cpp:1546-1549,
libs/shadervm/shaderexecenv/shaderexecenv.cpp:193-197; `cur` is what is left in the current state. -/
def VM.start (vars : Nat → Fin n → V) (cur : Fin n → Bool) : VM V n :=
  { pc := 0, data := [], vars := vars, cur := cur, run := fun _ => true,
    running := true, stk := [], tick := 0 }

end Verif.Shader.Simd
