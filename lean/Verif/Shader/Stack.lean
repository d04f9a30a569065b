/-!
# The stack of the shader virtual machine and its temporaries

libs/shadervm/shaderstack.h, shaderstack.cpp, shadeopmacros.h, shadervariable.h and the stack
instructions of shadervm1.cpp.  The results of operators live in shader variables taken from pools
(one pool for each type and storage class), are pushed on the stack by reference, and go back to
their pool when the operator that uses them is done.  `pushv` pushes a reference to a variable.

Simplifications.  Shader variables are cells of a heap that only grows (the code deletes temporaries
only when the virtual machine goes away).  All types of the language have the same type `V` of values
here, so that a type is a tag that chooses a pool; a conversion is a unary operator.  Arrays
(`ipushv`, `ipop`), jumps and the functions of the shading library are left out.  Bit vectors are
functions to `Bool`.
-/

namespace Verif.Shader.Stack

variable {V : Type}

/-- The types with pools: libs/shadervm/shaderstack.cpp:62-249. -/
inductive Ty where
  | float | point | string | color | normal | vector | matrix
  deriving DecidableEq, Repr

/-- A shader variable: `CqShaderVariableUniform`, libs/shadervm/shadervariable.h:447-660, which has
one value, and `CqShaderVariableVarying`, 1057-1265, which has an array of values. -/
structure Cell (V : Type) where
  ty : Ty
  varying : Bool
  vals : List V
  deriving DecidableEq, Repr

/-- `Size`: the length of the array, libs/shadervm/shadervariable.h:650-653 (uniform), 1249-1252. -/
def Cell.size (c : Cell V) : Nat := c.vals.length

/-- `SetSize`: nothing for a uniform variable, libs/shadervm/shadervariable.h:474;
`std::vector::resize` for a varying one, 1091-1094 (new elements are `z`). -/
def Cell.setSize (z : V) (n : Nat) (c : Cell V) : Cell V :=
  if c.varying then { c with vals := c.vals.take n ++ List.replicate (n - c.vals.length) z } else c

/-- Reading element `i`: a uniform variable ignores the index, libs/shadervm/shadervariable.h:675-678;
outside the array of a varying one there is no defined value. -/
def Cell.get (c : Cell V) (i : Nat) : Option V :=
  if c.varying then c.vals[i]? else c.vals[0]?

/-- Writing element `i`: a uniform variable ignores the index, libs/shadervm/shadervariable.h:597-624;
outside the array of a varying one the write is undefined. -/
def Cell.put (c : Cell V) (i : Nat) (v : V) : Option (Cell V) :=
  let k := if c.varying then i else 0
  if k < c.vals.length then some { c with vals := c.vals.set k v } else none

/-- Writing without an index, `SetFloat(f)`: all elements, libs/shadervm/shadervariable.h:687-690
(uniform), 1292-1295. -/
def Cell.fill (c : Cell V) (v : V) : Cell V := { c with vals := c.vals.map fun _ => v }

/-- An entry of the stack, `SqStackEntry`: libs/shadervm/shaderstack.h:220-224. -/
structure Entry where
  data : Nat
  isTemp : Bool
  deriving DecidableEq, Repr

/-- The stack (`m_Stack` and `m_iTop`), the pools, the shader variables (`heap`), and which of them
are the variables of the shader (`vars`); the current state, the running state and the stack of
running states, libs/shadervm/shaderexecenv/shaderexecenv.h:127-169. -/
structure State (V : Type) where
  heap : List (Cell V)
  pools : Ty → Bool → List Nat
  stack : List Entry
  top : Nat
  vars : List Nat
  cur : Nat → Bool
  run : Nat → Bool
  stk : List (Nat → Bool)

/-- What is the same for a whole run: the number of points, what a new temporary holds, and the test
of a value, `GetBool`, libs/shadervm/shadervariable.h:1316-1319. -/
structure Env (V : Type) where
  points : Nat
  fresh : V
  truth : V → Bool

/-- `IsRunning`: some point is running, libs/shadervm/shaderexecenv/shaderexecenv.h:130, 170-173. -/
def Env.isRunning (E : Env V) (run : Nat → Bool) : Bool := (List.range E.points).any run

/-- Replace one of the pools (`m_UFPool`, `m_VFPool`, … of libs/shadervm/shaderstack.h:337-358). -/
def setPool (ps : Ty → Bool → List Nat) (t : Ty) (c : Bool) (l : List Nat) : Ty → Bool → List Nat :=
  fun t' c' => if t' = t ∧ c' = c then l else ps t' c'

/-- `GetNextTemp`: the first of the pool, or a new one; libs/shadervm/shaderstack.cpp:60-251.  A new
varying variable has one element, libs/shadervm/shadervariable.h:1060-1063. -/
def getTemp (z : V) (t : Ty) (c : Bool) (s : State V) : Nat × State V :=
  match s.pools t c with
  | [] => (s.heap.length, { s with heap := s.heap ++ [⟨t, c, [z]⟩] })
  | p :: ps => (p, { s with pools := setPool s.pools t c ps })

/-- `Release`: a temporary goes to the end of the pool of its type and class;
libs/shadervm/shaderstack.cpp:257-330. -/
def release (s : State V) (e : Entry) : Option (State V) :=
  if e.isTemp then do
    let c ← s.heap[e.data]?
    some { s with pools := setPool s.pools c.ty c.varying (s.pools c.ty c.varying ++ [e.data]) }
  else some s

/-- `Push` and `PushV`: libs/shadervm/shaderstack.h:246-279.  The elements that `resize` adds are null
entries, here the address 0 (`Push` writes an element before `Pop` reads it). -/
def push (s : State V) (e : Entry) : State V :=
  let st := if s.top ≥ s.stack.length then
    s.stack ++ List.replicate (s.top + 4 - s.stack.length) ⟨0, false⟩ else s.stack
  { s with stack := st.set s.top e, top := s.top + 1 }

/-- `Pop`: libs/shadervm/shaderstack.h:286-295.  On an empty stack it does not move and hands out the
entry at the bottom. -/
def pop (s : State V) : Option (Entry × State V) :=
  let t := if s.top ≠ 0 then s.top - 1 else s.top
  s.stack[t]?.map fun e => (e, { s with top := t })

/-- The macro `RESULT`: a temporary with as many elements as there are points;
libs/shadervm/shadeopmacros.h:39-40. -/
def result (E : Env V) (t : Ty) (c : Bool) (s : State V) : Option (Nat × State V) :=
  let (p, s) := getTemp E.fresh t c s
  s.heap[p]?.map fun d => (p, { s with heap := s.heap.set p (d.setSize E.fresh E.points) })

/-- The loop of the binary operators over the elements `i`, `i + 1`, …, `i + k - 1`:
libs/shadervm/shaderstack.h:167-174 and 183-189 and 198-204.  (`a` and `b` give the operands.) -/
def loop2 (run : Nat → Bool) (f : V → V → V) (a b : Nat → Option V) :
    Nat → Nat → Cell V → Option (Cell V)
  | 0, _, r => some r
  | k + 1, i, r =>
    if run i then do
      let x ← a i
      let y ← b i
      loop2 run f a b k (i + 1) (← r.put i (f x y))
    else loop2 run f a b k (i + 1) r

/-- The binary operators `OpABRS`: libs/shadervm/shaderstack.h:146-213. -/
def op2 (run : Nat → Bool) (f : V → V → V) (a b r : Cell V) : Option (Cell V) :=
  if a.size > 1 ∧ b.size > 1 then
    loop2 run f (fun i => a.vals[i]?) (fun i => b.vals[i]?) a.size 0 r
  else if ¬ b.size > 1 ∧ a.size > 1 then
    loop2 run f (fun i => a.vals[i]?) (fun _ => b.get 0) a.size 0 r
  else if ¬ a.size > 1 ∧ b.size > 1 then
    loop2 run f (fun _ => a.get 0) (fun i => b.vals[i]?) b.size 0 r
  else do
    let x ← a.get 0
    let y ← b.get 0
    some (r.fill (f x y))

/-- The loop of the unary operators: libs/shadervm/shaderstack.h:586-591. -/
def loop1 (run : Nat → Bool) (f : V → V) (a : Nat → Option V) : Nat → Nat → Cell V → Option (Cell V)
  | 0, _, r => some r
  | k + 1, i, r =>
    if run i then do
      let x ← a i
      loop1 run f a k (i + 1) (← r.put i (f x))
    else loop1 run f a k (i + 1) r

/-- The unary operators `OpNEG` and `OpCAST`: libs/shadervm/shaderstack.h:571-599, 628-656. -/
def op1 (run : Nat → Bool) (f : V → V) (a r : Cell V) : Option (Cell V) :=
  if a.size > 1 then loop1 run f (fun i => a.vals[i]?) a.size 0 r
  else do
    let x ← a.get 0
    some (r.fill (f x))

/-- The loop of `mergef`: libs/shadervm/shadervm1.cpp:201-212.  All points, running or not. -/
def mergeLoop (truth : V → Bool) (c t f : Cell V) : Nat → Nat → Cell V → Option (Cell V)
  | 0, _, r => some r
  | k + 1, i, r => do
    let vc ← c.get i
    let vt ← t.get i
    let vf ← f.get i
    mergeLoop truth c t f k (i + 1) (← r.put i (if truth vc then vt else vf))

/-- `SetValueFromVariable(pVal, i)`: libs/shadervm/shadervariable.h:706-709 (a uniform variable takes
element 0 of the value, whatever `i` is) and 1332-1335. -/
def setFrom (v : Cell V) (w : Cell V) (i : Nat) : Option (Cell V) := do
  let x ← w.get (if v.varying then i else 0)
  v.put i x

/-- The loop of `pop`: libs/shadervm/shadervm1.cpp:144-148. -/
def popLoop (run : Nat → Bool) (var : Bool) (w : Cell V) : Nat → Nat → Cell V → Option (Cell V)
  | 0, _, v => some v
  | k + 1, i, v =>
    if !var || run i then do popLoop run var w k (i + 1) (← setFrom v w i)
    else popLoop run var w k (i + 1) v

/-- `SetValueFromVariable(pVal)`, all elements: libs/shadervm/shadervariable.h:630-633 (uniform),
1299-1315 (as many elements as this variable has, read from the array of the other). -/
def copyFrom (v : Cell V) (w : Cell V) : Option (Cell V) :=
  if v.varying then
    if w.size > 1 then
      if v.size ≤ w.size then some { v with vals := w.vals.take v.size } else none
    else do
      let x ← w.get 0
      some (v.fill x)
  else do
    let x ← w.get 0
    some (v.fill x)

/-- The loop of `S_GET`: libs/shadervm/shadervm1.cpp:475-483. -/
def getLoop (truth : V → Bool) (run : Nat → Bool) (c : Cell V) :
    Nat → Nat → (Nat → Bool) → Option (Nat → Bool)
  | 0, _, cur => some cur
  | k + 1, i, cur =>
    if run i then do
      let v ← c.get i
      getLoop truth run c k (i + 1) (fun j => if j = i then truth v else cur j)
    else getLoop truth run c k (i + 1) cur

/-- The stack instructions, libs/shadervm/shadervm1.cpp:40-151, 189-218, 440-486, 575-1100. -/
inductive Instr (V : Type) where
  | pushf (v : V)
  | pushk (t : Ty) (v : V)
  | pushv (x : Nat)
  | dup
  | drop
  | un (t : Ty) (f : V → V)
  | bin (t : Ty) (f : V → V → V)
  | merge (t : Ty)
  | store (x : Nat)
  | sClear
  | sGet
  | rsPush
  | rsGet
  | rsInverse
  | rsPop

/-- `if(m_pEnv->IsRunning())`: e.g. libs/shadervm/shadervm1.cpp:867-868. -/
def runIf {α : Type} (running : Bool) (x : Option α) (y : α) : Option α :=
  if running then x else some y

/-- The top entry, as `Dup` reads it: libs/shadervm/shaderstack.h:304-306 (index -1 if the stack is
empty). -/
def topEntry (s : State V) : Option Entry := if s.top = 0 then none else s.stack[s.top - 1]?

/-- One instruction, libs/shadervm/shadervm1.cpp at the lines given below; `none` is undefined
behaviour. -/
def step (E : Env V) (s : State V) : Instr V → Option (State V)
  /- `pushif`: libs/shadervm/shadervm1.cpp:53-63. -/
  | .pushf v => do
    let (p, s) ← result E .float false s
    let d ← s.heap[p]?
    some (push { s with heap := s.heap.set p (d.fill v) } ⟨p, true⟩)
  /- `puship` and `pushis`: shadervm1.cpp:65-88. -/
  | .pushk t v => do
    let (p, s) ← result E t false s
    let d ← s.heap[p]?
    let d := if E.isRunning s.run then d.fill v else d
    some (push { s with heap := s.heap.set p d } ⟨p, true⟩)
  /- `pushv`: shadervm1.cpp:90-93. -/
  | .pushv x => do
    let p ← s.vars[x]?
    some (push s ⟨p, false⟩)
  /- `Dup`: shaderstack.h:302-311. -/
  | .dup => do
    let e ← topEntry s
    let c ← s.heap[e.data]?
    let (p, s) := getTemp E.fresh c.ty c.varying s
    let d ← s.heap[p]?
    let d ← copyFrom (d.setSize E.fresh c.size) c
    some (push { s with heap := s.heap.set p d } ⟨p, true⟩)
  /- `Drop`: shaderstack.h:315-319. -/
  | .drop => do
    let (e, s) ← pop s
    release s e
  /- Unary operators, e.g. `negf`: shadervm1.cpp:887-896; conversions. -/
  | .un t f => do
    let (a, s) ← pop s
    let ca ← s.heap[a.data]?
    let (p, s) ← result E t (decide (ca.size > 1)) s
    let ca ← s.heap[a.data]?
    let r ← s.heap[p]?
    let r ← runIf (E.isRunning s.run) (op1 s.run f ca r) r
    release (push { s with heap := s.heap.set p r } ⟨p, true⟩) a
  /- Binary operators, e.g. `addff`: shadervm1.cpp:861-872. -/
  | .bin t f => do
    let (a, s) ← pop s
    let (b, s) ← pop s
    let ca ← s.heap[a.data]?
    let cb ← s.heap[b.data]?
    let (p, s) ← result E t (decide (ca.size > 1) || decide (cb.size > 1)) s
    let ca ← s.heap[a.data]?
    let cb ← s.heap[b.data]?
    let r ← s.heap[p]?
    let r ← runIf (E.isRunning s.run) (op2 s.run f ca cb r) r
    let s ← release (push { s with heap := s.heap.set p r } ⟨p, true⟩) b
    release s a
  /- `mergef`: shadervm1.cpp:189-218. -/
  | .merge t => do
    let (f, s) ← pop s
    let (tr, s) ← pop s
    let (a, s) ← pop s
    let (p, s) ← result E t true s
    let ca ← s.heap[a.data]?
    let ct ← s.heap[tr.data]?
    let cf ← s.heap[f.data]?
    let r ← s.heap[p]?
    let r ← runIf (E.isRunning s.run) (mergeLoop E.truth ca ct cf E.points 0 r) r
    let s ← release (push { s with heap := s.heap.set p r } ⟨p, true⟩) a
    let s ← release s tr
    release s f
  /- `pop`: shadervm1.cpp:132-151. -/
  | .store x => do
    let q ← s.vars[x]?
    let (e, s) ← pop s
    let w ← s.heap[e.data]?
    let v ← s.heap[q]?
    let ext := max E.points v.size
    let v ← runIf (E.isRunning s.run) (popLoop s.run (decide (ext > 1)) w ext 0 v) v
    release { s with heap := s.heap.set q v } e
  /- `S_CLEAR`: shadervm1.cpp:460-463, shaderexecenv.h:132-135. -/
  | .sClear => some { s with cur := fun _ => false }
  /- `S_GET`: shadervm1.cpp:465-486. -/
  | .sGet => do
    let (e, s) ← pop s
    let c ← s.heap[e.data]?
    let cur ← runIf (E.isRunning s.run) (getLoop E.truth s.run c E.points 0 s.cur) s.cur
    release { s with cur := cur } e
  /- `RS_PUSH`, `RS_GET`, `RS_INVERSE`, `RS_POP`: shaderexecenv.h:136-139, 127-131, 146-152, 140-145. -/
  | .rsPush => some { s with stk := s.run :: s.stk }
  | .rsGet => some { s with run := s.cur }
  | .rsInverse =>
    match s.stk with
    | [] => some { s with run := fun i => !s.run i }
    | m :: _ => some { s with run := fun i => !s.run i && m i }
  | .rsPop =>
    match s.stk with
    | [] => none
    | m :: st => some { s with run := m, stk := st }

/-- A sequence of instructions: the main loop, libs/shadervm/shadervm.cpp:1552-1556. -/
def exec (E : Env V) (s : State V) : List (Instr V) → Option (State V)
  | [] => some s
  | i :: is => do exec E (← step E s i) is

/-- Expressions without assignments inside, libs/slcomp/parse/parser.yy:1443-1484. -/
inductive Expr (V : Type) where
  | num (v : V)
  | con (t : Ty) (v : V)
  | var (x : Nat)
  | un (t : Ty) (f : V → V) (a : Expr V)
  | bin (t : Ty) (f : V → V → V) (a b : Expr V)
  | cond (t : Ty) (c a b : Expr V)

/-- The code for an expression.  Operators are functions, libs/slcomp/parse/parser.yy:1443-1464, whose
arguments are put out from the last to the first, libs/slcomp/backend/vmoutput.cpp:157-169; conditional
expressions, vmoutput.cpp:797-814. -/
def code : Expr V → List (Instr V)
  | .num v => [.pushf v]
  | .con t v => [.pushk t v]
  | .var x => [.pushv x]
  | .un t f a => code a ++ [.un t f]
  | .bin t f a b => code b ++ (code a ++ [.bin t f])
  | .cond t c a b =>
    .sClear :: (code c ++ (.dup :: .sGet :: .rsPush :: .rsGet ::
      (code a ++ (.rsInverse :: (code b ++ [.rsPop, .merge t])))))

/-- The code for the assignment of an expression to a variable: vmoutput.cpp:334-364. -/
def codeAssign (x : Nat) (e : Expr V) : List (Instr V) := code e ++ [.store x]

/-- `init_illuminance2`, with `v` for what `SO_init_illuminance` returns:
libs/shadervm/shadervm2.cpp:1072-1086.  The second operand is not released. -/
def initIlluminance2 (E : Env V) (v : V) (s : State V) : Option (State V) := do
  let (a, s) ← pop s
  let (_, s) ← pop s
  let (p, s) ← result E .float true s
  let d ← s.heap[p]?
  let d := if E.isRunning s.run then d.fill v else d
  release (push { s with heap := s.heap.set p d } ⟨p, true⟩) a

end Verif.Shader.Stack
