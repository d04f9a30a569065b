import Verif.Shader.Inline

/-!
# What a call of a function means

The meaning of trees, with call by reference for variables and call by value for everything else: a
memory of cells, an environment that says in which cell a variable is, a fresh cell for every
parameter passed by value, and expressions that have values.  A function that has returned does
nothing more.  Operands are evaluated from right to left.
-/

namespace Verif.Shader.Inline

variable {V : Type}

/-- A cell: of a variable of the shader or a local variable of a function, or a fresh one. -/
inductive Addr where
  | glob (x : Var)
  | cell (n : Nat)
  deriving DecidableEq

/-- The memory; the cells from `next` on are fresh. -/
structure St (V : Type) where
  mem : Addr → V
  next : Nat

/-- Assignment to a cell. -/
def St.write (s : St V) (a : Addr) (v : V) : St V :=
  { s with mem := fun b => if b = a then v else s.mem b }

/-- A fresh cell. -/
def St.alloc (s : St V) (v : V) : St V :=
  ⟨fun b => if b = .cell s.next then v else s.mem b, s.next + 1⟩

/-- What comes out of a tree: a value (of an expression, or one that a list of statements returned),
the cells of parameters (of a list of arguments), and the memory. -/
structure Out (V : Type) where
  val : Option V
  binds : List (Var × Addr)
  st : St V

/-- The environment of a body. -/
def bind (binds : List (Var × Addr)) (env : Var → Addr) : Var → Addr := fun x =>
  match binds.lookup x with
  | some a => a
  | none => env x

/-- Only a variable is passed by reference. -/
def byRef : Tree V → Option Var
  | .var x => some x
  | _ => none

/-- The meaning of a tree. -/
def eval (sel : V → V → V) (ext : Var → Var) : Tree V → (Var → Addr) → St V → Out V
  | .const v, _, s => ⟨some v, [], s⟩
  | .var x, env, s => ⟨some (s.mem (env (ext x))), [], s⟩
  | .idx x e, env, s =>
    let r := eval sel ext e env s
    ⟨r.val.map fun i => sel (r.st.mem (env (ext x))) i, [], r.st⟩
  | .un f a, env, s =>
    let r := eval sel ext a env s
    ⟨r.val.map f, [], r.st⟩
  | .op f a b, env, s =>
    let r := eval sel ext b env s
    let q := eval sel ext a env r.st
    ⟨q.val.bind fun va => r.val.map fun vb => f va vb, [], q.st⟩
  | .set x e, env, s =>
    let r := eval sel ext e env s
    match r.val with
    | some v => ⟨some v, [], r.st.write (env (ext x)) v⟩
    | none => ⟨none, [], r.st⟩
  | .put x e, env, s =>
    let r := eval sel ext e env s
    match r.val with
    | some v => ⟨none, [], r.st.write (env (ext x)) v⟩
    | none => ⟨none, [], r.st⟩
  | .drop e, env, s => ⟨none, [], (eval sel ext e env s).st⟩
  | .skip, _, s => ⟨none, [], s⟩
  | .seq a b, env, s =>
    let r := eval sel ext a env s
    match r.val with
    | some v => ⟨some v, [], r.st⟩
    | none => eval sel ext b env r.st
  | .call args body, env, s =>
    let r := eval sel ext args env s
    let q := eval sel ext body (bind r.binds env) r.st
    ⟨q.val, [], q.st⟩
  | .nil, _, s => ⟨none, [], s⟩
  | .arg p a rest, env, s =>
    match byRef a with
    | some x =>
      let r := eval sel ext rest env s
      ⟨none, (p, env (ext x)) :: r.binds, r.st⟩
    | none =>
      let q := eval sel ext a env s
      match q.val with
      | some v =>
        let r := eval sel ext rest env (q.st.alloc v)
        ⟨none, (p, .cell q.st.next) :: r.binds, r.st⟩
      | none => ⟨none, [], q.st⟩

/-- In the shader every variable has its own cell. -/
def Env.start : Var → Addr := fun x => .glob x

/-! ## Trees for which the code is right -/

/-- Is a value wanted, or none, or is it a list of arguments? -/
inductive Mode where
  | value
  | nothing
  | args
  deriving DecidableEq

/-- The parameters of a list of arguments. -/
def params : Tree V → List Var
  | .arg p _ r => p :: params r
  | _ => []

/-- The parameters passed by reference in the innermost call. -/
def topKeys : List (List (Var × Var)) → List Var
  | [] => []
  | t :: _ => t.map (·.1)

/-- The parameters passed by reference in all calls around. -/
def allKeys : List (List (Var × Var)) → List Var
  | [] => []
  | t :: ts => t.map (·.1) ++ allKeys ts

/-- A variable that may be used: a parameter passed by reference to the function at hand, or one that
(after `extern`) is not a parameter passed by reference to a function around.  `hid` are the parameters
of calls whose arguments are being evaluated. -/
def Vis (ext : Var → Var) (c : Ctx) (hid : List Var) (x : Var) : Prop :=
  ((x ∈ topKeys c.trans ∧ ext x = x) ∨ (x ∉ topKeys c.trans ∧ ext x ∉ allKeys c.trans)) ∧
    ext (translate c.trans x) ∉ hid

/-- The name that the code for a tree leaves on the stack, if it leaves a reference. -/
def leaves (ext : Var → Var) : Tree V → Ctx → Option Loc
  | .var x, c => some (resolve ext c x)
  | .set _ e, c => leaves ext e c
  | .seq _ b, c => leaves ext b c
  | .call args body, c => leaves ext body ⟨table args :: c.trans, pushMap args c.maps⟩
  | _, _ => none

/-- The names that code assigns to. -/
def pops : List (Instr V) → List Loc
  | [] => []
  | .pop l :: r => l :: pops r
  | _ :: r => pops r

/-- The trees for which the code is right: used variables are visible, a `return` comes last, array
elements and assignments are not arguments, the parameters of a function are different from each other,
and **a reference waiting on the stack is not overwritten** (the condition for `op`). -/
def Ok (ext : Var → Var) : Mode → Tree V → Ctx → List Var → Prop
  | .value, .const _, _, _ => True
  | .value, .var x, c, hid => Vis ext c hid x
  | .value, .idx x e, c, hid => Ok ext .value e c hid ∧ Vis ext c hid x
  | .value, .un _ a, c, hid => Ok ext .value a c hid
  | .value, .op _ a b, c, hid => Ok ext .value a c hid ∧ Ok ext .value b c hid ∧
      ∀ l, leaves ext b c = some l → l ∉ pops (gen ext a c)
  | .value, .set x e, c, hid => Ok ext .value e c hid ∧ Vis ext c hid x
  | .nothing, .put x e, c, hid => Ok ext .value e c hid ∧ Vis ext c hid x
  | .nothing, .drop e, c, hid => Ok ext .value e c hid
  | .nothing, .skip, _, _ => True
  | .value, .seq a b, c, hid => Ok ext .nothing a c hid ∧ Ok ext .value b c hid
  | .nothing, .seq a b, c, hid => Ok ext .nothing a c hid ∧ Ok ext .nothing b c hid
  | .value, .call args body, c, hid => (params args).Nodup ∧
      Ok ext .args args ⟨c.trans, pushMap args c.maps⟩ (temps args ++ hid) ∧
      Ok ext .value body ⟨table args :: c.trans, pushMap args c.maps⟩
        (hid.filter fun z => z ∉ params args)
  | .nothing, .call args body, c, hid => (params args).Nodup ∧
      Ok ext .args args ⟨c.trans, pushMap args c.maps⟩ (temps args ++ hid) ∧
      Ok ext .nothing body ⟨table args :: c.trans, pushMap args c.maps⟩
        (hid.filter fun z => z ∉ params args)
  | .args, .nil, _, _ => True
  | .args, .arg p a r, c, hid =>
    (match byRef a with
      | some x => Vis ext c hid x
      | none => isRef a = none ∧ Ok ext .value a c hid ∧ p ∉ topKeys c.trans ∧ ext p = p) ∧
    Ok ext .args r c hid
  | _, _, _, _ => False

end Verif.Shader.Inline
