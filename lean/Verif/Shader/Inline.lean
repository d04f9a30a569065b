/-!
# Calls of functions defined in a shader

The code generator (libs/slcomp/backend/codegenvm.cpp, vmoutput.cpp, vmdatagather.cpp) has no call
instruction: the body of a function is written out at every call.  A parameter whose argument is a
variable is replaced by that variable (translation tables); for any other argument the value is
popped into a temporary variable whose name has the depth of the call (temporary maps).

The virtual machine (libs/shadervm/shaderstack.h, shadervm1.cpp) keeps *references* to variables on
its stack: `pushv` pushes a pointer, which is read when the entry is used.

Simplifications.  One shading point, one type of values, straight line code (control flow and masks
are the subject of C50).  Built in functions have one or two arguments.  A variable is the number of
its definition (`SqVarRef`); that different variables have different names is the subject of C77.
`ext` is what a chain of `extern` declarations leads to (libs/slcomp/parse/vardef.cpp:188-202).  A
call holds the parameters and the body of the function it calls (a function is known only after its
definition, libs/slcomp/parse/parser.yy:280-282, so there is no recursion).
-/

namespace Verif.Shader.Inline

/-- A variable definition, include/aqsis/slcomp/ivardef.h:220-232. -/
abbrev Var := Nat

/-- Parse trees.  `idx` is an array element, `set` an assignment used as an expression, `put` an
assignment used as a statement (`NoDup`, libs/slcomp/parse/parser.yy:968), `drop` an expression used
as a statement (parser.yy:969-976).  `return e` is the tree of `e` (parser.yy:990-1010; the cast to the
type of the function is removed if it changes nothing, libs/slcomp/parse/optimise.cpp:81-95).  `call`
has the list of parameters with their arguments (`nil`, `arg`) and the body. -/
inductive Tree (V : Type) where
  | const (v : V)
  | var (x : Var)
  | idx (x : Var) (e : Tree V)
  | un (f : V → V) (a : Tree V)
  | op (f : V → V → V) (a b : Tree V)
  | set (x : Var) (e : Tree V)
  | put (x : Var) (e : Tree V)
  | drop (e : Tree V)
  | skip
  | seq (a b : Tree V)
  | call (args body : Tree V)
  | nil
  | arg (p : Var) (a rest : Tree V)

/-- A name in the output: of a variable, or of a temporary with the depth of the call and the name of
the parameter, codegenvm.cpp:126-128. -/
inductive Loc where
  | plain (x : Var)
  | temp (d : Nat) (x : Var)
  deriving DecidableEq

/-- The instructions, libs/shadervm/shadervm1.cpp:38-151; `op1`, `op2` stand for the built in
functions. -/
inductive Instr (V : Type) where
  | pushc (v : V)
  | pushv (l : Loc)
  | ipushv (l : Loc)
  | op1 (f : V → V)
  | op2 (f : V → V → V)
  | dup
  | pop (l : Loc)
  | drop

/-! ## Names -/

/-- The translation tables and temporary maps, innermost call first (vmoutput.h:115-116).  A map is
given by the parameters it has temporaries for. -/
structure Ctx where
  trans : List (List (Var × Var))
  maps : List (List Var)

variable {V : Type}

/-- `IsVariableRef` and `VarRef`, libs/slcomp/parse/parsenode.h:79-82, 499-502: inherited by
array elements (parsenode.h:566) and by assignments (parsenode.h:615). -/
def isRef : Tree V → Option Var
  | .var x => some x
  | .idx x _ => some x
  | .set x _ => some x
  | _ => none

/-- The parameters that get temporaries, `CreateTempMap`, codegenvm.cpp:111-138. -/
def temps : Tree V → List Var
  | .arg p a r =>
    match isRef a with
    | some _ => temps r
    | none => p :: temps r
  | _ => []

/-- The translations, `CreateTranslationTable`, codegenvm.cpp:49-76. -/
def table : Tree V → List (Var × Var)
  | .arg p a r =>
    match isRef a with
    | some x => (p, x) :: table r
    | none => table r
  | _ => []

/-- The maps in a call: none is pushed for a function without parameters, vmoutput.cpp:192-194,
213-232. -/
def pushMap (args : Tree V) (maps : List (List Var)) : List (List Var) :=
  match args with
  | .nil => maps
  | _ => temps args :: maps

/-- `pTranslatedVariable` before the definition is looked up, codegenvm.cpp:79-105: the search goes on
in the table of the next call only when the variable was found. -/
def translate : List (List (Var × Var)) → Var → Var
  | [], x => x
  | t :: ts, x =>
    match t.lookup x with
    | some y => translate ts y
    | none => x

/-- `FindTemporaryVariable`, codegenvm.cpp:140-147; the depth in the name is the size of the stack
when the map had been pushed, codegenvm.cpp:117-127. -/
def findTemp : List (List Var) → Var → Option Nat
  | [], _ => none
  | m :: ms, x => if x ∈ m then some (ms.length + 1) else findTemp ms x

/-- The name written for a definition, vmoutput.cpp:291-299. -/
def loc (maps : List (List Var)) (y : Var) : Loc :=
  match findTemp maps y with
  | some d => .temp d y
  | none => .plain y

/-- The name written for a variable node, vmoutput.cpp:289-299. -/
def resolve (ext : Var → Var) (c : Ctx) (x : Var) : Loc :=
  loc c.maps (ext (translate c.trans x))

/-! ## The generator -/

/-- The code for a tree: vmoutput.cpp:476-479 (constant), 279-300 (variable), 302-332 (array element),
155-188 (built in function: the last argument first), 334-364 (assignment), 462-474 (drop), 54-62
(list), 189-233 (function of the shader; `arg` are lines 198-211). -/
def gen (ext : Var → Var) : Tree V → Ctx → List (Instr V)
  | .const v, _ => [.pushc v]
  | .var x, c => [.pushv (resolve ext c x)]
  | .idx x e, c => gen ext e c ++ [.ipushv (resolve ext c x)]
  | .un f a, c => gen ext a c ++ [.op1 f]
  | .op f a b, c => gen ext b c ++ (gen ext a c ++ [.op2 f])
  | .set x e, c => gen ext e c ++ [.dup, .pop (resolve ext c x)]
  | .put x e, c => gen ext e c ++ [.pop (resolve ext c x)]
  | .drop e, c => gen ext e c ++ [.drop]
  | .skip, _ => []
  | .seq a b, c => gen ext a c ++ gen ext b c
  | .call args body, c =>
    gen ext args ⟨c.trans, pushMap args c.maps⟩ ++
      gen ext body ⟨table args :: c.trans, pushMap args c.maps⟩
  | .nil, _ => []
  | .arg p a r, c =>
    (match isRef a with
      | some _ => []
      | none => gen ext a c ++ [.pop (resolve ext c p)]) ++ gen ext r c

/-- The context in which the body of a shader is written, vmoutput.cpp:76-77. -/
def Ctx.start : Ctx := ⟨[], [[]]⟩

/-- The names found by the first pass, vmdatagather.cpp:90-147, 163-206 (a variable is declared when
it has been counted, vmoutput.cpp:995-1007) and codegenvm.cpp:124-134 (a temporary; the parameter it
is for is counted too). -/
def gather (ext : Var → Var) : Tree V → Ctx → List Loc
  | .const _, _ => []
  | .var x, c => [.plain (ext (translate c.trans x))]
  | .idx x e, c => gather ext e c ++ [.plain (ext (translate c.trans x))]
  | .un _ a, c => gather ext a c
  | .op _ a b, c => gather ext a c ++ gather ext b c
  | .set x e, c => gather ext e c ++ [.plain (ext (translate c.trans x))]
  | .put x e, c => gather ext e c ++ [.plain (ext (translate c.trans x))]
  | .drop e, c => gather ext e c
  | .skip, _ => []
  | .seq a b, c => gather ext a c ++ gather ext b c
  | .call args body, c =>
    (temps args).map (fun p => .temp (c.maps.length + 1) p) ++
      (gather ext args ⟨c.trans, pushMap args c.maps⟩ ++
        gather ext body ⟨table args :: c.trans, pushMap args c.maps⟩)
  | .nil, _ => []
  | .arg p a r, c =>
    (match isRef a with
      | some _ => []
      | none => .plain (ext (translate c.trans p)) :: gather ext a c) ++ gather ext r c

/-! ## The machine -/

/-- A stack entry: a pointer to a variable, or a temporary of the machine (which nothing else refers
to), shaderstack.h:220-224. -/
inductive Entry (V : Type) where
  | ref (l : Loc)
  | val (v : V)

/-- The value of an entry when it is used. -/
def Entry.read (s : Loc → V) : Entry V → V
  | .ref l => s l
  | .val v => v

/-- Assignment to a name. -/
def write (s : Loc → V) (l : Loc) (v : V) : Loc → V := fun m => if m = l then v else s m

/-- One instruction; `none` when the stack is too short.  shadervm1.cpp:40-63 (`dup`, `drop`,
`pushif`), 90-130 (`pushv`, `ipushv`), 132-151 (`pop`), shadeopmacros.h:53-66 (functions: the first
argument is popped first), shaderstack.h:246-319. -/
def step (sel : V → V → V) : Instr V → (Loc → V) × List (Entry V) →
    Option ((Loc → V) × List (Entry V))
  | .pushc v, (s, st) => some (s, .val v :: st)
  | .pushv l, (s, st) => some (s, .ref l :: st)
  | .ipushv l, (s, i :: st) => some (s, .val (sel (s l) (i.read s)) :: st)
  | .op1 f, (s, a :: st) => some (s, .val (f (a.read s)) :: st)
  | .op2 f, (s, a :: b :: st) => some (s, .val (f (a.read s) (b.read s)) :: st)
  | .dup, (s, a :: st) => some (s, .val (a.read s) :: a :: st)
  | .pop l, (s, a :: st) => some (write s l (a.read s), st)
  | .drop, (s, _ :: st) => some (s, st)
  | _, _ => none

/-- The main loop, libs/shadervm/shadervm.cpp:1552-1559, for straight line code. -/
def exec (sel : V → V → V) : List (Instr V) → (Loc → V) × List (Entry V) →
    Option ((Loc → V) × List (Entry V))
  | [], m => some m
  | i :: r, m => (step sel i m).bind (exec sel r)

end Verif.Shader.Inline
