/-!
# Names of variables and functions in shaders

The shader compiler keeps all variables of a file in one list and all functions in another, under
names that begin with the name of their scope (libs/slcomp/parse/parser.yy:2063-2173).  The scanner
looks every identifier up when it is read (libs/slcomp/parse/scanner.ll:198-262).

Simplifications.  The parser is the sequence of its actions on scopes (`Ev`): the grammar is not
modelled.  Types and array lengths are left out.  A declaration looks its identifier up, adds the
variable and finds the variable node in one step; in the code the last two come after the
initialiser and after the other declarators, which adds nothing in front in the list
(parser.yy:575-605, 736-831).  The first token of a block is read before the scope is opened, as
bison needs it to tell `{ statements }` from `{ }` (parser.yy:1040-1052; see `C77_lookahead`).
`unsigned long` has 64 bits.
-/

namespace Verif.Shader.Scope

/-- A string. -/
abbrev Str := List Char

/-- `CqString::hash`, include/aqsis/util/sstring.h:71-85; strings have no zero in them. -/
def hash (s : Str) : Nat :=
  s.foldl (fun r c => (r * 31 + c.toNat) % 2 ^ 64) 0

/-- `SqVarRef` and `SqFuncRef`: a standard one or one of the file, with its index,
include/aqsis/slcomp/ivardef.h:220-232. -/
inductive Ref where
  | std (i : Nat)
  | loc (i : Nat)
  deriving DecidableEq

/-- `CqVarDef`: the name and, for `extern`, the variable it stands for, libs/slcomp/parse/vardef.h. -/
structure VarDef where
  name : Str
  ext : Option Ref
  deriving DecidableEq

/-- The state of the parser: `ParseNameSpaceStack` (top first), `gLocalVars`, `gLocalFuncs`,
`currentFunctionStack` and `scopeID`, parser.yy:48-51. -/
structure St where
  stack : List (Bool × Str)
  vars : List VarDef
  funcs : List Str
  decls : List Str
  id : Nat

/-- The state before a file is read, parser.yy:2167-2173. -/
def St.start : St := ⟨[(false, [])], [], [], [], 0⟩

/-- `strNameSpace`, parser.yy:2142-2150. -/
def ns (s : St) : Str :=
  match s.stack with
  | [] => []
  | (_, n) :: _ => n

/-- `CqVarDef::FindStandardVariable`, vardef.cpp:153-170. -/
def findStd (h : Str → Nat) (std : List Str) (n : Str) : Option Ref :=
  (std.findIdx? (fun m => h m == h n)).map .std

/-- `CqVarDef::FindVariable`, vardef.cpp:117-145. -/
def findVar (h : Str → Nat) (std : List Str) (vars : List VarDef) (n : Str) : Option Ref :=
  match vars.findIdx? (fun v => h v.name == h n) with
  | some i => some (.loc i)
  | none => findStd h std n

/-- `FindVariable` of the parser, parser.yy:2063-2072. -/
def findHere (h : Str → Nat) (std : List Str) (s : St) (n : Str) : Option Ref :=
  match findVar h std s.vars (ns s ++ n) with
  | some r => some r
  | none => findVar h std s.vars n

/-- `CqVarDef::GetVariablePtr`: follow `extern`, vardef.cpp:188-202. -/
def target (vars : List VarDef) : Nat → Ref → Ref
  | 0, r => r
  | _ + 1, .std i => .std i
  | f + 1, .loc i =>
    match vars[i]? with
    | some ⟨_, some r⟩ => target vars f r
    | _ => .loc i

/-- The variable that a reference stands for. -/
def ptr (s : St) (r : Ref) : Ref := target s.vars (s.vars.length + 1) r

/-- The name of a variable. -/
def varName (std : List Str) (s : St) : Ref → Str
  | .std i => std.getD i []
  | .loc i => (s.vars.map VarDef.name).getD i []

/-- The loop over the scopes in `check_type`, scanner.ll:212-220. -/
def walk (h : Str → Nat) (std : List Str) (vars : List VarDef) (x : Str) :
    List (Bool × Str) → Option Ref
  | [] => none
  | (t, n) :: r =>
    match findVar h std vars (n ++ x) with
    | some v => some v
    | none => if t then none else walk h std vars x r

/-- The variable that `check_type` finds for an identifier, scanner.ll:209-240. -/
def checkVar (h : Str → Nat) (std : List Str) (s : St) (x : Str) : Option Ref :=
  match findHere h std s (ns s ++ x) with
  | some r => some r
  | none =>
    match walk h std s.vars x s.stack with
    | some r => some r
    | none => findHere h std s x

/-- The indices of the entries of a list that are equal to a string. -/
def indices (n : Str) : Nat → List Str → List Nat
  | _, [] => []
  | k, m :: r => if m = n then k :: indices n (k + 1) r else indices n (k + 1) r

/-- `CqFuncDef::FindFunction`, libs/slcomp/parse/funcdef.cpp:370-402. -/
def findFuncs (stdF funcs : List Str) (n : Str) : List Ref :=
  (indices n 0 stdF).map .std ++ (indices n 0 funcs).map .loc

/-- `rfind("::")`. -/
def rfind : Str → Option Nat
  | [] => none
  | c :: r =>
    match rfind r with
    | some i => some (i + 1)
    | none => if c = ':' ∧ r.head? = some ':' then some 0 else none

/-- The next scope up, parser.yy:2086-2091; `npos + 2` is 1. -/
def up (n : Str) : Str :=
  if 2 < n.length ∧ n.drop (n.length - 2) = [':', ':'] then
    match rfind (n.take (n.length - 2)) with
    | some i => (n.take (n.length - 2)).take (i + 2)
    | none => (n.take (n.length - 2)).take 1
  else n

/-- The loop of `FindFunction`, parser.yy:2080-2095. -/
def funcLoop (stdF funcs : List Str) (x : Str) : Nat → Str → List Ref
  | 0, _ => findFuncs stdF funcs x
  | f + 1, n =>
    match findFuncs stdF funcs (n ++ x) with
    | r :: rs => r :: rs
    | [] =>
      if ':' ∈ up n then funcLoop stdF funcs x f (up n) else findFuncs stdF funcs x

/-- `FindFunction` of the parser, parser.yy:2075-2096. -/
def checkFunc (stdF : List Str) (s : St) (x : Str) : List Ref :=
  funcLoop stdF s.funcs x ((ns s).length + 1) (ns s)

/-- The name of a function. -/
def funcName (stdF : List Str) (s : St) : Ref → Str
  | .std i => stdF.getD i []
  | .loc i => s.funcs.getD i []

/-- What a declaration uses as name: the identifier itself, or the full name of the symbol that
the scanner has found, parser.yy:737-799. -/
def symName (h : Str → Nat) (std stdF : List Str) (s : St) (x : Str) : Str :=
  match checkVar h std s x with
  | some r => varName std s (ptr s r)
  | none =>
    match checkFunc stdF s x with
    | r :: _ => funcName stdF s r
    | [] => x

/-- `pushScope`, parser.yy:2152-2158. -/
def pushScope (s : St) (name : Str) (t : Bool) : St :=
  { s with
    stack := (t, ns s ++ name ++ Nat.toDigits 10 s.id ++ [':', ':']) :: s.stack
    id := s.id + 1 }

/-- The actions of the parser: a declaration, an `extern` declaration, a use of a variable, a call,
a block is opened, the definition of a function begins, a block or function ends. -/
inductive Ev where
  | decl (x : Str)
  | ext (x : Str)
  | use (x : Str)
  | call (f : Str)
  | block
  | func (f : Str)
  | leave
  deriving DecidableEq

/-- What an action finds. -/
inductive Out where
  | var (r : Option Ref)
  | funcs (l : List Ref)
  | done
  deriving DecidableEq

/-- `AddVariable`, vardef.cpp:177-181. -/
def addVar (s : St) (n : Str) : St := { s with vars := s.vars ++ [⟨n, none⟩] }

/-- `SetExtern`, through `GetVariablePtr`, parser.yy:696-699. -/
def setExt (vars : List VarDef) (e : Ref) : Ref → List VarDef
  | .std _ => vars
  | .loc i => vars.modify i (fun v => { v with ext := some e })

/-- The search for an `extern`, parser.yy:674-691. -/
def findExt (h : Str → Nat) (std : List Str) (vars : List VarDef) (x : Str) :
    List (Bool × Str) → Option Ref
  | [] => findStd h std x
  | (_, n) :: r =>
    match findVar h std vars (n ++ x) with
    | some v => some v
    | none => findExt h std vars x r

/-- One action: `decl` parser.yy:575-605 and 736-831, `ext` 664-711, `use` scanner.ll:198-262, `call`
parser.yy:1779-1797, `block` 1040-1043, `func` 319-353, `leave` 280-287, 306-313 and 1046-1048.
`none`: a syntax error. -/
def step (h : Str → Nat) (std stdF : List Str) (s : St) : Ev → Option (St × Out)
  | .decl x =>
    let n := ns s ++ symName h std stdF s x
    let s' := addVar s n
    some (s', .var ((findVar h std s'.vars n).map (ptr s')))
  | .ext x =>
    let y := symName h std stdF s x
    let s' := addVar s (ns s ++ y)
    match findVar h std s'.vars (ns s ++ y), findExt h std s'.vars y s.stack.tail with
    | some l, some e => some ({ s' with vars := setExt s'.vars e (ptr s' l) }, .done)
    | _, _ => none
  | .use x => some (s, .var ((checkVar h std s x).map (ptr s)))
  | .call f =>
    match checkFunc stdF s f with
    | [] => some (s, .funcs [])
    | r :: _ => some (s, .funcs (findFuncs stdF s.funcs (funcName stdF s r)))
  | .block => some (pushScope s ['b'] false, .done)
  | .func f =>
    match checkVar h std s f, checkFunc stdF s f with
    | none, [] =>
      some (pushScope { s with decls := (ns s ++ f) :: s.decls } f true, .done)
    | _, _ =>
      let n := ns s ++ symName h std stdF s f
      some (pushScope { s with decls := n :: s.decls } n true, .done)
  | .leave =>
    match s.stack, s.decls with
    | (true, _) :: r, d :: ds =>
      some ({ s with stack := r, decls := ds, funcs := s.funcs ++ [d] }, .done)
    | (false, _) :: p :: r, _ => some ({ s with stack := p :: r }, .done)
    | _, _ => none

/-- All actions for a file. -/
def run (h : Str → Nat) (std stdF : List Str) : St → List Ev → Option (List Out)
  | _, [] => some []
  | s, e :: es =>
    match step h std stdF s e with
    | none => none
    | some (s', o) => (run h std stdF s' es).map (o :: ·)

end Verif.Shader.Scope
