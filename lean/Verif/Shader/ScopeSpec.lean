import Verif.Shader.Scope
/-!
# Scopes: what names should mean

Scopes are frames with the variables and functions declared in them.  A variable is found in the
innermost scope that declares it, up to the scope of the function; then among those of the file;
then among the standard ones.  Functions are found in the innermost scope that has one of the name.
Every declaration is a new variable; `extern` makes the variable of an outer scope visible.
-/

namespace Verif.Shader.Scope

/-- The declarations of a scope.  `fn` is the name of the function whose scope it is. -/
structure Frame where
  fn : Option Str
  vars : List (Str × Ref)
  funcs : List (Str × Nat)

/-- The open scopes (innermost first), the scope of the file, the number of variables and functions
declared so far. -/
structure Env where
  frames : List Frame
  file : Frame
  nvars : Nat
  nfuncs : Nat

def Env.empty : Env := ⟨[], ⟨none, [], []⟩, 0, 0⟩

/-- The variables of the open scopes up to the one of the function. -/
def near (x : Str) : List Frame → Option Ref
  | [] => none
  | f :: r =>
    match f.vars.lookup x with
    | some v => some v
    | none => if f.fn.isSome then none else near x r

/-- The variables of all open scopes. -/
def far (x : Str) : List Frame → Option Ref
  | [] => none
  | f :: r =>
    match f.vars.lookup x with
    | some v => some v
    | none => far x r

/-- The variables of the file and the standard variables. -/
def fileVar (std : List Str) (E : Env) (x : Str) : Option Ref :=
  match E.file.vars.lookup x with
  | some v => some v
  | none => (std.findIdx? (· == x)).map .std

/-- The variable that a name means. -/
def meaning (std : List Str) (E : Env) (x : Str) : Option Ref :=
  match near x E.frames with
  | some v => some v
  | none => fileVar std E x

/-- The functions of a scope with a name. -/
def Frame.named (f : Frame) (x : Str) : List Nat :=
  f.funcs.filterMap (fun p => if p.1 = x then some p.2 else none)

/-- The functions of the open scopes. -/
def nearFuncs (x : Str) : List Frame → List Nat
  | [] => []
  | f :: r =>
    match f.named x with
    | [] => nearFuncs x r
    | l => l

/-- The functions that a name means. -/
def meaningF (stdF : List Str) (E : Env) (x : Str) : List Ref :=
  match nearFuncs x E.frames with
  | [] => (indices x 0 stdF).map .std ++ (E.file.named x).map .loc
  | l => l.map .loc

/-- Declare a variable in the innermost scope. -/
def Env.bind (E : Env) (x : Str) (r : Ref) : Env :=
  match E.frames with
  | [] => { E with file := { E.file with vars := (x, r) :: E.file.vars }, nvars := E.nvars + 1 }
  | f :: fs => { E with frames := { f with vars := (x, r) :: f.vars } :: fs, nvars := E.nvars + 1 }

/-- Declare a function in the innermost scope. -/
def Env.bindF (E : Env) (x : Str) : Env :=
  match E.frames with
  | [] => { E with file := { E.file with funcs := E.file.funcs ++ [(x, E.nfuncs)] },
                   nfuncs := E.nfuncs + 1 }
  | f :: fs => { E with frames := { f with funcs := f.funcs ++ [(x, E.nfuncs)] } :: fs,
                        nfuncs := E.nfuncs + 1 }

/-- What `extern` means. -/
def outerVar (std : List Str) (E : Env) (x : Str) : Option Ref :=
  match E.frames with
  | [] => (std.findIdx? (· == x)).map .std
  | _ :: fs =>
    match far x fs with
    | some v => some v
    | none => fileVar std E x

/-- What an action means. -/
def means (std stdF : List Str) (E : Env) : Ev → Option (Env × Out)
  | .decl x => some (E.bind x (.loc E.nvars), .var (some (.loc E.nvars)))
  | .ext x => (outerVar std E x).map (fun r => (E.bind x r, .done))
  | .use x => some (E, .var (meaning std E x))
  | .call f => some (E, .funcs (meaningF stdF E f))
  | .block => some ({ E with frames := ⟨none, [], []⟩ :: E.frames }, .done)
  | .func f => some ({ E with frames := ⟨some f, [], []⟩ :: E.frames }, .done)
  | .leave =>
    match E.frames with
    | [] => none
    | f :: fs =>
      match f.fn with
      | none => some ({ E with frames := fs }, .done)
      | some g => some (({ E with frames := fs } : Env).bindF g, .done)

/-- What the actions for a file mean. -/
def meansAll (std stdF : List Str) : Env → List Ev → Option (List Out)
  | _, [] => some []
  | E, e :: es =>
    match means std stdF E e with
    | none => none
    | some (E', o) => (meansAll std stdF E' es).map (o :: ·)

/-! ## The conditions -/

/-- An identifier. -/
def Ident (x : Str) : Prop := ':' ∉ x

/-- A name that can be told from the number that follows it. -/
def ScopeName (x : Str) : Prop := ':' ∉ x ∧ ∀ c, x.getLast? = some c → c.isDigit = false

/-- A declared name is not that of a variable visible here or of a function, unless that is one of
the file or a standard one and the declaration is in an inner scope. -/
def NewName (E : Env) (x : Str) : Prop :=
  near x E.frames = none ∧ nearFuncs x E.frames = [] ∧
    (E.frames = [] → E.file.vars.lookup x = none)

/-- The condition on one action. -/
def Fine (std stdF : List Str) (E : Env) : Ev → Prop
  | .decl x => Ident x ∧ NewName E x
  | .ext x => Ident x ∧ NewName E x
  | .use x => Ident x
  | .call f => Ident f
  | .block => True
  | .func f => ScopeName f ∧
      (E.frames ≠ [] → meaning std E f = none ∧ meaningF stdF E f = [])
  | .leave => True

/-- The condition on all actions. -/
def AllFine (std stdF : List Str) : Env → List Ev → Prop
  | _, [] => True
  | E, e :: es => Fine std stdF E e ∧
      ∀ E' o, means std stdF E e = some (E', o) → AllFine std stdF E' es

/-- The path of a scope: names and numbers of the scopes around it, innermost first. -/
abbrev Path := List (Str × Nat)

/-- The beginning of the names of its variables. -/
def full : Path → Str
  | [] => []
  | c :: p => full p ++ c.1 ++ Nat.toDigits 10 c.2 ++ [':', ':']

/-- The paths of the scopes of a file. -/
def paths : Path → Nat → List Ev → List Path
  | _, _, [] => []
  | p, k, .block :: es => ((['b'], k) :: p) :: paths ((['b'], k) :: p) (k + 1) es
  | p, k, .func f :: es => ((f, k) :: p) :: paths ((f, k) :: p) (k + 1) es
  | p, k, .leave :: es => paths p.tail k es
  | p, k, .decl _ :: es => paths p k es
  | p, k, .ext _ :: es => paths p k es
  | p, k, .use _ :: es => paths p k es
  | p, k, .call _ :: es => paths p k es

/-- The identifiers of a file. -/
def idents : List Ev → List Str
  | [] => []
  | .decl x :: es => x :: idents es
  | .ext x :: es => x :: idents es
  | .use x :: es => x :: idents es
  | .func x :: es => x :: idents es
  | _ :: es => idents es

end Verif.Shader.Scope
