import Verif.Shader.Types

/-
What the code of an expression is compared with: a machine which only knows what kind of value is
where on the stack.  It has the instructions of the table of the virtual machine
(libs/shadervm/shadervm.cpp:95-232) and looks at each value which is read.  A value of another
kind than the one which is read is an assertion failure of the renderer
(libs/shadervm/shadervariable.h:478-507), and a name which is not in the table is an error when
the shader is loaded (shadervm.cpp:1307-1312).
-/
namespace Verif.Shader.Types

/-- Kinds of values on the stack.  Points, normals and vectors are read as each other. -/
inductive Kind
  | f | s | p | c | m
deriving DecidableEq, Repr

/-- The values by which a value of a type is represented on the stack. -/
def slots : Ty → List Kind
  | .nil => []
  | .float => [.f]
  | .integer => [.f]
  | .point => [.p]
  | .string => [.s]
  | .color => [.c]
  | .triple => [.f, .f, .f]
  | .hpoint => [.p]
  | .normal => [.p]
  | .vector => [.p]
  | .void => []
  | .matrix => [.m]
  | .hextuple => List.replicate 16 .f

/-- The types which can be written in a shader. -/
def Plain (t : Ty) : Prop :=
  t = .float ∨ t = .point ∨ t = .string ∨ t = .color ∨ t = .normal ∨ t = .vector ∨ t = .matrix

instance (t : Ty) : Decidable (Plain t) := by unfold Plain; infer_instance

/-- Which instructions are in the table (libs/shadervm/shadervm.cpp:95-232).  Those of functions are
taken to be there. -/
def Known : Instr → Prop
  | .set a b =>
    (a, b) ∈ [(Ty.float, Ty.color), (.float, .point), (.float, .normal), (.float, .vector),
      (.float, .matrix), (.triple, .color), (.triple, .point), (.triple, .normal),
      (.triple, .vector), (.point, .color), (.vector, .color), (.normal, .color),
      (.color, .point), (.color, .normal), (.color, .vector), (.hextuple, .matrix)]
  | .rel o a b =>
    (a = b ∧ a ∈ [Ty.float, .point, .hpoint, .color, .normal, .vector]) ∨
      (a = .string ∧ b = .string ∧ (o = .eq ∨ o = .ne))
  | .merge t => t ∈ [Ty.float, .string, .point, .normal, .vector, .color]
  | .not _ => False
  | _ => True

instance (i : Instr) : Decidable (Known i) := by
  cases i <;> unfold Known <;> infer_instance

/-- How a program ends: with a stack, with an instruction which is not known, or with a value of
another kind than the one which is read. -/
inductive Out
  | ok (st : List Kind)
  | unknown
  | wrong
deriving DecidableEq, Repr

/-- Take values of the kinds given from the stack, the first from the top. -/
def take : List Kind → List Kind → Option (List Kind)
  | [], st => some st
  | k :: ks, x :: st => if k = x then take ks st else none
  | _ :: _, [] => none

/-- Take a number of values, of one kind or (`none`) of any. -/
def takeMore (k : Option Ty) : Nat → List Kind → Option (List Kind)
  | 0, st => some st
  | _ + 1, [] => none
  | n + 1, x :: st =>
    match k with
    | none => takeMore none n st
    | some t => if slots t = [x] then takeMore (some t) n st else none

/-- What an instruction which is known does with the stack; `none` when it reads a value of another
kind. -/
def effect : Instr → List Kind → Option (List Kind)
  | .push t, st => some (slots t ++ st)
  | .ipush t, st => (take [.f] st).map (slots t ++ ·)
  | .dup, x :: st => some (x :: x :: st)
  | .dup, [] => none
  | .pop t, st => take (slots t) st
  | .set a b, st => (take (slots a) st).map (slots b ++ ·)
  | .fn g n, st =>
    ((take ((if g.dots then [.f] else []) ++ g.params.flatMap slots) st).bind
      (takeMore g.more n)).map (slots g.ret ++ ·)
  | .rel _ a b, st => (take (slots b ++ slots a) st).map (.f :: ·)
  | .land, st => (take [.f, .f] st).map (.f :: ·)
  | .lor, st => (take [.f, .f] st).map (.f :: ·)
  | .not t, st => (take (slots t) st).map (slots t ++ ·)
  | .merge t, st => (take (slots t ++ slots t ++ [.f]) st).map (slots t ++ ·)
  | .test, st => take [.f] st

/-- Run a program. -/
def run : List Instr → List Kind → Out
  | [], st => .ok st
  | i :: is, st =>
    if Known i then
      match effect i st with
      | some st' => run is st'
      | none => .wrong
    else .unknown

/-- An argument without a parameter which is a constant or a variable, and of the kind that is
expected. -/
def Simple (k : Option Ty) : Expr → Prop
  | .num => k = none ∨ k = some .float
  | .str => k = none ∨ k = some .string
  | .var t => Plain t ∧ (k = none ∨ ∃ u, k = some u ∧ slots u = slots t)
  | _ => False

/-- All arguments after the first `n` are such. -/
def SimpleAfter (k : Option Ty) : Nat → Expr → Prop
  | n + 1, .cons _ r => SimpleAfter k n r
  | 0, .cons e r => Simple k e ∧ SimpleAfter k 0 r
  | _, _ => True

/-- A conditional expression. -/
def IsCond : Expr → Prop
  | .cond _ _ _ => True
  | _ => False

/-- What kind of node is looked at: an expression, a relation, or a list of arguments. -/
inductive Place
  | expr | rel | list
deriving DecidableEq

/-- Expressions of the grammar, with these restrictions: types are such as can be written; a
conditional expression is not the operand of a cast or a relation, nor the second operand of a
conditional expression; the functions of a call have parameters and results of such types (or no
result). -/
def Fine : Place → Expr → Prop
  | .expr, .num => True
  | .expr, .str => True
  | .expr, .var t => Plain t
  | .expr, .elem t i => Plain t ∧ Fine .expr i
  | .expr, .assign t e => Plain t ∧ Fine .expr e
  | .expr, .cond c a b => Fine .rel c ∧ Fine .expr a ∧ Fine .expr b ∧ ¬ IsCond a
  | .expr, .cast t e => Plain t ∧ Fine .expr e ∧ ¬ IsCond e
  | .expr, .triple a b c => Fine .expr a ∧ Fine .expr b ∧ Fine .expr c
  | .expr, .hex args => Fine .list args ∧ args.len = 16
  | .expr, .call fs args =>
    Fine .list args ∧ ∀ g ∈ fs, (Plain g.ret ∨ g.ret = .void ∨ g.ret = .hpoint) ∧
      ∀ t ∈ g.params, Plain t ∨ t = .hpoint
  | .rel, .rel _ a b => Fine .expr a ∧ Fine .expr b ∧ ¬ IsCond a ∧ ¬ IsCond b
  | .rel, .logic _ a b => Fine .rel a ∧ Fine .rel b
  | .rel, .not e => Fine .rel e
  | .list, .nil => True
  | .list, .cons e r => Fine .expr e ∧ Fine .list r
  | _, _ => False

/-- For the right side `e` of an assignment after the check: the type which the check gave back is
`t`.  (For a call that is the type of the function and not the one of the cast.) -/
def Gives (t : Ty) : Expr → Prop
  | .cast _ (.call (g :: _) _) => g.ret = t
  | .assign u e => u = t ∧ Gives t e
  | _ => True

/-- After the check, for the types `ts` which were asked for: an assignment within an expression
is of one of these types, or the check of its right side gave back its type. -/
def Settled : List Ty → Expr → Prop
  | _, .elem _ i => Settled [.float] i
  | ts, .assign t e => (t ∈ ts ∨ Gives t e) ∧ Settled [t] e
  | _, .rel _ a b => Settled [] a ∧ Settled [] b
  | _, .logic _ a b => Settled [] a ∧ Settled [] b
  | _, .not e => Settled [] e
  | _, .cond c a b => Settled [] c ∧ Settled [] a ∧ Settled [] b
  | _, .cast t e => Settled [t] e
  | _, .triple a b c => Settled [.float] a ∧ Settled [.float] b ∧ Settled [.float] c
  | _, .hex args => Settled (List.replicate 16 .float) args
  | _, .call (g :: _) args => Settled g.params args
  | t :: us, .cons e r => Settled [t] e ∧ Settled us r
  | _, _ => True

/-- After the check: no function which was chosen has to do with the type `hpoint`, and what follows
the parameters of a function with `...` is simple. -/
def Apt : Expr → Prop
  | .elem _ i => Apt i
  | .assign _ e => Apt e
  | .rel _ a b => Apt a ∧ Apt b
  | .logic _ a b => Apt a ∧ Apt b
  | .not e => Apt e
  | .cond c a b => Apt c ∧ Apt a ∧ Apt b
  | .cast _ e => Apt e
  | .triple a b c => Apt a ∧ Apt b ∧ Apt c
  | .hex args => Apt args
  | .call (g :: _) args =>
    g.ret ≠ .hpoint ∧ .hpoint ∉ g.params ∧
      (g.dots = true → SimpleAfter g.more g.params.length args) ∧ Apt args
  | .cons e r => Apt e ∧ Apt r
  | _ => True

/-- The instructions of which there is not one for each type. -/
def Compares : Instr → Prop
  | .rel _ _ _ => True
  | .merge _ => True
  | .not _ => True
  | _ => False

/-- Every call has functions to choose from, none without parameters when there are arguments, and
only constants and variables follow the parameters of one with `...`. -/
def Safe : Expr → Prop
  | .elem _ i => Safe i
  | .assign _ e => Safe e
  | .rel _ a b => Safe a ∧ Safe b
  | .logic _ a b => Safe a ∧ Safe b
  | .not e => Safe e
  | .cond c a b => Safe c ∧ Safe a ∧ Safe b
  | .cast _ e => Safe e
  | .triple a b c => Safe a ∧ Safe b ∧ Safe c
  | .hex args => Safe args
  | .call fs args =>
    fs ≠ [] ∧ (∀ g ∈ fs, (g.params = [] → g.dots = false → args.len = 0) ∧
      (g.dots = true → SimpleAfter none g.params.length args)) ∧ Safe args
  | .cons e r => Safe e ∧ Safe r
  | _ => True

/-- Arguments which are variables. -/
def vars : List Ty → Expr
  | [] => .nil
  | t :: ts => .cons (.var t) (vars ts)

/-- A function can be called with arguments of these types to get one of the types asked for: the
number of the arguments is right, and each has the type of the parameter or a cast to it. -/
def Fits (ts us : List Ty) (g : Func) : Prop :=
  (g.params.length = us.length ∨ (g.dots = true ∧ g.params.length ≤ us.length)) ∧
  (∃ t ∈ ts, g.ret = t ∨ pri g.ret t ≠ 0) ∧
  ∀ x ∈ us.zip g.params, x.1 = x.2 ∨ pri x.1 x.2 ≠ 0

/-- How well it does: the priorities of the casts of the arguments, with 99 for none, and one more
when the result needs no cast. -/
def score (ts us : List Ty) (g : Func) : Nat :=
  (if g.ret ∈ ts then 1 else 0) +
    ((us.zip g.params).map (fun x => if x.1 = x.2 then 99 else pri x.1 x.2)).sum

/-- The function `g` is the first of those which do best. -/
def Best (ts us : List Ty) (fs : List Func) (g : Func) : Prop :=
  ∃ pre post, fs = pre ++ g :: post ∧ Fits ts us g ∧
    (∀ f ∈ pre, Fits ts us f → score ts us f < score ts us g) ∧
    ∀ f ∈ post, Fits ts us f → score ts us f ≤ score ts us g

mutual

/-- The type which an argument has by itself: that of the constant or the variable, or the result of
the best function with that name when any type is asked for. -/
def TypeOf : Expr → Ty → Prop
  | .num, t => t = .float
  | .str, t => t = .string
  | .var u, t => t = u
  | .call fs args, t => (∀ f ∈ fs, f.ret ≠ .nil) ∧ ∃ us g, TypesOf args us ∧ Best all us fs g ∧
      t = g.ret ∧ ∀ f ∈ fs, f.params = [] → f.dots = false → us = []
  | _, _ => False

/-- The types of arguments. -/
def TypesOf : Expr → List Ty → Prop
  | .nil, us => us = []
  | .cons e r, us => ∃ t ts, us = t :: ts ∧ TypeOf e t ∧ TypesOf r ts
  | _, _ => False

end

end Verif.Shader.Types
