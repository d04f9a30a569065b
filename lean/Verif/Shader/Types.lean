/-
Model of the type checker of the shader compiler: the choice among the functions of a name, the
casts which are added, the casts which are taken away again, and the instructions which are
written for an expression.

  * libs/slcomp/parse/parsenode.cpp:58-89   the table of priorities, the list of all types
  * libs/slcomp/parse/parsenode.cpp:127-143, 200-224, 230-234, 266-293
  * libs/slcomp/parse/typecheck.cpp:23-257, 403-462, 471-526, 554-646, 720-872, 912-956
  * libs/slcomp/parse/optimise.cpp:17-30, 81-118
  * libs/slcomp/backend/vmoutput.cpp:147-188, 279-364, 404-460, 476-484, 784-913

Simplifications.
  * A type is a number with flags for the storage and the use of a variable; the flags are left
    out here.  They are masked wherever the table is used.  Where they are not masked (the loops
    of typecheck.cpp:408-412, 504-508 and 766-768), they lead to a cast to the same type, which
    `opt` takes away.
  * Messages, `needsCast` (which is written but never read) and the checks of read-only and of
    uniform variables (typecheck.cpp:473-494) are left out.
  * The nodes of message passing functions and of functions which are not known to the compiler
    are left out, and so are the operators `CqParseNodeMathOp`, for which the grammar has no use:
    arithmetic is written as calls of the functions "operator+" and so on (parser.yy:1399-1474).
  * The base node around a cast (parser.yy:1490) only passes on what it is asked, and is left out.
  * A check of a call with `CheckOnly` erases functions from its list.  The check which follows
    erases them too, so this is followed up only for the arguments which are not checked again
    (`prune`).  When the list of such an argument becomes empty, undefined behaviour may come
    earlier than in the model, where it comes when the code is written.
  * Arrays as arguments are not told from their elements (types are compared without the flag).
  * A function which is defined in the shader is written out at the call (property C76); here it
    is one instruction, as those of the standard functions.
-/
namespace Verif.Shader.Types

/-- `EqVariableType` without the flags (include/aqsis/slcomp/ivardef.h:42-58). -/
inductive Ty
  | nil | float | integer | point | string | color | triple | hpoint | normal | vector | void
  | matrix | hextuple
deriving DecidableEq, Repr

/-- `CqParseNode::m_aaTypePriorities` (parsenode.cpp:58-74): how well a value of the first type
goes as one of the second; 0 when it does not. -/
def pri : Ty → Ty → Nat
  | .nil, .nil => 99
  | .float, .float => 99
  | .float, .integer => 98
  | .float, .point => 2
  | .float, .color => 1
  | .float, .triple => 2
  | .float, .hpoint => 2
  | .float, .normal => 2
  | .float, .vector => 2
  | .float, .matrix => 1
  | .integer, .float => 98
  | .integer, .integer => 99
  | .point, .point => 99
  | .point, .color => 96
  | .point, .triple => 98
  | .point, .hpoint => 98
  | .point, .normal => 97
  | .point, .vector => 97
  | .string, .string => 99
  | .color, .point => 1
  | .color, .color => 99
  | .color, .triple => 2
  | .color, .hpoint => 1
  | .color, .normal => 1
  | .color, .vector => 1
  | .triple, .point => 98
  | .triple, .color => 98
  | .triple, .triple => 99
  | .triple, .hpoint => 97
  | .triple, .normal => 98
  | .triple, .vector => 98
  | .hpoint, .point => 97
  | .hpoint, .color => 96
  | .hpoint, .triple => 98
  | .hpoint, .hpoint => 99
  | .hpoint, .normal => 98
  | .hpoint, .vector => 98
  | .normal, .point => 98
  | .normal, .color => 96
  | .normal, .triple => 98
  | .normal, .hpoint => 97
  | .normal, .normal => 99
  | .normal, .vector => 98
  | .vector, .point => 98
  | .vector, .color => 96
  | .vector, .triple => 98
  | .vector, .hpoint => 97
  | .vector, .normal => 98
  | .vector, .vector => 99
  | .void, .void => 99
  | .matrix, .matrix => 99
  | .hextuple, .matrix => 99
  | .hextuple, .hextuple => 98
  | _, _ => 0

/-- `CqParseNode::m_aAllTypes` (parsenode.cpp:75-89). -/
def all : List Ty :=
  [.float, .integer, .point, .string, .color, .triple, .hpoint, .normal, .vector, .void, .matrix,
    .hextuple]

/-- The second loop of `CqParseNode::FindCast` (parsenode.cpp:212-223). -/
def castLoop (c : Ty) : List Ty → Ty → Nat → Ty
  | [], r, _ => r
  | t :: ts, r, p => if pri c t > p then castLoop c ts t (pri c t) else castLoop c ts r p

/-- `CqParseNode::FindCast` (parsenode.cpp:200-224); the index is not used by any caller. -/
def findCast (c : Ty) (ts : List Ty) : Ty :=
  if c ∈ ts then c else castLoop c ts .nil 0

/-- A function (`CqFuncDef`, funcdef.h:28-146): its result, its parameters, whether more arguments
may follow (`m_fVarying`, from a `*` in the parameters, funcdef.cpp:474-476), and its name.
`more` is not known to the compiler: it is the type which the instruction reads from each of the
arguments which follow, if it is one type (e.g. "min", libs/shadervm/shadervm2.cpp:105ff), and
`none` if it takes any (e.g. "printf"). -/
structure Func where
  ret : Ty
  params : List Ty
  dots : Bool
  more : Option Ty
  name : String
deriving DecidableEq, Repr

/-- The relational operators (parser.yy:1594-1601). -/
inductive Rel
  | gt | ge | lt | le | eq | ne
deriving DecidableEq, Repr

/-- The nodes of an expression.  `rel` has its children in the order of the tree, in which the
second operand comes first (parser.yy:1611-1612).  Lists of arguments are `nil` and `cons`.  `hex`
has the list of its sixteen expressions, the last one first: the code of a list is written from
its end, and that of the sixteen from the first to the last (vmoutput.cpp:897-912). -/
inductive Expr
  | num
  | str
  | var (t : Ty)
  | elem (t : Ty) (i : Expr)
  | assign (t : Ty) (e : Expr)
  | rel (o : Rel) (a b : Expr)
  | logic (isAnd : Bool) (a b : Expr)
  | not (e : Expr)
  | cond (c a b : Expr)
  | cast (t : Ty) (e : Expr)
  | triple (a b c : Expr)
  | hex (args : Expr)
  | call (fs : List Func) (args : Expr)
  | nil
  | cons (e : Expr) (r : Expr)
deriving DecidableEq

/-- What a step of the compiler comes to: a value, an error message (`XqParseError`), or undefined
behaviour (an element of an empty vector). -/
inductive Res (α : Type)
  | ok (a : α)
  | err
  | ub
deriving DecidableEq

/-- Go on after a step. -/
def Res.bind {α β : Type} : Res α → (α → Res β) → Res β
  | .ok a, f => f a
  | .err, _ => .err
  | .ub, _ => .ub

/-- `ResType` (parsenode.h:83-89 for the nodes which do not have their own, which are `not` and
`cond`: the type of the first child; parsenode.cpp:230-234, 358-365, 397-400; parsenode.h:906-909,
1029-1032, 1163-1166, 1225-1228, 1736-1739, 1793-1796, 1848-1851).  The type of a call is that of
the first function of its list, which may be empty. -/
def resType : Expr → Res Ty
  | .num => .ok .float
  | .str => .ok .string
  | .var t => .ok t
  | .elem t _ => .ok t
  | .assign t _ => .ok t
  | .rel _ _ _ => .ok .float
  | .logic _ _ _ => .ok .float
  | .not e => resType e
  | .cond c _ _ => resType c
  | .cast t _ => .ok t
  | .triple _ _ _ => .ok .triple
  | .hex _ => .ok .hextuple
  | .call [] _ => .ub
  | .call (f :: _) _ => .ok f.ret
  | .nil => .ok .nil
  | .cons _ _ => .ok .nil

/-- Number of the arguments (parsenode.h, `NextChild` followed to the end). -/
def Expr.len : Expr → Nat
  | .cons _ r => r.len + 1
  | _ => 0

/-- The types of `CqParseNode::validTypes` (parsenode.cpp:131-143).  After the first they are
sorted by priority there; as no type occurs twice after the first and the list is only searched
for a type, the order does not matter, and they are left in the order of the types. -/
def casts (t : Ty) : List (Ty × Nat) :=
  (t, 99) :: ((Ty.nil :: all).filter (fun u => pri t u ≠ 0)).map (fun u => (u, pri t u))

/-- The types of `CqParseNodeFunctionCall::validTypes` (parsenode.cpp:272-292), where `t` is the
type of the best function: a map of types, the best type with 99. -/
def callCasts (t : Ty) : List (Ty × Nat) :=
  ((Ty.nil :: all).filter (fun u => u = t ∨ pri t u ≠ 0)).map
    (fun u => (u, if u = t then 99 else pri t u))

/-- What is done with a candidate (typecheck.cpp:107-201): it is erased from the list of the node,
it stays but does not come into question, or it fits with a weight. -/
inductive Verdict
  | drop
  | skip
  | fit (w : Nat)
  | ub
deriving DecidableEq

/-- The loop over the arguments of a candidate (typecheck.cpp:154-181).  `none`: an argument does
not match.  Without parameters left and no `*`, an element after the end of the vector of the
types is read; that happens only if there are no parameters, as otherwise the numbers agree. -/
def weigh (dots : Bool) : List Ty → List (List (Ty × Nat)) → Res (Option Nat)
  | _, [] => .ok (some 0)
  | [], _ :: _ => if dots then .ok (some 0) else .ub
  | p :: ps, a :: as =>
    (weigh dots ps as).bind fun r =>
      match a.find? (fun x => x.1 = p), r with
      | some x, some w => .ok (some (x.2 + w))
      | _, _ => .ok none

/-- One candidate, for the types which are asked for (typecheck.cpp:107-201). -/
def consider (ts : List Ty) (as : List (List (Ty × Nat))) (f : Func) : Verdict :=
  if 0 < f.params.length ∧ ((f.dots = false ∧ f.params.length ≠ as.length) ∨
      (f.dots = true ∧ as.length < f.params.length)) then .drop
  else if findCast f.ret ts = .nil then .skip
  else
    match weigh f.dots f.params as with
    | .ok (some w) => .fit ((if findCast f.ret ts = f.ret then 1 else 0) + w)
    | .ok none => .drop
    | _ => .ub

/-- The loop over the candidates (typecheck.cpp:107-201): the list of the node afterwards and the
top of the queue.  `std::priority_queue` leaves open which of several greatest elements is at the
top; in the usual implementations an element which is pushed gets to the top only if it is
greater, so it is the first of them. -/
def select (ts : List Ty) (as : List (List (Ty × Nat))) :
    List Func → Option (Func × Nat) → Res (List Func × Option (Func × Nat))
  | [], b => .ok ([], b)
  | f :: fs, b =>
    match consider ts as f with
    | .drop => select ts as fs b
    | .skip => (select ts as fs b).bind fun r => .ok (f :: r.1, r.2)
    | .fit w =>
      (select ts as fs (match b with
        | some (g, v) => if v < w then some (f, w) else some (g, v)
        | none => some (f, w))).bind fun r => .ok (f :: r.1, r.2)
    | .ub => .ub

mutual

/-- `validTypes` (parsenode.cpp:131-143, and 266-293 for a call, which does a type check without
consequences except that functions are erased from its list; that is `prune`).  The name of the
function is asked for at the beginning (typecheck.cpp:78), so an empty list is undefined
behaviour. -/
def valid : Expr → Res (List (Ty × Nat))
  | .call [] _ => .ub
  | .call (f :: fs) args =>
    (valids args).bind fun as =>
      (select all as (f :: fs) none).bind fun r =>
        .ok (match r.2 with
          | some b => callCasts b.1.ret
          | none => if r.1 = [] then [] else callCasts .nil)
  | e => (resType e).bind fun t => .ok (casts t)

/-- `validTypes` of all arguments (typecheck.cpp:91-103). -/
def valids : Expr → Res (List (List (Ty × Nat)))
  | .cons e r => (valid e).bind fun a => (valids r).bind fun as => .ok (a :: as)
  | _ => .ok []

end

/-- What `validTypes` leaves of the lists of functions of calls which are arguments of calls
(parsenode.cpp:266-293, the list is sorted out in place). -/
def prune : Expr → Expr
  | .call fs args =>
    match (valids args).bind fun as => select all as fs none with
    | .ok r => .call r.1 (prune args)
    | _ => .call fs args
  | .cons e r => .cons (prune e) (prune r)
  | e => e

/-- The end of `TypeCheck` of most nodes (typecheck.cpp:405-429, 502-525, 722-747, 765-788,
807-829): the type is asked for, or a cast to another one is added, or there is an error. -/
def conv (ts : List Ty) (t : Ty) (e : Expr) : Res (Ty × Expr) :=
  if t ∈ ts then .ok (t, e)
  else if findCast t ts = .nil then .err
  else .ok (findCast t ts, .cast (findCast t ts) e)

/-- The first type asked for to which two values can be cast (typecheck.cpp:563-581, 928-946). -/
def common (a b : Ty) (ts : List Ty) : Option Ty :=
  ts.find? (fun t => findCast a [t] ≠ .nil ∧ findCast b [t] ≠ .nil)

/-- `TypeCheck` without `CheckOnly` (which is set only from `validTypes` of a call): the type which
is returned, and the node with the casts.  For a list of arguments, `ts` are the types of the
parameters; arguments without a parameter are not checked (typecheck.cpp:235-236). -/
def check (ts : List Ty) : Expr → Res (Ty × Expr)
  | .num => conv ts .float .num
  | .str => conv ts .string .str
  | .var t => conv ts t (.var t)
  | .elem t i =>
    (check [.float] i).bind fun r =>
      if r.1 = .nil then .err else conv ts t (.elem t r.2)
  | .assign t e =>
    (check [t] e).bind fun r =>
      if r.1 ≠ t then .ok (.nil, .assign t r.2) else conv ts t (.assign t r.2)
  | .rel o a b =>
    (resType a).bind fun ta => (resType b).bind fun tb =>
      match common ta tb all with
      | none => .err
      | some t =>
        (check [t] a).bind fun ra => (check [t] b).bind fun rb =>
          if findCast .float ts = .nil then .err
          else if findCast .float ts = .float then .ok (.float, .rel o ra.2 rb.2)
          else .ok (findCast .float ts, .cast (findCast .float ts) (.rel o ra.2 rb.2))
  | .logic o a b =>
    (resType a).bind fun ta => (resType b).bind fun tb =>
      match common ta tb ts with
      | none => .err
      | some t =>
        (check [t] a).bind fun ra => (check [t] b).bind fun rb => .ok (t, .logic o ra.2 rb.2)
  | .not e => (check ts e).bind fun r => .ok (r.1, .not r.2)
  | .cond c a b =>
    (check all c).bind fun rc =>
      (resType a).bind fun ta => (resType b).bind fun tb =>
        match common ta tb ts with
        | none => .err
        | some t =>
          (check [t] a).bind fun ra => (check [t] b).bind fun rb =>
            .ok (t, .cond rc.2 ra.2 rb.2)
  | .cast t e => (check [t] e).bind fun r => conv ts t (.cast t r.2)
  | .triple a b c =>
    (check [.float] a).bind fun ra => (check [.float] b).bind fun rb =>
      (check [.float] c).bind fun rc => conv ts .triple (.triple ra.2 rb.2 rc.2)
  | .hex args =>
    (check (List.replicate 16 .float) args).bind fun r =>
      if .hextuple ∈ ts then .ok (.hextuple, .hex r.2)
      else if findCast .matrix ts = .nil then .err
      else .ok (findCast .matrix ts, .cast (findCast .matrix ts) (.hex r.2))
  | .call [] _ => .ub
  | .call (f :: fs) args =>
    (valids args).bind fun as =>
      (select ts as (f :: fs) none).bind fun r =>
        match r.2 with
        | none => .err
        | some b =>
          (check b.1.params args).bind fun ra =>
            .ok (b.1.ret, .cast (findCast b.1.ret ts) (.call (r.1.set 0 b.1) ra.2))
  | .nil => .ok (.nil, .nil)
  | .cons e r =>
    match ts with
    | [] => .ok (.nil, prune (.cons e r))
    | t :: us => (check [t] e).bind fun re => (check us r).bind fun rr => .ok (.nil, .cons re.2 rr.2)

/-- `Optimise` (optimise.cpp:17-30, 81-95): a cast of an expression of the same type is taken
away. -/
def opt : Expr → Expr
  | .elem t i => .elem t (opt i)
  | .assign t e => .assign t (opt e)
  | .rel o a b => .rel o (opt a) (opt b)
  | .logic o a b => .logic o (opt a) (opt b)
  | .not e => .not (opt e)
  | .cond c a b => .cond (opt c) (opt a) (opt b)
  | .cast t e => if resType (opt e) = .ok t then opt e else .cast t (opt e)
  | .triple a b c => .triple (opt a) (opt b) (opt c)
  | .hex args => .hex (opt args)
  | .call fs args => .call fs (opt args)
  | .cons e r => .cons (opt e) (opt r)
  | e => e

/-- The instructions which are written for expressions (vmoutput.cpp:147-188, 279-364, 404-484,
784-913).  The letters of the types which are part
of the name of an instruction are given as types.  `fn` has the number of the arguments which
follow the parameters, which is pushed before. -/
inductive Instr
  | push (t : Ty)
  | ipush (t : Ty)
  | dup
  | pop (t : Ty)
  | set (a b : Ty)
  | fn (f : Func) (n : Nat)
  | rel (o : Rel) (a b : Ty)
  | land
  | lor
  | not (t : Ty)
  | merge (t : Ty)
  | test
deriving DecidableEq

/-- The types for which no cast is written among each other (vmoutput.cpp:829-830). -/
def pointLike (t : Ty) : Bool := t = .point || t = .normal || t = .vector

/-- The code of an expression (vmoutput.cpp): constants 476-484, variables 279-332, assignments
334-364 (whose value stays on the stack), operators 404-432, conditional expressions 784-815 (of
the instructions for the running state, only `test` is here: `S_GET`, which takes a copy of the
condition from the stack), casts 817-836, tuples 838-913, calls 147-188. -/
def gen : Expr → Res (List Instr)
  | .num => .ok [.push .float]
  | .str => .ok [.push .string]
  | .var t => .ok [.push t]
  | .elem t i => (gen i).bind fun c => .ok (c ++ [.ipush t])
  | .assign t e => (gen e).bind fun c => .ok (c ++ [.dup, .pop t])
  | .rel o a b =>
    (resType a).bind fun ta => (resType b).bind fun tb =>
      (gen a).bind fun ca => (gen b).bind fun cb => .ok (ca ++ (cb ++ [.rel o ta tb]))
  | .logic o a b =>
    (resType a).bind fun _ => (resType b).bind fun _ =>
      (gen a).bind fun ca => (gen b).bind fun cb =>
        .ok (ca ++ (cb ++ [if o then .land else .lor]))
  | .not e => (resType e).bind fun t => (gen e).bind fun c => .ok (c ++ [.not t])
  | .cond c a b =>
    (gen c).bind fun cc => (gen a).bind fun ca => (gen b).bind fun cb =>
      (resType a).bind fun t => .ok (cc ++ ([.dup, .test] ++ (ca ++ (cb ++ [.merge t]))))
  | .cast t e =>
    (resType e).bind fun u => (gen e).bind fun c =>
      if pointLike u ∧ pointLike t then .ok c else .ok (c ++ [.set u t])
  | .triple a b c =>
    (gen c).bind fun cc => (gen b).bind fun cb => (gen a).bind fun ca => .ok (cc ++ (cb ++ ca))
  | .hex args => gen args
  | .call [] _ => .ub
  | .call (f :: _) args =>
    (gen args).bind fun c =>
      .ok (c ++ ((if f.dots then [.push .float] else []) ++ [.fn f (args.len - f.params.length)]))
  | .nil => .ok []
  | .cons e r => (gen r).bind fun cr => (gen e).bind fun ce => .ok (cr ++ ce)

/-- The compiler: check, optimise, write (parser.yy:2099-2139). -/
def compile (ts : List Ty) (e : Expr) : Res (List Instr) :=
  (check ts e).bind fun r => gen (opt r.2)

end Verif.Shader.Types
