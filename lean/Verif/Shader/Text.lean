import Mathlib.Data.List.Basic

/-!
Functions on text of the shading language, from libs/shadervm/shaderexecenv/shadeops_text.cpp.

Simplifications: text has no character 0 inside. How a value is printed (`%f` and so on) is given by the argument, and an argument
has the type that the format asks for. Searching for a regular expression is given.
-/

namespace Verif.Shader.Text

/-- An argument of `printf` or `format`: its text at a point of the grid for the letters `f`, `p`, `c`, `m`, `s`,
libs/shadervm/shaderexecenv/shadeops_text.cpp:52-102. -/
abbrev Arg := Nat → Char → List Char

/-- The letters with cases of their own, libs/shadervm/shaderexecenv/shadeops_text.cpp:52, 62, 72, 82, 96. -/
def letters : List Char := ['f', 'p', 'c', 'm', 's']

/-- The loop of `SO_sprintf`, libs/shadervm/shaderexecenv/shadeops_text.cpp:41-121, with the rest of the text from `i` on, the
arguments from `ivar` on, and `strRes`. Beyond the end of the text there is the character 0. `none` if an argument beyond the last
is used. -/
def sprintfLoop (g : Nat) : List Char → List Arg → List Char → Option (List Char)
  | [], _, res => some res
  | ['%'], _, res => some (res ++ ['\x00'])
  | '%' :: c :: r, args, res =>
    if c ∈ letters then
      match args with
      | [] => none
      | a :: args => sprintfLoop g r args (res ++ a g c)
    else sprintfLoop g r args (res ++ [c])
  | c :: r, args, res => sprintfLoop g r args (res ++ [c])

/-- `SO_sprintf`, libs/shadervm/shaderexecenv/shadeops_text.cpp:36-123. -/
def sprintf (g : Nat) (str : List Char) (args : List Arg) : Option (List Char) := sprintfLoop g str args []

/-- The loops over the grid, libs/shadervm/shaderexecenv/shadeops_text.cpp:144-156, 176-188, 209-230. `n` is the number of points
that are left, `g` the point. -/
def gridLoop {S : Type} (varying : Bool) (rs : Nat → Bool) (body : Nat → S → S) : Nat → Nat → S → S
  | 0, _, s => s
  | n + 1, g, s =>
    let s := if !varying || rs g then body g s else s
    if varying then gridLoop varying rs body n (g + 1) s else s

/-- A variable: whether it is varying, and its values. -/
structure Var (A : Type) where
  varying : Bool
  val : Nat → A

/-- The value at a point: that of a uniform variable is everywhere the same. Used by `GetString`. -/
def Var.get {A : Type} (x : Var A) (g : Nat) : A := if x.varying then x.val g else x.val 0

/-- `SetString` at a point. -/
def Var.set {A : Type} (x : Var A) (g : Nat) (a : A) : Var A :=
  if x.varying then { x with val := fun k => if k = g then a else x.val k } else { x with val := fun _ => a }

/-- `SetFloat` without a point sets all. -/
def Var.setAll {A : Type} (x : Var A) (a : A) : Var A := { x with val := fun _ => a }

/-- `SO_printf`, libs/shadervm/shaderexecenv/shadeops_text.cpp:129-157: what is printed, `none` standing for an argument that is
missing. `count` is the number of points, at least one. -/
def printf (count : Nat) (rs : Nat → Bool) (str : Var (List Char)) (args : List (Bool × Arg)) : List (Option (List Char)) :=
  let varying := args.foldl (fun v a => a.1 || v) str.varying
  gridLoop varying rs (fun g out => out ++ [sprintf g (str.get g) (args.map Prod.snd)]) count 0 []

/-- `SO_format`, libs/shadervm/shaderexecenv/shadeops_text.cpp:163-189. -/
def format (count : Nat) (rs : Nat → Bool) (str : Var (List Char)) (args : List (Bool × Arg)) (result : Var (Option (List Char))) :
    Var (Option (List Char)) :=
  let varying := result.varying || args.foldl (fun v a => a.1 || v) str.varying
  gridLoop varying rs (fun g r => r.set g (sprintf g (str.get g) (args.map Prod.snd))) count 0 result

/-- `SO_concat`, libs/shadervm/shaderexecenv/shadeops_text.cpp:195-231. -/
def concat (count : Nat) (rs : Nat → Bool) (a b : Var (List Char)) (args : List (Var (List Char))) (result : Var (List Char)) :
    Var (List Char) :=
  let varying := result.varying || args.foldl (fun v x => x.varying || v) (b.varying || a.varying)
  gridLoop varying rs (fun g r => r.set g (args.foldl (fun s x => s ++ x.get g) (a.get g ++ b.get g))) count 0 result

/-- `SO_match`, libs/shadervm/shaderexecenv/shadeops_text.cpp:235-322; `search` is `boost::regex_search`. A varying variable is
taken for uniform on a grid with one point (`Size() > 1`). The result must be varying if the others are. -/
def «match» (search : List Char → List Char → Bool) (count : Nat) (rs : Nat → Bool) (pattern str : Var (List Char)) (result : Var Bool) :
    Var Bool :=
  let patVarying := pattern.varying && decide (count > 1)
  let strVarying := str.varying && decide (count > 1)
  if patVarying then
    if strVarying then
      { result with val := fun g => if g < count ∧ rs g then search (pattern.val g) (str.val g) else result.val g }
    else
      { result with val := fun g => if g < count ∧ rs g then search (pattern.val g) (str.val 0) else result.val g }
  else
    if strVarying then
      { result with val := fun g => if g < count ∧ rs g then search (pattern.val 0) (str.val g) else result.val g }
    else
      result.setAll (search (pattern.val 0) (str.val 0))

end Verif.Shader.Text
