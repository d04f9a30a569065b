import Mathlib.Data.Rat.Defs
import Mathlib.Algebra.Order.Ring.Rat

/-!
# Model of the conditions of `IfBegin` and `ElseIf`

`/repo/libs/core/api/condition.cpp`: `TestCondition`, with the parts of `sscanf`, `strtok` and
`strstr` that it uses.

Simplifications: values of type float are rational numbers, so that products do not underflow; how
`%f` reads a number is a parameter; parameters have at least as many values as their type needs.
-/

namespace Verif.Filter.Condition

/-- Outcomes: a value, or undefined behaviour. -/
inductive Res (α : Type) where
  | ok (a : α)
  | ub
  deriving DecidableEq, Repr

/-- Sequencing of outcomes. -/
def Res.bind {α β : Type} : Res α → (α → Res β) → Res β
  | .ok a, f => f a
  | .ub, _ => .ub

/-- `isspace` of C, as used by the conversions of `sscanf`,
libs/core/api/condition.cpp:141. -/
def isSpace (c : Char) : Bool := c = ' ' || (9 ≤ c.toNat && c.toNat ≤ 13)

/-- `CqString::hash`, include/aqsis/util/sstring.h:71-85: the value added for a character, which is
signed. -/
def code (c : Char) : Nat := if c.toNat < 128 then c.toNat else 2 ^ 64 - 256 + c.toNat

/-- `CqString::hash`, include/aqsis/util/sstring.h:71-85. -/
def hash : List Char → Nat
  | [] => 0
  | c :: cs => cs.foldl (fun h d => (h * 31 + code d) % 2 ^ 64) (code c)

/-- The hashes of libs/core/api/condition.cpp:40-51. -/
def hashEq : Nat := hash ['=', '=']
/-- See `hashEq`; libs/core/api/condition.cpp:41. -/
def hashNe : Nat := hash ['!', '=']
/-- See `hashEq`; libs/core/api/condition.cpp:42. -/
def hashLe : Nat := hash ['<', '=']
/-- See `hashEq`; libs/core/api/condition.cpp:43. -/
def hashLt : Nat := hash ['<']
/-- See `hashEq`; libs/core/api/condition.cpp:44. -/
def hashGe : Nat := hash ['>', '=']
/-- See `hashEq`; libs/core/api/condition.cpp:45. -/
def hashGt : Nat := hash ['>']
/-- See `hashEq`; libs/core/api/condition.cpp:48. -/
def hashMul : Nat := hash ['*']
/-- See `hashEq`; libs/core/api/condition.cpp:49. -/
def hashDiv : Nat := hash ['/']
/-- See `hashEq`; libs/core/api/condition.cpp:50. -/
def hashAdd : Nat := hash ['+']
/-- See `hashEq`; libs/core/api/condition.cpp:51. -/
def hashSub : Nat := hash ['-']

/-- `IsMath`, libs/core/api/condition.cpp:54-59. -/
def isMath (comp : Nat) : Bool :=
  comp = hashMul || comp = hashDiv || comp = hashAdd || comp = hashSub

/-- Numbers a `TqInt` holds. -/
def fits (n : ℤ) : Bool := -2147483648 ≤ n && n ≤ 2147483647

/-- Arithmetic of `TqInt`: overflow is undefined. -/
def checked (n : ℤ) : Res ℤ := if fits n then .ok n else .ub

/-- Division of `TqInt`: by zero it is undefined. -/
def divide (a b : ℤ) : Res ℤ := if b = 0 then .ub else checked (Int.tdiv a b)

/-- `MathCondition<TqInt>`, libs/core/api/condition.cpp:61-80. -/
def mathInt (a b : ℤ) (comp : Nat) : Res Bool :=
  if comp = hashMul then (checked (a * b)).bind fun r => .ok (r ≠ 0)
  else if comp = hashDiv then
    if b = 0 then .ok false
    else if a = 0 then .ok false
    else (divide a b).bind fun r => .ok (r ≠ 0)
  else if comp = hashAdd then (checked (a + b)).bind fun r => .ok (r ≠ 0)
  else if comp = hashSub then (checked (a - b)).bind fun r => .ok (r ≠ 0)
  else .ok true

/-- `MathCondition<TqFloat>`, libs/core/api/condition.cpp:61-80. -/
def mathFloat (a b : ℚ) (comp : Nat) : Bool :=
  if comp = hashMul then a * b ≠ 0
  else if comp = hashDiv then
    if b = 0 then false else if a = 0 then false else a / b ≠ 0
  else if comp = hashAdd then a + b ≠ 0
  else if comp = hashSub then a - b ≠ 0
  else true

/-- `LogicCondition<TqInt>`, libs/core/api/condition.cpp:82-98. -/
def logicInt (a b : ℤ) (comp : Nat) : Bool :=
  if comp = hashEq then a = b
  else if comp = hashNe then a ≠ b
  else if comp = hashLe then a ≤ b
  else if comp = hashLt then a < b
  else if comp = hashGe then a ≥ b
  else if comp = hashGt then a > b
  else false

/-- `LogicCondition<TqFloat>`, libs/core/api/condition.cpp:82-98. -/
def logicFloat (a b : ℚ) (comp : Nat) : Bool :=
  if comp = hashEq then a = b
  else if comp = hashNe then a ≠ b
  else if comp = hashLe then a ≤ b
  else if comp = hashLt then a < b
  else if comp = hashGe then a ≥ b
  else if comp = hashGt then a > b
  else false

/-- `Condition<TqInt>`, libs/core/api/condition.cpp:100-108. -/
def condInt (a b : ℤ) (comp : Nat) : Res Bool :=
  if isMath comp then mathInt a b comp else .ok (logicInt a b comp)

/-- `Condition<TqFloat>`, libs/core/api/condition.cpp:100-108. -/
def condFloat (a b : ℚ) (comp : Nat) : Bool :=
  if isMath comp then mathFloat a b comp else logicFloat a b comp

/-- `%s` into one of the arrays of 80 characters at libs/core/api/condition.cpp:126-127 and 238:
space is skipped, and characters up to the next space are stored, with a zero after them.  The word
and what is left, or nothing if there is no word. -/
def scanWord (s : List Char) : Res (Option (List Char × List Char)) :=
  let t := s.dropWhile isSpace
  let w := t.takeWhile (fun c => !isSpace c)
  if w = [] then .ok none
  else if 80 < w.length + 1 then .ub
  else .ok (some (w, t.dropWhile (fun c => !isSpace c)))

/-- `sscanf(condition, "$%s %s", StringA, Compare)`, libs/core/api/condition.cpp:141: the two words
and what is left, or nothing if less than two conversions succeed. -/
def scanTwo : List Char → Res (Option (List Char × List Char × List Char))
  | '$' :: s =>
    (scanWord s).bind fun r =>
      match r with
      | none => .ok none
      | some (a, s1) =>
        (scanWord s1).bind fun r2 =>
          match r2 with
          | none => .ok none
          | some (c, s2) => .ok (some (a, c, s2))
  | _ => .ok none

/-- The value of a digit. -/
def digit (c : Char) : Option Nat :=
  if 48 ≤ c.toNat ∧ c.toNat ≤ 57 then some (c.toNat - 48) else none

/-- The digits at the beginning, and the number they make after `n`. -/
def scanDigits : List Char → Nat → Nat
  | [], n => n
  | c :: cs, n =>
    match digit c with
    | none => n
    | some d => scanDigits cs (n * 10 + d)

/-- Digits, at least one. -/
def scanNat : List Char → Option Nat
  | [] => none
  | c :: cs =>
    match digit c with
    | none => none
    | some d => some (scanDigits cs d)

/-- A sign and digits, for `%d` (libs/core/api/condition.cpp:190). -/
def scanSigned : List Char → Option ℤ
  | [] => none
  | c :: u =>
    if c = '-' then (scanNat u).map fun (n : Nat) => -(n : ℤ)
    else if c = '+' then (scanNat u).map fun (n : Nat) => (n : ℤ)
    else (scanNat (c :: u)).map fun (n : Nat) => (n : ℤ)

/-- The conversion `%d` (libs/core/api/condition.cpp:190).  A number too large for the variable is
undefined behaviour. -/
def scanInt (s : List Char) : Res (Option ℤ) :=
  match scanSigned (s.dropWhile isSpace) with
  | none => .ok none
  | some n => (checked n).bind fun m => .ok (some m)

/-- `strtok` with colons, libs/core/api/condition.cpp:156-162: the next token and what follows the
colon after it. -/
def token (s : List Char) : Option (List Char × List Char) :=
  let t := s.dropWhile (· = ':')
  if t = [] then none
  else some (t.takeWhile (· ≠ ':'), (t.dropWhile (· ≠ ':')).drop 1)

/-- `strstr`, libs/core/api/condition.cpp:249 and 257: whether the second string occurs in the
first. -/
def occurs : List Char → List Char → Bool
  | [], p => p.isEmpty
  | c :: cs, p => p.isPrefixOf (c :: cs) || occurs cs p

/-- The value of a parameter, by the cases at libs/core/api/condition.cpp:182-273. -/
inductive Val where
  | int (n : ℤ)
  | float (x : ℚ)
  | triple (x y z : ℚ)
  | str (s : List Char)
  | other
  deriving DecidableEq

/-- The parameters of the attributes and of the options (`pParameter` of libs/core/attributes.cpp:202-210
and libs/core/options.cpp:360-370). -/
structure Env where
  attr : List Char → List Char → Option Val
  opt : List Char → List Char → Option Val

/-- How `%f` reads a number after space has been skipped: the number and what is left. -/
abbrev FloatScan := List Char → Option (ℚ × List Char)

/-- The conversion `%f`, libs/core/api/condition.cpp:205 and 223. -/
def scanFloat (f : FloatScan) (s : List Char) : Option (ℚ × List Char) := f (s.dropWhile isSpace)

/-- ` [%f %f %f` after the two words, libs/core/api/condition.cpp:223. -/
def scanTriple (f : FloatScan) (s : List Char) : Option (ℚ × ℚ × ℚ) :=
  match s.dropWhile isSpace with
  | '[' :: s =>
    match scanFloat f s with
    | none => none
    | some (x, s) =>
      match scanFloat f s with
      | none => none
      | some (y, s) =>
        match scanFloat f s with
        | none => none
        | some (z, _) => some (x, y, z)
  | _ => none

/-- The comparison of a parameter, libs/core/api/condition.cpp:180-275, with what follows the two
words of the condition. -/
def compare (f : FloatScan) (v : Val) (comp : Nat) (rest : List Char) : Res Bool :=
  match v with
  | .int n =>
    (scanInt rest).bind fun r =>
      match r with
      | none => .ok false
      | some m => condInt n m comp
  | .float x =>
    match scanFloat f rest with
    | none => .ok false
    | some (y, _) => .ok (condFloat x y comp)
  | .triple x y z =>
    match scanTriple f rest with
    | none => .ok false
    | some (a, b, c) => .ok (condFloat x a comp && condFloat y b comp && condFloat z c comp)
  | .str s =>
    (scanWord rest).bind fun r =>
      match r with
      | none => .ok false
      | some (w, _) =>
        if comp = hashEq then .ok (occurs w s)
        else if comp = hashNe then .ok (!occurs w s)
        else .ok false
  | .other => .ok true

/-- The names of a parameter in the first word, libs/core/api/condition.cpp:154-171: whether it is an
option, and the two names.  Missing tokens are null pointers, which `strcmp`, `std::string` and the
log are given. -/
def names (a : List Char) : Res (Bool × List Char × List Char) :=
  match token a with
  | none => .ub
  | some (x, s) =>
    if x = "Attribute".toList ∨ x = "Option".toList then
      match token s with
      | none => .ub
      | some (y, s) =>
        match token s with
        | none => .ub
        | some (z, _) => .ok (x = "Option".toList, y, z)
    else
      match token s with
      | none => .ub
      | some (z, _) => .ok (false, x, z)

/-- `TestCondition`, libs/core/api/condition.cpp:123-277. -/
def test (f : FloatScan) (e : Env) (s : List Char) : Res Bool :=
  if '$' ∉ s ∨ ':' ∉ s then .ok true
  else
    (scanTwo s).bind fun r =>
      match r with
      | none => .ok true
      | some (a, c, rest) =>
        (names a).bind fun p =>
          match (if p.1 then e.opt p.2.1 p.2.2 else e.attr p.2.1 p.2.2) with
          | none => .ok true
          | some v => compare f v (hash c) rest

end Verif.Filter.Condition
