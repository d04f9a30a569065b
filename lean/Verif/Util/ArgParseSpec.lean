import Verif.Util.ArgParse
import Mathlib.Data.List.Forall2

/-
What the command line parser is to do, after the comments of
/repo/include/aqsis/util/argparse.h:35-65, 98-111, 116-127, 136-137, 153-157.
Nothing here calls a function of the model.
-/
namespace Verif.Util.Args.Spec
open Verif.Util.Args

/-! ### Integers -/

/-- The digit a character stands for. -/
inductive Digit : Char → Nat → Prop
  | dec (i : Nat) : i < 10 → Digit (Char.ofNat (48 + i)) i
  | low (i : Nat) : i < 6 → Digit (Char.ofNat (97 + i)) (10 + i)
  | up (i : Nat) : i < 6 → Digit (Char.ofNat (65 + i)) (10 + i)

/-- A nonempty row of digits, most significant first. -/
inductive Numeral (base : Nat) : Txt → Nat → Prop
  | one (c : Char) (i : Nat) : Digit c i → i < base → Numeral base [c] i
  | snoc (t : Txt) (n : Nat) (c : Char) (i : Nat) :
      Numeral base t n → Digit c i → i < base → Numeral base (t ++ [c]) (n * base + i)

/-- An integer as C writes it, without a sign. -/
inductive Magnitude : Txt → Nat → Prop
  | dec (t : Txt) (n : Nat) : Numeral 10 t n → t.head? ≠ some '0' → Magnitude t n
  | oct (t : Txt) (n : Nat) : Numeral 8 t n → t.head? = some '0' → Magnitude t n
  | hex (x : Char) (t : Txt) (n : Nat) : (x = 'x' ∨ x = 'X') → Numeral 16 t n →
      Magnitude ('0' :: x :: t) n

/-- An integer with blanks before it and perhaps a sign. -/
inductive Denotes : Txt → ℤ → Prop
  | plain (ws t : Txt) (n : Nat) : (∀ c ∈ ws, c ∈ [' ', '\t', '\n', '\x0b', '\x0c', '\r']) →
      Magnitude t n → Denotes (ws ++ t) (n : ℤ)
  | plus (ws t : Txt) (n : Nat) : (∀ c ∈ ws, c ∈ [' ', '\t', '\n', '\x0b', '\x0c', '\r']) →
      Magnitude t n → Denotes (ws ++ '+' :: t) (n : ℤ)
  | minus (ws t : Txt) (n : Nat) : (∀ c ∈ ws, c ∈ [' ', '\t', '\n', '\x0b', '\x0c', '\r']) →
      Magnitude t n → Denotes (ws ++ '-' :: t) (-(n : ℤ))

/-- The integer the variable gets: itself if it fits in an `int`, else what is left
of it after saturating at 64 bits and dropping all but 32 of them. -/
def asInt (z : ℤ) : ℤ :=
  if -2 ^ 31 ≤ z ∧ z < 2 ^ 31 then z else Int.bmod (max (-2 ^ 63) (min (2 ^ 63 - 1) z)) (2 ^ 32)

/-! ### The values of one option -/

/-- The values in one argument: separated, the last one perhaps with a separator
after it too. -/
inductive Pieces (c : Char) : Txt → List Txt → Prop
  | none : Pieces c [] []
  | last (p : Txt) : p ≠ [] → c ∉ p → Pieces c p [p]
  | cons (p t : Txt) (ps : List Txt) : c ∉ p → Pieces c t ps → Pieces c (p ++ c :: t) (p :: ps)

/-- The values in one argument of an option. -/
inductive Values : Sep → Txt → List Txt → Prop
  | none (a : Txt) : Values .none a [a]
  | argv (a : Txt) : Values .argv a [a]
  | chr (c : Char) (a : Txt) (ps : List Txt) : Pieces c a ps → Values (.chr c) a ps

/-- The value a text stands for. -/
inductive Reads {F : Type} (strtod : Txt → Option F) : Kind → Txt → Atom F → Prop
  | int (t : Txt) (z : ℤ) : Denotes t z → Reads strtod .int t (.int (asInt z))
  | ints (t : Txt) (z : ℤ) : Denotes t z → Reads strtod .ints t (.int (asInt z))
  | float (t : Txt) (x : F) : strtod t = some x → Reads strtod .float t (.float x)
  | floats (t : Txt) (x : F) : strtod t = some x → Reads strtod .floats t (.float x)
  | str (t : Txt) : Reads strtod .str t (.str t)
  | strs (t : Txt) : Reads strtod .strs t (.str t)

/-- An option that held `init` and is given the arguments, one after the other, ends
up holding `final`.  A flag is given `""`, or `"no"` when negated. -/
inductive Takes {F : Type} (strtod : Txt → Option F) :
    Opt → List (Atom F) → List Txt → List (Atom F) → Prop
  | unused (o : Opt) (init : List (Atom F)) : Takes strtod o init [] init
  | set (b : Bool) (s : Sep) (init : List (Atom F)) (as : List Txt) : as ≠ [] → (∀ a ∈ as, a = []) →
      Takes strtod ⟨.flag b, s⟩ init as [.flag true]
  | cleared (b : Bool) (s : Sep) (init : List (Atom F)) (as : List Txt) : as ≠ [] →
      (∀ a ∈ as, a ≠ []) → Takes strtod ⟨.flag b, s⟩ init as [.flag false]
  | one (k : Kind) (s : Sep) (init : List (Atom F)) (a : Txt) (v : Atom F) :
      k = .int ∨ k = .float ∨ k = .str → Reads strtod k a v → Takes strtod ⟨k, s⟩ init [a] [v]
  | many (k : Kind) (s : Sep) (init : List (Atom F)) (as : List Txt) (pss : List (List Txt))
      (vs : List (Atom F)) : k = .ints ∨ k = .floats ∨ k = .strs →
      List.Forall₂ (Values s) as pss → List.Forall₂ (Reads strtod k) pss.flatten vs →
      Takes strtod ⟨k, s⟩ init as (init ++ vs)

/-! ### Names -/

/-- The name `name` leads to: what it is an alias of, or itself. -/
inductive Target (t : Table) : Txt → Txt → Prop
  | via (a r : Txt) : (a, r) ∈ t.aliases → Target t a r
  | self (a : Txt) : (∀ r, (a, r) ∉ t.aliases) → Target t a a

/-- The option a name means, and whether the name negates it. -/
inductive Means (t : Table) : Txt → Txt → Opt → Bool → Prop
  | plain (name real : Txt) (o : Opt) : Target t name real → (real, o) ∈ t.options →
      Means t name real o false
  | negated (name m real : Txt) (s : Sep) : Target t name ('n' :: 'o' :: m) →
      (∀ o, ('n' :: 'o' :: m, o) ∉ t.options) → Target t m real →
      (real, ⟨.flag true, s⟩) ∈ t.options → Means t name real ⟨.flag true, s⟩ true

/-- The tables the tools build: no name twice, no empty names, none with `:` or `=`,
and no separators for flags and single values. -/
structure Good (t : Table) : Prop where
  opts : (t.options.map Prod.fst).Nodup
  aliasUniq : (t.aliases.map Prod.fst).Nodup
  optName : ∀ n o, (n, o) ∈ t.options → n ≠ [] ∧ ':' ∉ n ∧ '=' ∉ n
  aliasName : ∀ a r, (a, r) ∈ t.aliases → a ≠ [] ∧ ':' ∉ a ∧ '=' ∉ a
  sep : ∀ n o, (n, o) ∈ t.options →
    (¬ (o.kind = .ints ∨ o.kind = .floats ∨ o.kind = .strs)) → o.sep = .none

/-! ### Command lines -/

/-- Kinds that take no argument. -/
def IsFlag (k : Kind) : Prop := ∃ b, k = .flag b

/-- The text a flag is given. -/
def flagText (no : Bool) : Txt := if no then ['n', 'o'] else []

/-- A name without `:` and `=`. -/
def NoSep (n : Txt) : Prop := ':' ∉ n ∧ '=' ∉ n

/-- The flags of a row of characters, with what they are given. -/
inductive Flags (t : Table) : List Char → List (Txt × Txt) → Prop
  | nil : Flags t [] []
  | cons (c : Char) (cs : List Char) (n : Txt) (o : Opt) (no : Bool) (evs : List (Txt × Txt)) :
      Means t [c] n o no → IsFlag o.kind → Flags t cs evs →
      Flags t (c :: cs) ((n, flagText no) :: evs)

/-- The front of an option: its text, what the flags combined with it are given,
and its name. -/
inductive Head (t : Table) : Txt → List (Txt × Txt) → Txt → Prop
  | long (name : Txt) : NoSep name → Head t ('-' :: '-' :: name) [] name
  | short (name : Txt) : NoSep name → (t.combined = true → name.length ≤ 1) →
      name.head? ≠ some '-' → Head t ('-' :: name) [] name
  | combined (cs : List Char) (c : Char) (evs : List (Txt × Txt)) : t.combined = true → cs ≠ [] →
      NoSep (cs ++ [c]) → cs.head? ≠ some '-' → Flags t cs evs →
      Head t ('-' :: (cs ++ [c])) evs [c]

/-- An argument that is not an option. -/
def Plain (a : Txt) : Prop := a = ['-'] ∨ a.head? ≠ some '-'

/-- What follows the name in an argument. -/
def Tail (x : Txt) : Prop := x = [] ∨ x.head? = some ':' ∨ x.head? = some '='

/-- The option that takes the arguments after it. -/
def eaterOf (n : Txt) (o : Opt) : Option (Txt × Opt) := if o.sep = .argv then some (n, o) else none

/-- Command lines.  `Line t e args evs files`: after an option `e` that takes the
arguments up to the next option, or none, the arguments `args` give the options the
arguments `evs`, in that order, and leave over `files`. -/
inductive Line (t : Table) : Option (Txt × Opt) → List Txt → List (Txt × Txt) → List Txt → Prop
  | done (e : Option (Txt × Opt)) : Line t e [] [] []
  | rest (e : Option (Txt × Opt)) (fs : List Txt) : Line t e (['-', '-'] :: fs) [] fs
  | file (a : Txt) (as fs : List Txt) (evs : List (Txt × Txt)) : Plain a → Line t none as evs fs →
      Line t none (a :: as) evs (a :: fs)
  | more (n : Txt) (o : Opt) (a : Txt) (as fs : List Txt) (evs : List (Txt × Txt)) : Plain a →
      Line t (some (n, o)) as evs fs → Line t (some (n, o)) (a :: as) ((n, a) :: evs) fs
  | flag (e : Option (Txt × Opt)) (hd name n : Txt) (o : Opt) (no : Bool) (as fs : List Txt)
      (evs0 evs : List (Txt × Txt)) : Head t hd evs0 name → Means t name n o no → IsFlag o.kind →
      Line t none as evs fs → Line t e (hd :: as) (evs0 ++ (n, flagText no) :: evs) fs
  | eq (e : Option (Txt × Opt)) (hd name n : Txt) (o : Opt) (no : Bool) (c : Char) (v : Txt)
      (as fs : List Txt) (evs0 evs : List (Txt × Txt)) : Head t hd evs0 name → Means t name n o no →
      ¬ IsFlag o.kind → c = ':' ∨ c = '=' → Line t (eaterOf n o) as evs fs →
      Line t e ((hd ++ c :: v) :: as) (evs0 ++ (n, v) :: evs) fs
  | next (e : Option (Txt × Opt)) (hd name n : Txt) (o : Opt) (no : Bool) (v : Txt)
      (as fs : List Txt) (evs0 evs : List (Txt × Txt)) : Head t hd evs0 name → Means t name n o no →
      ¬ IsFlag o.kind → o.sep ≠ .argv → Line t none as evs fs →
      Line t e (hd :: v :: as) (evs0 ++ (n, v) :: evs) fs
  | many (e : Option (Txt × Opt)) (hd name n : Txt) (o : Opt) (no : Bool)
      (as fs : List Txt) (evs0 evs : List (Txt × Txt)) : Head t hd evs0 name → Means t name n o no →
      ¬ IsFlag o.kind → o.sep = .argv → Line t (some (n, o)) as evs fs →
      Line t e (hd :: as) (evs0 ++ evs) fs
  | glued (e : Option (Txt × Opt)) (hd name n : Txt) (o : Opt) (no : Bool) (c : Char) (cs x : Txt)
      (as fs : List Txt) (evs0 evs : List (Txt × Txt)) : Head t hd evs0 name → Tail x →
      (∀ n o no, ¬ Means t name n o no) → name = c :: cs → Means t [c] n o no → ¬ IsFlag o.kind →
      Line t (eaterOf n o) as evs fs →
      Line t e ((hd ++ x) :: as) (evs0 ++ (n, cs ++ x) :: evs) fs
  | unknown (e : Option (Txt × Opt)) (hd name x : Txt) (as fs : List Txt)
      (evs0 evs : List (Txt × Txt)) : t.allowUnrecognized = true → Head t hd evs0 name → Tail x →
      name ++ x ≠ [] → (∀ n o no, ¬ Means t name n o no) →
      (∀ c cs n o no, name = c :: cs → Means t [c] n o no → IsFlag o.kind) →
      Line t none as evs fs → Line t e ((hd ++ x) :: as) (evs0 ++ evs) ((hd ++ x) :: fs)

/-- The arguments given to an option. -/
def argsOf (n : Txt) (evs : List (Txt × Txt)) : List Txt :=
  (evs.filter fun e => e.1 == n).map Prod.snd

end Verif.Util.Args.Spec
