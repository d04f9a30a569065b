import Verif.Shader.Slx

/-!
# Compiled shaders: what a loaded program should be

What the elements of the program of a loaded shader mean, against the instructions that were written, and
the conditions under which a compiled shader is loaded.
-/

namespace Verif.Shader.Slx

variable {F : Type}

/-- The number of elements of a program. -/
def size : List (Ins F) → Nat
  | [] => 0
  | .label _ :: r => 1 + size r
  | .op _ as :: r => 1 + as.length + size r

/-- The label `n` stands before the element `k`. -/
def At (code : List (Ins F)) (n k : Nat) : Prop :=
  ∃ a b, code = a ++ .label n :: b ∧ k = size a

/-- The escapes of one letter in the shading language. -/
def escapes : List (Char × Char) :=
  [('a', '\x07'), ('b', '\x08'), ('t', '\x09'), ('n', '\x0a'), ('v', '\x0b'), ('f', '\x0c'),
    ('r', '\x0d'), ('"', '"'), ('\'', '\''), ('?', '?'), ('\\', '\\')]

/-- An octal digit. -/
def Oct (c : Char) : Prop := '0' ≤ c ∧ c ≤ '7'

/-- A decimal digit. -/
def Dec (c : Char) : Prop := '0' ≤ c ∧ c ≤ '9'

/-- A hexadecimal digit. -/
def Hex (c : Char) : Prop := ('0' ≤ c ∧ c ≤ '9') ∨ ('A' ≤ c ∧ c ≤ 'F') ∨ ('a' ≤ c ∧ c ≤ 'f')

/-- The value of a digit. -/
def val (c : Char) : Nat :=
  if c ≤ '9' then c.toNat - '0'.toNat
  else if c ≤ 'F' then c.toNat - 'A'.toNat + 10
  else c.toNat - 'a'.toNat + 10

/-- The value of digits. -/
def value (base : Nat) : Nat → Str → Nat
  | v, [] => v
  | v, c :: r => value base (v * base + val c) r

/-- The character with a number; a zero cannot be in a string and is left out. -/
def charOf (n : Nat) : Str := if n = 0 then [] else [Char.ofNat n]

/-- The names by which the compiler calls the types of shaders, in the order of their numbers
(libs/slcomp/parse/parsenode.cpp:42-50). -/
def compilerTypes : List Str :=
  ["surface".toList, "lightsource".toList, "volume".toList, "displacement".toList, "transformation".toList,
    "imager".toList]

/-- The instructions which the compiler writes with a label (libs/slcomp/backend/vmoutput.cpp:508, 516, 615, 630, 730). -/
def jumpNames : List Str :=
  ["S_JZ".toList, "RS_JZ".toList, "jz".toList, "jnz".toList, "jmp".toList]

/-- The text between the quotes of a literal and the string that it means.  Octal escapes have up to
three digits and no decimal digit after them, hexadecimal ones up to two digits. -/
inductive Means : Str → Str → Prop where
  | nil : Means [] []
  | char {c t m} : c ≠ '\\' → c ≠ '"' → c ≠ '\x00' → Means t m → Means (c :: t) (c :: m)
  | esc {c d t m} : (c, d) ∈ escapes → Means t m → Means ('\\' :: c :: t) (d :: m)
  | oct {c ds t m} : (∀ x ∈ c :: ds, Oct x) → ds.length ≤ 2 →
      (ds.length = 2 ∨ ∀ x, t.head? = some x → ¬ Dec x) →
      value 8 0 (c :: ds) < 256 → Means t m →
      Means ('\\' :: c :: (ds ++ t)) (charOf (value 8 0 (c :: ds)) ++ m)
  | hex {ds t m} : (∀ x ∈ ds, Hex x) → ds.length ≤ 2 →
      (ds.length = 2 ∨ ∀ x, t.head? = some x → ¬ Hex x) →
      Means t m → Means ('\\' :: 'x' :: (ds ++ t)) (charOf (value 16 0 ds) ++ m)

/-- The element of a program that stands for an argument.  `names` are the names of the variables of
the shader; a variable is what `GetVar` gives for the element.  A label is the element before which it
stands in the program of this shader. -/
inductive Same (E : Env F) (names : List Str) (all : List (Ins F)) : Arg F → Elem F → Prop where
  | local {x t j k} : getVar j = (false, k) → names[k]? = some x → Same E names all (.var x t) (.var j)
  | standard {x t j k} : x ∉ names → getVar j = (true, k) → E.std[k]? = some x →
      Same E names all (.var x t) (.var j)
  | num {f} : Same E names all (.num f) (.num f)
  | int {i} : Same E names all (.int i) (.int i)
  | str {t m} : Means t m → Same E names all (.str t) (.str m)
  | lab {n k} : At all n k → Same E names all (.lab n) (.lab E.me k)

/-- Arguments and elements, one by one. -/
inductive All2 {α β : Type} (R : α → β → Prop) : List α → List β → Prop where
  | nil : All2 R [] []
  | cons {a b as bs} : R a b → All2 R as bs → All2 R (a :: as) (b :: bs)

/-- The program `w` does what the instructions say: for a label nothing, for an instruction the command
of that name with its arguments in their order. -/
inductive Code (table : List Row) (R : Arg F → Elem F → Prop) :
    List (Ins F) → List (Elem F) → Prop where
  | nil : Code table R [] []
  | label {n is w} : Code table R is w → Code table R (.label n :: is) (.cmd "SO_nop".toList :: w)
  | op {r as ws is w} : r ∈ table → All2 R as ws → Code table R is w →
      Code table R (.op r.name as :: is) (.cmd r.cmd :: (ws ++ w))

/-- The variable that should be created for a declaration. -/
def Decl.var (d : Decl) : Var := ⟨d.storage, d.cls, d.ty, d.name, d.len⟩

/-! ## Conditions -/

/-- A word of at most `n` characters, without white space and zeros, that does not begin with a colon. -/
structure Word (n : Nat) (x : Str) : Prop where
  ne : x ≠ []
  len : x.length ≤ n
  colon : x.head? ≠ some ':'
  chars : ∀ c ∈ x, space c = false ∧ c ≠ '\x00'

/-- The text of a number is read as that number when white space follows. -/
structure Reads {α : Type} (f : Str → Option (α × Str)) (w : Str) (x : α) : Prop where
  head : ∃ c r, w = c :: r ∧ space c = false
  back : ∀ c r, space c = true → f (w ++ c :: r) = some (x, c :: r)

/-- The number of a label is written as an integer and read as a float. -/
structure LabelOk (L : Lib F) (n : Nat) : Prop where
  reads : Reads L.readF (L.writeI n) (L.ofNat n)
  back : L.toNat (L.ofNat n) = n

/-- The length of an array is read by `atoi`. -/
structure LenOk (L : Lib F) (n : Nat) : Prop where
  pos : 0 < n
  back : L.atoi (L.writeI n) = n
  chars : ∀ c ∈ L.writeI n, space c = false ∧ c ≠ '\x00'

/-- A declaration that can be loaded. -/
structure DeclOk (L : Lib F) (d : Decl) : Prop where
  ty : d.ty ∈ varTypes
  word : Word 253 d.name
  bracket : ∀ c ∈ d.name, c ≠ '[' ∧ c ≠ ']'
  temp : d.temp = true → d.len = none
  arr : ∀ n, d.len = some n → LenOk L n ∧ d.ty ≠ "integer".toList ∧ d.ty ≠ "bool".toList ∧
    d.name.length + (L.writeI n).length + 2 ≤ 254

/-- The numbers of the labels. -/
def labelsOf : List (Ins F) → List Nat
  | [] => []
  | .label n :: r => n :: labelsOf r
  | .op _ _ :: r => labelsOf r

/-- An argument fits a parameter.  `names` are the variables that can be used, `jump` is whether the
instruction is a jump, and `targets` are the labels to which it can go. -/
def Fits (L : Lib F) (names : List Str) (jump : Bool) (targets : List Nat) : Param → Arg F → Prop
  | .var, .var x _ => x ∈ names ∧ Word 253 x
  | .float, .num f => jump = false ∧ Reads L.readF (L.writeF f) f
  | .float, .lab n => jump = true ∧ LabelOk L n ∧ n ∈ targets
  | .int, .int i => Reads L.readI (L.writeI i) i
  | .string, .str t => ∃ m, Means t m
  | _, _ => False

/-- An instruction that can be loaded. -/
def InsOk (E : Env F) (names : List Str) (targets : List Nat) : Ins F → Prop
  | .label n => LabelOk E.L n
  | .op name args => ∃ r ∈ E.table, r.name = name ∧ name ≠ "external".toList ∧
      All2 (Fits E.L names (decide (r.cmd ∈ jumps)) targets) r.params args

/-- The words with a meaning of their own. -/
def keys : List Str :=
  ["USES".toList, "segment".toList, "Data".toList, "Init".toList, "Code".toList, "output".toList,
    "param".toList, "varying".toList, "uniform".toList] ++ varTypes ++ shaderTypes

/-- What is needed of the table, the standard variables and the hash function. -/
structure EnvOk (E : Env F) : Prop where
  keys : ∀ a ∈ keys, ∀ b ∈ keys, E.L.hash a = E.L.hash b → a = b
  rows : ∀ a ∈ E.table, ∀ b ∈ E.table, E.L.hash a.name = E.L.hash b.name → a = b
  free : ∀ a ∈ E.table, ∀ k ∈ ["USES".toList, "segment".toList, "external".toList],
    E.L.hash a.name = E.L.hash k → a.name = k
  names : ∀ a ∈ E.table, a.name ∉ ["USES".toList, "segment".toList, "AQSIS_V".toList] ∧
    Word 254 a.name
  pass : ∀ a ∈ E.table, skip E.table a.cmd = a.params.length
  jump : ∀ a ∈ E.table, a.cmd ∈ jumps → a.params = [.float]
  nop : skip E.table "SO_nop".toList = 0
  colon : ∀ k ∈ ["USES".toList, "segment".toList], E.L.hash [':'] ≠ E.L.hash k
  std : E.std.length ≤ 0x8000

/-- A shader that can be loaded: the version of the file is that of the machine, names are short words
with different hashes, there are not too many variables, numbers are read as they were written, labels are
different, and there are no jumps in the program for the defaults of parameters. -/
structure Good (E : Env F) (s : Shader F) : Prop where
  type : s.type ∈ shaderTypes
  uses : Reads E.L.readI (E.L.writeI s.uses) s.uses
  decls : ∀ d ∈ s.vars, DeclOk E.L d
  apart : ∀ a ∈ s.vars.map (·.name) ++ E.std, ∀ b ∈ s.vars.map (·.name) ++ E.std,
    E.L.hash a = E.L.hash b → a = b
  count : s.vars.length ≤ 0x8000
  init : ∀ i ∈ s.init, InsOk E (s.vars.map (·.name) ++ E.std) [] i
  code : ∀ i ∈ s.code, InsOk E (s.vars.map (·.name) ++ E.std) (labelsOf s.code) i
  labels : (labelsOf s.code).Nodup

end Verif.Shader.Slx
