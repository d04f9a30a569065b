import Mathlib.Logic.Function.Basic
import Mathlib.Data.Int.Notation

/-
The command line parser of the tools: /repo/libs/util/argparse.cpp and
/repo/include/aqsis/util/argparse.h.

Texts are lists of characters without the NUL that ends them.  Not modelled: the
usage message (argparse.cpp:396-480, 557-592), and variables shared between two
options (each registered option owns its variable here).
-/
namespace Verif.Util.Args

/-- `apstring`, and the elements of `argv`. include/aqsis/util/argparse.h:91, 174. -/
abbrev Txt := List Char

/-! ### Numbers -/

/-- C `isspace`, which `strtol` skips (argparse.cpp:488). -/
def isSpace (c : Char) : Bool :=
  c == ' ' || c == '\t' || c == '\n' || c == '\x0b' || c == '\x0c' || c == '\r'

/-- The digit a character stands for in `strtol` (argparse.cpp:488), 36 for none.
Letters beyond `f` do not matter in the bases 8, 10 and 16. -/
def digit (c : Char) : Nat :=
  if '0' ≤ c ∧ c ≤ '9' then c.toNat - '0'.toNat
  else if 'a' ≤ c ∧ c ≤ 'f' then c.toNat - 'a'.toNat + 10
  else if 'A' ≤ c ∧ c ≤ 'F' then c.toNat - 'A'.toNat + 10
  else 36

/-- The digits at the front and what follows them (C `strtol`, argparse.cpp:488). -/
def scanDigits (base : Nat) : Txt → Nat → Nat × Txt
  | [], acc => (acc, [])
  | c :: t, acc => if digit c < base then scanDigits base t (acc * base + digit c) else (acc, c :: t)

/-- The base `strtol` settles on when called with base 0 (argparse.cpp:488-489), and
the text where the digits start. -/
def baseOf : Txt → Nat × Txt
  | '0' :: x :: d :: t =>
    if (x == 'x' || x == 'X') && decide (digit d < 16) then (16, d :: t) else (8, '0' :: x :: d :: t)
  | '0' :: t => (8, '0' :: t)
  | t => (10, t)

/-- The sign (C `strtol`, argparse.cpp:488): whether it is a minus, and what follows. -/
def signOf : Txt → Bool × Txt
  | '-' :: t => (true, t)
  | '+' :: t => (false, t)
  | t => (false, t)

/-- C `strtol` with a 64 bit `long`, which saturates. -/
def clamp64 (z : ℤ) : ℤ :=
  if z > 9223372036854775807 then 9223372036854775807
  else if z < -9223372036854775808 then -9223372036854775808 else z

/-- C `strtol(text, &endptr, 0)` as called by argparse.cpp:488-489: the value, and
the text at `endptr`; without digits `endptr` is the beginning. -/
def strtol (t : Txt) : ℤ × Txt :=
  let s := signOf (t.dropWhile isSpace)
  let b := baseOf s.2
  match b.2 with
  | [] => (0, t)
  | c :: _ =>
    if digit c < b.1 then
      let r := scanDigits b.1 b.2 0
      (clamp64 (if s.1 then -(r.1 : ℤ) else (r.1 : ℤ)), r.2)
    else (0, t)

/-- The cast of a `long` to `apint`, a 32 bit `int` (argparse.cpp:488). -/
def toInt32 (z : ℤ) : ℤ := (z + 2147483648) % 4294967296 - 2147483648

/-- argparse.cpp:484-494 `parseInt`; `none` is the error message. -/
def parseInt (arg : Txt) : Option ℤ :=
  let r := strtol arg
  if r.2 ≠ [] ∨ arg.length = 0 then none else some (toInt32 r.1)

/-! ### Options -/

/-- The subclasses of `OptionHandler`. argparse.cpp:599, 664, 703, 742, 782, 818, 855. -/
inductive Kind where
  | flag (allowNegation : Bool)
  | int | float | str | ints | floats | strs
  deriving DecidableEq, Repr

/-- `separator`. include/aqsis/util/argparse.h:98-111. -/
inductive Sep where
  | none | argv | chr (c : Char)
  deriving DecidableEq, Repr

/-- What does not change of an `OptionHandler`. argparse.cpp:28-35. -/
structure Opt where
  kind : Kind
  sep : Sep
  deriving DecidableEq, Repr

/-- A value given to an option. include/aqsis/util/argparse.h:88-91. -/
inductive Atom (F : Type) where
  | flag (b : Bool) | int (z : ℤ) | float (x : F) | str (t : Txt)
  deriving DecidableEq, Repr

/-- What changes of an `OptionHandler` (argparse.cpp:33, 603, 667), with the variable
it fills: one value for the single kinds, the vector for the others. -/
structure Dyn (F : Type) where
  count : ℤ
  used : Bool
  val : List (Atom F)
  deriving DecidableEq, Repr

/-- The messages of the handlers, all of them nonempty texts.
argparse.cpp:491, 503-504, 646, 690, 729, 768. -/
inductive HErr where
  | negated | twice | badInt (t : Txt) | badFloat (t : Txt)
  deriving DecidableEq, Repr

/-- argparse.cpp:518-521, 622-625 `takesarg`. -/
def Kind.takesArg : Kind → Bool
  | .flag _ => false
  | _ => true

/-- argparse.cpp:523-526, 627-630 `allownegation`. -/
def Kind.negatable : Kind → Bool
  | .flag n => n
  | _ => false

/-- argparse.cpp:805, 842, 876 `count -= (count == -1)? 0 : 1`. -/
def countDown (c : ℤ) : ℤ := c - (if c = -1 then 0 else 1)

/-- The value of a flag. argparse.cpp:603, 645. -/
def flagOf {F : Type} : List (Atom F) → Bool
  | [.flag b] => b
  | _ => false

/-- `handlearg`: argparse.cpp:637-654 (flag), 686-694 (int), 725-733 (float),
764-773 (string), 798-808, 835-845, 873-878 (vectors).  `strtod` is the C function
on texts it consumes entirely, `none` for others and for the empty text
(argparse.cpp:496-507). -/
def handleArg {F : Type} (strtod : Txt → Option F) (k : Kind) (d : Dyn F) (arg : Txt) :
    Dyn F × Option HErr :=
  match k with
  | .flag _ =>
    let new := decide (arg.length = 0)
    if d.used then
      (d, if flagOf d.val ≠ new then some .negated else none)
    else ({ d with val := [.flag new], used := true }, none)
  | .int =>
    if d.used then (d, some .twice)
    else match parseInt arg with
      | some z => ({ d with used := true, val := [.int z] }, none)
      | none => ({ d with used := true }, some (.badInt arg))
  | .float =>
    if d.used then (d, some .twice)
    else match strtod arg with
      | some x => ({ d with used := true, val := [.float x] }, none)
      | none => ({ d with used := true }, some (.badFloat arg))
  | .str =>
    if d.used then (d, some .twice)
    else ({ d with used := true, val := [.str arg] }, none)
  | .ints =>
    match parseInt arg with
    | some z => ({ d with val := d.val ++ [.int z], count := countDown d.count }, none)
    | none => (d, some (.badInt arg))
  | .floats =>
    match strtod arg with
    | some x => ({ d with val := d.val ++ [.float x], count := countDown d.count }, none)
    | none => (d, some (.badFloat arg))
  | .strs => ({ d with val := d.val ++ [.str arg], count := countDown d.count }, none)

/-- argparse.cpp:544-554, the loop over an argument with separators, from the
position where a turn begins; `fuel` bounds the turns. -/
def splitLoop {F : Type} (strtod : Txt → Option F) (k : Kind) (c : Char) :
    Nat → Dyn F → Txt → Dyn F × Option HErr
  | 0, d, _ => (d, none)
  | fuel + 1, d, arg =>
    if arg = [] then (d, none)
    else
      let r := handleArg strtod k d (arg.takeWhile (· != c))
      match r.2 with
      | some e => (r.1, some e)
      | none => splitLoop strtod k c fuel r.1 ((arg.dropWhile (· != c)).drop 1)

/-- argparse.cpp:531-555 `handleargsplit`, without the prefix of the message. -/
def handleSplit {F : Type} (strtod : Txt → Option F) (o : Opt) (d : Dyn F) (arg : Txt) :
    Dyn F × Option HErr :=
  match o.sep with
  | .chr c => splitLoop strtod o.kind c (arg.length + 1) d arg
  | _ => handleArg strtod o.kind d arg

/-! ### The parser -/

/-- `ArgParseInternalData` without the values of the options and the usage.
argparse.cpp:92-105. -/
structure Table where
  combined : Bool
  allowUnrecognized : Bool
  options : List (Txt × Opt)
  aliases : List (Txt × Txt)
  deriving DecidableEq, Repr

/-- argparse.cpp:107-123 `addOption`: a second option of the same name is dropped. -/
def Table.addOption (t : Table) (name : Txt) (o : Opt) : Table :=
  if (t.options.lookup name).isSome then t else { t with options := t.options ++ [(name, o)] }

/-- argparse.cpp:193-204 `alias`: a second alias of the same name is dropped. -/
def Table.alias (t : Table) (real name : Txt) : Table :=
  if (t.aliases.lookup name).isSome then t else { t with aliases := t.aliases ++ [(name, real)] }

/-- argparse.cpp:129-132, 142-144: a name or what it is an alias of. -/
def Table.unalias (t : Table) (name : Txt) : Txt := (t.aliases.lookup name).getD name

/-- argparse.cpp:125-158 `findOption`: the name and the option found, and `*no`. -/
def Table.findOption (t : Table) (name : Txt) : Option (Txt × Opt × Bool) :=
  let new := t.unalias name
  match t.options.lookup new with
  | some o => some (new, o, false)
  | none =>
    if new.take 2 = ['n', 'o'] then
      let new2 := t.unalias (new.drop 2)
      match t.options.lookup new2 with
      | some o => if o.kind.negatable then some (new2, o, true) else none
      | none => none
    else none

/-- `errmsg`: argparse.cpp:297-298, 305-306, 340, 365, 375, and 531-555 with the
prefix.  All these texts are nonempty. -/
inductive Err where
  | unrecognizedChar (arg : Txt) (c : Char)
  | requiresArg (arg : Txt) (c : Char)
  | unrecognized (arg : Txt)
  | noArg (arg : Txt)
  | missing
  | handler (pre : Txt) (e : HErr)
  deriving DecidableEq, Repr

/-- The variables of `parse` and the options. argparse.cpp:223-226, 97-98. -/
structure St (F : Type) where
  dyn : Txt → Dyn F
  left : List Txt
  /-- `argeater`: the option that takes the arguments up to the next option. -/
  eater : Option (Txt × Opt)
  /-- `oneshotargeater`: the option that takes the next argument. -/
  oneshot : Option (Txt × Opt)
  endOfOptions : Bool
  eaterName : Txt
  err : Option Err

/-- What the parser does: end, or read outside of a text (undefined behaviour). -/
inductive Res (α : Type) where
  | ok (a : α)
  | readPastEnd
  deriving DecidableEq, Repr

/-- `d->errmsg = oh->handleargsplit(arg, prefix)`. argparse.cpp:251, 265, 309, 349, 369. -/
def St.give {F : Type} (strtod : Txt → Option F) (s : St F) (n : Txt) (o : Opt) (arg pre : Txt) :
    St F :=
  let r := handleSplit strtod o (s.dyn n) arg
  { s with dyn := Function.update s.dyn n r.1, err := r.2.map (Err.handler pre) }

/-- argparse.cpp:290-312, the loop over the combined options but the last. -/
def bundle {F : Type} (strtod : Txt → Option F) (t : Table) (arg : Txt) : List Char → St F → St F
  | [], s => s
  | c :: cs, s =>
    match t.findOption [c] with
    | none => { s with err := some (.unrecognizedChar arg c) }
    | some (n, o, no) =>
      if o.kind.takesArg then { s with err := some (.requiresArg arg c) }
      else
        let s' := s.give strtod n o (if no then ['n', 'o'] else []) arg
        if s'.err.isSome then s' else bundle strtod t arg cs s'

/-- argparse.cpp:345-371, the option is known; `tail` is the text at `rest + l`. -/
def useOption {F : Type} (strtod : Txt → Option F) (s : St F) (arg tail : Txt) (n : Txt) (o : Opt)
    (no : Bool) : St F :=
  if o.kind.takesArg then
    let s1 := match tail with
      | _ :: v => s.give strtod n o v arg
      | [] => if o.sep ≠ Sep.argv then { s with oneshot := some (n, o) } else s
    let s2 := if o.sep = Sep.argv then { s1 with eater := some (n, o) } else s1
    { s2 with eaterName := arg }
  else
    match tail with
    | _ :: _ => { s with err := some (.noArg arg) }
    | [] => s.give strtod n o (if no then ['n', 'o'] else []) arg

/-- argparse.cpp:316-371: one option, whose name are the first `l` characters of
`rest`.  A `rest` that is empty gives the one character text of the NUL
(argparse.cpp:323). -/
def single {F : Type} (strtod : Txt → Option F) (t : Table) (s : St F) (arg rest : Txt) (l : Nat) :
    St F :=
  match t.findOption (rest.take l) with
  | some (n, o, no) => useOption strtod s arg (rest.drop l) n o no
  | none =>
    match t.findOption [rest.headD '\x00'] with
    | some (n, o, no) =>
      if o.kind.takesArg then useOption strtod s arg rest n o no
      else if t.allowUnrecognized then { s with left := s.left ++ [arg] }
      else { s with err := some (.unrecognized arg) }
    | none =>
      if t.allowUnrecognized then { s with left := s.left ++ [arg] }
      else { s with err := some (.unrecognized arg) }

/-- argparse.cpp:282: the length of the name. -/
def nameLen (rest : Txt) : Nat := (rest.takeWhile fun c => c != ':' && c != '=').length

/-- argparse.cpp:280-371; `rest` is the argument after its dashes. -/
def named {F : Type} (strtod : Txt → Option F) (t : Table) (s : St F) (arg rest : Txt)
    (ndashes : Nat) : St F :=
  let l := nameLen rest
  if t.combined ∧ ndashes = 1 ∧ l > 1 then
    let s' := bundle strtod t arg (rest.take (l - 1)) s
    if s'.err.isSome then s' else single strtod t s' arg (rest.drop (l - 1)) 1
  else single strtod t s arg rest l

/-- argparse.cpp:270-279: what follows the first character of the argument. -/
def dashed {F : Type} (strtod : Txt → Option F) (t : Table) (s : St F) (arg : Txt) : Txt → St F
  | ['-'] => { s with endOfOptions := true }
  | '-' :: rest => named strtod t s arg rest 2
  | rest => named strtod t s arg rest 1

/-- argparse.cpp:259 `argv[i][0] != '-' || argv[i][1] == '\0'`. -/
def isPlain : Txt → Bool
  | ['-'] => true
  | '-' :: _ => false
  | _ => true

/-- argparse.cpp:260 `!argeater || ( argeater->count > 0 || argeater->count == -1 )`. -/
def hungry {F : Type} (s : St F) : Bool :=
  match s.eater with
  | none => true
  | some (n, _) => decide ((s.dyn n).count > 0 ∨ (s.dyn n).count = -1)

/-- One turn of the loop of `parse`. argparse.cpp:242-371. -/
def step {F : Type} (strtod : Txt → Option F) (t : Table) (s : St F) (arg : Txt) : Res (St F) :=
  if s.err.isSome then .ok s
  else if s.endOfOptions then .ok { s with left := s.left ++ [arg] }
  else match s.oneshot with
    | some (n, o) => .ok { s.give strtod n o arg s.eaterName with oneshot := none }
    | none =>
      if isPlain arg && hungry s then
        match s.eater with
        | none => .ok { s with left := s.left ++ [arg] }
        | some (n, o) => .ok (s.give strtod n o arg s.eaterName)
      else
        match arg with
        | [] => .readPastEnd          -- line 271 reads `argv[i][1]`
        | _ :: rest => .ok (dashed strtod t { s with eater := none } arg rest)

/-- argparse.cpp:240, the loop over the arguments. -/
def steps {F : Type} (strtod : Txt → Option F) (t : Table) : St F → List Txt → Res (St F)
  | s, [] => .ok s
  | s, a :: as =>
    match step strtod t s a with
    | .ok s' => steps strtod t s' as
    | .readPastEnd => .readPastEnd

/-- `reset` (argparse.cpp:528-529, 632-635, 681-684, 720-723, 759-762): the vectors
have none, and flags never count. -/
def Dyn.reset {F : Type} (d : Dyn F) : Dyn F := { d with used := false }

/-- What the caller sees: the return value and the message (`err`), the leftovers
and the variables. argparse.cpp:211-219, 374-376. -/
structure Outcome (F : Type) where
  err : Option Err
  left : List Txt
  dyn : Txt → Dyn F

/-- argparse.cpp:221-377 `parse`, where `dyn` is what the options hold before it. -/
def parse {F : Type} (strtod : Txt → Option F) (t : Table) (dyn : Txt → Dyn F) (argv : List Txt) :
    Res (Outcome F) :=
  match steps strtod t
      { dyn := fun n => (dyn n).reset, left := [], eater := none, oneshot := none,
        endOfOptions := false, eaterName := [], err := none } argv with
  | .readPastEnd => .readPastEnd
  | .ok s =>
    .ok { err := if s.err.isNone ∧ s.oneshot.isSome then some .missing else s.err,
          left := s.left, dyn := s.dyn }

/-! ### The options of aqsis -/

/-- `argFlag`, `argInt`, `argFloat`, `argString`: no separator. argparse.cpp:656-660,
696-699, 735-738, 775-778. -/
def Table.addSingle (t : Table) (name : String) (k : Kind) : Table := t.addOption name.toList ⟨k, .none⟩

/-- The table of aqsis, tools/aqsis/aqsis.cpp:515-565, with AQSIS_SYSTEM_POSIX and
without ENABLE_MPDUMP. -/
def aqsisTable : Table :=
  let t : Table := ⟨false, true, [], []⟩
  let t := (t.addSingle "help" (.flag true)).alias "help".toList "h".toList
  let t := t.addSingle "version" (.flag true)
  let t := t.addSingle "pause" (.flag true)
  let t := t.addSingle "progress" (.flag true)
  let t := t.addSingle "Progress" (.flag true)
  let t := t.addSingle "progressformat" .str
  let t := t.addSingle "endofframe" .int
  let t := (t.addSingle "verbose" .int).alias "verbose".toList "v".toList
  let t := t.addSingle "echoapi" (.flag true)
  let t := (t.addSingle "priority" .int).alias "priority".toList "z".toList
  let t := t.addSingle "type" .str
  let t := t.addSingle "addtype" .str
  let t := t.addSingle "mode" .str
  let t := (t.addSingle "fb" (.flag true)).alias "fb".toList "d".toList
  let t := t.addOption "crop".toList ⟨.floats, .argv⟩
  let t := t.addSingle "nocolor" (.flag true)
  let t := t.addOption "frames".toList ⟨.ints, .argv⟩
  let t := t.addSingle "framelist" .str
  let t := t.addSingle "beep" (.flag true)
  let t := t.alias "nocolor".toList "nc".toList
  let t := t.addOption "res".toList ⟨.ints, .argv⟩
  let t := t.addOption "option".toList ⟨.strs, .none⟩
  let t := t.addSingle "syslog" (.flag true)
  let t := t.addSingle "shaders" .str
  let t := t.addSingle "archives" .str
  let t := t.addSingle "textures" .str
  let t := t.addSingle "displays" .str
  t.addSingle "procedurals" .str

/-- The counts of tools/aqsis/aqsis.cpp:545, 547, 551 and -1 for the others
(include/aqsis/util/argparse.h:143, argparse.cpp:37); the variables hold nothing that
matters yet. -/
def aqsisDyn (n : Txt) : Dyn Unit :=
  ⟨if n = "crop".toList then 4 else if n = "frames".toList ∨ n = "res".toList then 2 else -1, false, []⟩

end Verif.Util.Args
