import Verif.Shader.SlxTable

/-!
# Compiled shaders: writing and loading

The text of a compiled shader, as the code generator of the shader compiler writes it
(libs/slcomp/backend/vmoutput.cpp) and as the virtual machine reads it
(libs/shadervm/shadervm.cpp:866-1472, shadervm.h:280-400).

Simplifications.  Characters are bytes; the end of the file read as a character is the byte 255.
Writing and reading numbers, `atoi` and the hash function of strings are parameters (`Lib`).  Calls
of external functions are left out: loading them is an error here.  The program is the list of
its instructions (`Ins`); which instructions are written for which expressions and statements is the
subject of C50, C76 and C78.
-/

namespace Verif.Shader.Slx

/-- What the C++ library and `CqString::hash` do: writing and reading floats and integers (`none`: the
text is not a number), conversion between floats and natural numbers, and `atoi`; the hash is that of
include/aqsis/util/sstring.h:71-85. -/
structure Lib (F : Type) where
  writeF : F → Str
  readF : Str → Option (F × Str)
  writeI : Int → Str
  readI : Str → Option (Int × Str)
  atoi : Str → Nat
  ofNat : Nat → F
  toNat : F → Nat
  hash : Str → Nat

/-! ## Writing -/

/-- The storage of a variable (include/aqsis/shadervm/ishaderdata.h, `EqStorage`). -/
inductive Storage where
  | temporary | parameter | output
  deriving DecidableEq, Repr

/-- The class of a variable (`class_uniform`, `class_varying`; libs/shadervm/shadervm.cpp:1046-1049). -/
inductive Class where
  | uniform | varying
  deriving DecidableEq, Repr

/-- A variable of a shader as it is declared: its type by its name, and its length if it is an array.
`temp` marks the temporaries of calls of functions, whose names are written with a zero at the end
(libs/slcomp/backend/codegenvm.cpp:127, vmoutput.cpp:119-121). -/
structure Decl where
  storage : Storage
  cls : Class
  ty : Str
  name : Str
  len : Option Nat
  temp : Bool
  deriving DecidableEq

/-- What follows the name of an instruction: a variable (`temp`: one of those temporaries), a float, an
integer, the text of a string between its quotes, or a label (vmoutput.cpp:298, 478, 483, 508, 546). -/
inductive Arg (F : Type) where
  | var (x : Str) (temp : Bool)
  | num (f : F)
  | int (i : Int)
  | str (t : Str)
  | lab (n : Nat)
  deriving DecidableEq

/-- A line of a program: a label or an instruction (libs/slcomp/backend/vmoutput.cpp:504-508). -/
inductive Ins (F : Type) where
  | label (n : Nat)
  | op (name : Str) (args : List (Arg F))
  deriving DecidableEq

/-- A compiled shader: its type, the bits of the standard variables that are used, its variables,
the program for the defaults of the parameters and the program itself (vmoutput.cpp:92-140). -/
structure Shader (F : Type) where
  type : Str
  uses : Int
  vars : List Decl
  init : List (Ins F)
  code : List (Ins F)

/-- `CqCodeGenOutput::StorageSpec`, vmoutput.cpp:1010-1024. -/
def spec (s : Storage) (c : Class) : Str :=
  (match s with
    | .temporary => []
    | .parameter => "param ".toList
    | .output => "output param ".toList) ++
  (match c with
    | .uniform => "uniform ".toList
    | .varying => "varying ".toList)

/-- `OutputLocalVariable`, vmoutput.cpp:995-1007, and the same for temporaries, 119-125. -/
def writeDecl {F : Type} (L : Lib F) (d : Decl) : Str :=
  spec d.storage d.cls ++ ' ' :: (d.ty ++ ' ' :: (d.name ++ ((if d.temp then ['\x00'] else []) ++
    ((match d.len with
      | none => []
      | some n => '[' :: (L.writeI n ++ [']'])) ++ ['\n']))))

/-- What is written for an argument, e.g. vmoutput.cpp:298, 478, 483, 508, 546. -/
def writeArg {F : Type} (L : Lib F) : Arg F → Str
  | .var x temp => x ++ (if temp then ['\x00'] else [])
  | .num f => L.writeF f
  | .int i => L.writeI i
  | .str t => '"' :: (t ++ ['"'])
  | .lab n => L.writeI n

/-- What is written for the arguments, vmoutput.cpp:478-483. -/
def writeArgs {F : Type} (L : Lib F) : List (Arg F) → Str
  | [] => ['\n']
  | a :: as => ' ' :: (writeArg L a ++ writeArgs L as)

/-- A line of a program, e.g. vmoutput.cpp:504-508. -/
def writeIns {F : Type} (L : Lib F) : Ins F → Str
  | .label n => ':' :: (L.writeI n ++ ['\n'])
  | .op name args => '\t' :: (name ++ writeArgs L args)

/-- The lines of a program, vmoutput.cpp:128-140. -/
def writeCode {F : Type} (L : Lib F) : List (Ins F) → Str
  | [] => []
  | i :: is => writeIns L i ++ writeCode L is

/-- The declarations, vmoutput.cpp:109-126. -/
def writeDecls {F : Type} (L : Lib F) : List Decl → Str
  | [] => []
  | d :: ds => writeDecl L d ++ writeDecls L ds

/-- The version, include/aqsis/slcomp/icodegen.h:53. -/
def version : Str := ['2']

/-- `CqCodeGenOutput::Visit( IqParseNodeShader& )`, vmoutput.cpp:64-145. -/
def write {F : Type} (L : Lib F) (s : Shader F) : Str :=
  s.type ++ ('\n' :: ("AQSIS_V ".toList ++ (version ++ ("\n\n\nsegment Data\n\nUSES ".toList ++
    (L.writeI s.uses ++ ("\n\n".toList ++ (writeDecls L s.vars ++
      ("\n\nsegment Init\n".toList ++ (writeCode L s.init ++
        ("\n\nsegment Code\n".toList ++ writeCode L s.code))))))))))

/-! ## The stream -/

/-- `std::istream`, of which shadervm.cpp:894-912 and 1352-1472 read: what is left, `eofbit` and `failbit`. -/
structure Stream where
  rest : Str
  eof : Bool
  fail : Bool
  deriving DecidableEq

/-- `get` at the end of the file, converted to `char` (shadervm.cpp:899, 1360). -/
def eofChar : Char := Char.ofNat 255

/-- `std::istream::get` (used in shadervm.cpp:894-912). -/
def Stream.get (s : Stream) : Char × Stream :=
  if s.fail || s.eof then (eofChar, { s with fail := true })
  else
    match s.rest with
    | [] => (eofChar, { s with eof := true, fail := true })
    | c :: r => (c, { s with rest := r })

/-- White space (`notspace`, shadervm.cpp:871-880, and `std::ws` in the "C" locale). -/
def space (c : Char) : Bool := c == ' ' || (9 ≤ c.toNat && c.toNat ≤ 13)

/-- `stream >> std::ws` (used in shadervm.cpp:1316). -/
def Stream.ws (s : Stream) : Stream :=
  if s.fail || s.eof then s
  else { s with rest := s.rest.dropWhile space, eof := (s.rest.dropWhile space).isEmpty }

/-- `stream >> x` for a number (used in shadervm.cpp:1000); `z` is what `x` is set to on failure. -/
def Stream.read {α : Type} (f : Str → Option (α × Str)) (z : α) (s : Stream) : α × Stream :=
  if s.ws.fail || s.ws.eof then (z, { s.ws with fail := true })
  else
    match f s.ws.rest with
    | some (x, r) => (x, { s.ws with rest := r, eof := r.isEmpty })
    | none => (z, { s.ws with fail := true })

/-- The loop of `CqShaderVM::GetToken`, shadervm.cpp:906-911: at most `n` more characters. -/
def tokLoop : Nat → Char → Stream → Str × Stream
  | 0, _, s => ([], s)
  | n + 1, c, s =>
    if space c then ([], s)
    else (c :: (tokLoop n s.get.1 s.get.2).1, (tokLoop n s.get.1 s.get.2).2)

/-- `CqShaderVM::GetToken` with a length of 255, shadervm.cpp:894-912; the token is used as a string
that ends at a zero. -/
def getToken (s : Stream) : Str × Stream :=
  if s.ws.get.1 = ':' then ([':'], s.ws.get.2)
  else
    ((tokLoop 254 s.ws.get.1 s.ws.get.2).1.takeWhile (· ≠ '\x00'),
      (tokLoop 254 s.ws.get.1 s.ws.get.2).2)

/-! ## Strings -/

/-- The escapes of one letter, shadervm.cpp:1367-1410. -/
def escape (c : Char) : Option Char :=
  if c = 'a' then some '\x07'
  else if c = 'v' then some '\x0b'
  else if c = '\'' then some '\''
  else if c = '?' then some '?'
  else if c = 'n' then some '\n'
  else if c = 'r' then some '\r'
  else if c = 't' then some '\t'
  else if c = 'b' then some '\x08'
  else if c = 'f' then some '\x0c'
  else if c = '"' then some '"'
  else if c = '\\' then some '\\'
  else none

/-- Get and unget, shadervm.cpp:1454-1471. -/
def Stream.peek (s : Stream) : Stream := if s.get.2.fail then s.get.2 else s

/-- The digits accepted after the beginning of a numeric escape, shadervm.cpp:1456. -/
def digit (hex : Bool) (c : Char) : Bool :=
  ('0' ≤ c && c ≤ '9') || (hex && (('a' ≤ c && c ≤ 'f') || ('A' ≤ c && c ≤ 'F')))

/-- The loop of `GetNumericEscapeChar`, shadervm.cpp:1454-1460, 1471: at most `n` more digits. -/
def digits (hex : Bool) : Nat → Stream → Str × Stream
  | 0, s => ([], s.peek)
  | n + 1, s =>
    if digit hex s.get.1 then (s.get.1 :: (digits hex n s.get.2).1, (digits hex n s.get.2).2)
    else ([], s.peek)

/-- The value of a digit for `strtoul` (shadervm.cpp:1468). -/
def digitVal (c : Char) : Nat :=
  if 'a' ≤ c then c.toNat - 87 else if 'A' ≤ c then c.toNat - 55 else c.toNat - 48

/-- `strtoul` (shadervm.cpp:1468): digits up to the first which is none in the base. -/
def strtoul (base : Nat) (ds : Str) : Nat :=
  (ds.takeWhile (fun c => digitVal c < base)).foldl (fun r c => r * base + digitVal c) 0

/-- What is added to the string for a number, shadervm.cpp:1468-1470. -/
def numChar (n : Nat) : Str := if n % 256 = 0 then [] else [Char.ofNat (n % 256)]

/-- `CqShaderVM::GetNumericEscapeChar`, shadervm.cpp:1439-1472. -/
def numEsc (c : Char) (s : Stream) : Str × Stream :=
  if c = 'x' then (numChar (strtoul 16 (digits true 2 s).1), (digits true 2 s).2)
  else (numChar (strtoul 8 (c :: (digits false 2 s).1)), (digits false 2 s).2)

/-- The loop of `CqShaderVM::GetString`, shadervm.cpp:1360-1435; it does not end at the end of the
file, so there is a bound on the number of its steps. -/
def strLoop : Nat → Bool → Stream → Option (Str × Stream)
  | 0, _, _ => none
  | n + 1, esc, s =>
    if s.get.1 = '"' ∧ esc = false then some ([], s.get.2)
    else if esc then
      match escape s.get.1 with
      | some d => (strLoop n false s.get.2).map fun r => (d :: r.1, r.2)
      | none =>
        if s.get.1 = 'x' ∨ ('0' ≤ s.get.1 ∧ s.get.1 ≤ '9') then
          (strLoop n false (numEsc s.get.1 s.get.2).2).map
            fun r => ((numEsc s.get.1 s.get.2).1 ++ r.1, r.2)
        else strLoop n false s.get.2
    else if s.get.1 = '\\' then strLoop n true s.get.2
    else (strLoop n false s.get.2).map fun r => (s.get.1 :: r.1, r.2)

/-- `CqShaderVM::GetString`, shadervm.cpp:1352-1437. -/
def getString (n : Nat) (s : Stream) : Option (Str × Stream) := strLoop n false s.ws.get.2

/-! ## Loading -/

/-- An element of a program (`UsProgramElement`, shadervm.h:97-106).  `lab o k` is the label with the
address of the element `k` of the program of the shader `o`. -/
inductive Elem (F : Type) where
  | cmd (c : Str)
  | num (f : F)
  | int (i : Int)
  | str (s : Str)
  | var (i : Nat)
  | lab (o k : Nat)
  deriving DecidableEq

/-- A variable that was created, shadervm.cpp:1056-1080. -/
structure Var where
  storage : Storage
  cls : Class
  ty : Str
  name : Str
  len : Option Nat
  deriving DecidableEq

/-- The segments, shadervm.cpp:921-926. -/
inductive Seg where
  | data | init | code
  deriving DecidableEq, Repr

/-- The shader while it is loaded: the segment, whether the type is known, the index of the type,
`m_Uses`, `m_LocalVars`, the indices where the next search for a variable begins (`m_LocalIndex` of
the shader and of the environment), the programs and the labels (shadervm.cpp:927-935, shadervm.h:230-242). -/
structure St (F : Type) where
  seg : Seg
  spec : Bool
  type : Nat
  uses : Int
  vars : List Var
  li : Nat
  si : Nat
  init : List (Elem F)
  code : List (Elem F)
  labels : List Nat
  deriving DecidableEq

/-- How loading ends: with a shader, with an exception, with undefined behaviour or a failed
assertion, or not within the number of steps (`LoadProgram`, shadervm.cpp:919-1350). -/
inductive Out (α : Type) where
  | ok (a : α)
  | err
  | ub
  | loop
  deriving DecidableEq

/-- What loading depends on: the library, the table of instructions (shadervm.cpp:95-475), the
names of the standard variables (`gVariableTokens`), where the search for the type begins (the static
`tmp`, shadervm.cpp:946), and the identity of the shader. -/
structure Env (F : Type) where
  L : Lib F
  table : List Row
  std : List Str
  tmp : Nat
  me : Nat

/-- `gShaderTypeNames`, shadervm.cpp:78-86. -/
def shaderTypes : List Str :=
  ["surface".toList, "lightsource".toList, "volume".toList, "displacement".toList,
    "transformation".toList, "imager".toList]

/-- The types of which variables are created (`CreateVariable`, shadervm.cpp:596-719).  The others of
the names of types (include/aqsis/riutil/primvartype.h:94-110) are `noVarTypes`. -/
def varTypes : List Str :=
  ["float".toList, "integer".toList, "point".toList, "string".toList, "color".toList,
    "normal".toList, "vector".toList, "matrix".toList, "bool".toList]

/-- The types which lead to a failed assertion, shadervm.cpp:596-719. -/
def noVarTypes : List Str :=
  ["triple".toList, "hpoint".toList, "void".toList, "sixteentuple".toList]

/-- A search that begins at `i`, goes to the end and then from the beginning to `i`:
shadervm.cpp:945-978, shadervm.h:307-320, shaderexecenv.cpp:332-348. -/
def cached (n : Nat) (p : Nat → Bool) (i : Nat) : Option Nat :=
  (List.range' i (n - i) ++ List.range i).find? p

/-- What a search for a name in a list compares, e.g. shadervm.h:312-317. -/
def Lib.same {F : Type} (L : Lib F) (a b : Str) : Bool := L.hash a == L.hash b

/-- Is the name at an index of a list that name (shadervm.h:313)? -/
def Lib.isAt {F : Type} (L : Lib F) (l : List Str) (x : Str) (j : Nat) : Bool :=
  match l[j]? with
  | some y => L.same y x
  | none => false

/-- The loop over the words of a declaration, shadervm.cpp:1035-1054: type, storage, class and name. -/
def declLoop {F : Type} (L : Lib F) : Nat → Str → Storage → Option Class → Stream →
    Option (Str × Storage × Option Class × Str × Stream)
  | 0, _, _, _, _ => none
  | n + 1, t, st, c, s =>
    if L.same t "output".toList then
      declLoop L n (getToken s).1 .output c (getToken s).2
    else if L.same t "param".toList then
      declLoop L n (getToken s).1 (if st = .output then .output else .parameter) c (getToken s).2
    else if L.same t "varying".toList then
      declLoop L n (getToken s).1 st (some .varying) (getToken s).2
    else if L.same t "uniform".toList then
      declLoop L n (getToken s).1 st (some .uniform) (getToken s).2
    else if t ∈ varTypes ∨ t ∈ noVarTypes then
      some (t, st, c, getToken s)
    else declLoop L n (getToken s).1 st c (getToken s).2

/-- The name and the length in the last word of a declaration, shadervm.cpp:1056-1070.  The last
character of an empty word is before its beginning. -/
def splitName {F : Type} (L : Lib F) (t : Str) : Out (Str × Option Nat) :=
  match t.getLast? with
  | none => .ub
  | some c =>
    if c = ']' then
      if '[' ∈ t then
        .ok (t.takeWhile (· ≠ '['), some (L.atoi ((t.dropLast.dropWhile (· ≠ '[')).drop 1)))
      else .err
    else .ok (t, none)

/-- A declaration, shadervm.cpp:1032-1080, 1316; `CreateVariableArray` (726-789) makes no arrays of integers
and bools and none without elements. -/
def declare {F : Type} (L : Lib F) (n : Nat) (t : Str) (s : Stream) (st : St F) :
    Out (Stream × St F) :=
  match declLoop L n t .temporary none s with
  | none => .loop
  | some (ty, sto, c, x, s') =>
    match splitName L x with
    | .ub => .ub
    | .err => .err
    | .loop => .loop
    | .ok (y, len) =>
      match c with
      | none => .ok (s', st)
      | some c =>
        if ty ∈ noVarTypes then .ub
        else if len = some 0 ∨
            (len ≠ none ∧ (ty = "integer".toList ∨ ty = "bool".toList)) then .ub
        else .ok (s'.ws, { st with vars := st.vars ++ [⟨sto, c, ty, y, len⟩] })

/-- The program of a segment, shadervm.cpp:1014, 1020. -/
def St.area {F : Type} (st : St F) : List (Elem F) :=
  match st.seg with
  | .init => st.init
  | _ => st.code

/-- `AddCommand` and the like, shadervm.h:340-387. -/
def St.add {F : Type} (st : St F) (e : Elem F) : St F :=
  match st.seg with
  | .init => { st with init := st.init ++ [e] }
  | _ => { st with code := st.code ++ [e] }

/-- `resize`, if there are too few elements, and an assignment, shadervm.cpp:1090-1092. -/
def setAt (l : List Nat) (n k : Nat) : List Nat :=
  (l ++ List.replicate (n + 1 - l.length) 0).set n k

/-- A label is set to the end of the program, shadervm.cpp:1090-1092. -/
def mark {F : Type} (st : St F) (n : Nat) : St F :=
  { st with labels := setAt st.labels n st.area.length }

/-- A label, shadervm.cpp:1085-1095. -/
def label {F : Type} (L : Lib F) (s : Stream) (st : St F) : Stream × St F :=
  ((s.read L.readF (L.ofNat 0)).2,
    St.add (mark st (L.toNat (s.read L.readF (L.ofNat 0)).1)) (.cmd "SO_nop".toList))

/-- A variable, shadervm.cpp:1262-1270. -/
def addVar {F : Type} (E : Env F) (x : Str) (st : St F) : St F :=
  match cached st.vars.length (E.L.isAt (st.vars.map (·.name)) x) st.li with
  | some i => St.add { st with li := i } (.var i)
  | none =>
    match cached E.std.length (E.L.isAt E.std x) st.si with
    | some i => St.add { st with si := i } (.var (i ||| 0x8000))
    | none => st.add (.var 0)

/-- The parameters of an instruction, shadervm.cpp:1257-1303; `none`: does not end. -/
def params {F : Type} (E : Env F) (n : Nat) : List Param → Stream → St F → Option (Stream × St F)
  | [], s, st => some (s, st)
  | .var :: ps, s, st => params E n ps (getToken s).2 (addVar E (getToken s).1 st)
  | .float :: ps, s, st =>
    params E n ps (s.read E.L.readF (E.L.ofNat 0)).2
      (st.add (.num (s.read E.L.readF (E.L.ofNat 0)).1))
  | .int :: ps, s, st =>
    params E n ps (s.read E.L.readI 0).2 (st.add (.int (s.read E.L.readI 0).1))
  | .string :: ps, s, st =>
    match getString n s with
    | none => none
    | some (t, s') => params E n ps s' (st.add (.str (t.takeWhile (· ≠ '\x00'))))

/-- An instruction or a label, shadervm.cpp:1082-1316. -/
def instruction {F : Type} (E : Env F) (n : Nat) (t : Str) (s : Stream) (st : St F) :
    Out (Stream × St F) :=
  if t = [':'] then .ok ((label E.L s st).1.ws, (label E.L s st).2)
  else if E.L.same t "external".toList then .err
  else
    match E.table.find? (fun r => E.L.same r.name t) with
    | none => .err
    | some r =>
      match params E n r.params s (st.add (.cmd r.cmd)) with
      | none => .loop
      | some (s', st') => .ok (s'.ws, st')

/-- The instructions with a label, shadervm.cpp:1324-1328. -/
def jumps : List Str :=
  ["SO_jnz".toList, "SO_jmp".toList, "SO_jz".toList, "SO_RS_JZ".toList, "SO_S_JZ".toList]

/-- The number of parameters by which the second pass goes on, shadervm.cpp:1338-1347. -/
def skip (table : List Row) (c : Str) : Nat :=
  match table.find? (fun r => r.cmd = c) with
  | some r => r.params.length
  | none => 0

/-- The second pass, which puts the labels in, shadervm.cpp:1318-1349; the first argument is the number
of parameters still to be passed over.  An element after the end is undefined behaviour, and so is
another element in place of a command. -/
def fix {F : Type} (E : Env F) (labels : List Nat) : Nat → List (Elem F) → Out (List (Elem F))
  | _, [] => .ok []
  | k + 1, e :: r =>
    match fix E labels k r with
    | .ok l => .ok (e :: l)
    | o => o
  | 0, .cmd c :: r =>
    if c ∈ jumps then
      match r with
      | .num f :: r' =>
        match labels[E.L.toNat f]? with
        | none => .ub
        | some o =>
          match fix E labels 0 r' with
          | .ok l => .ok (.cmd c :: .lab E.me o :: l)
          | o => o
      | _ => .ub
    else
      match fix E labels (skip E.table c) r with
      | .ok l => .ok (.cmd c :: l)
      | o => o
  | 0, _ :: _ => .ub

/-- The end of `LoadProgram`, shadervm.cpp:1318-1350. -/
def finish {F : Type} (E : Env F) (st : St F) : Out (St F) :=
  match fix E st.labels 0 st.code with
  | .ok l => .ok { st with code := l }
  | .err => .err
  | .ub => .ub
  | .loop => .loop

/-- The beginning of a segment, shadervm.cpp:1006-1022. -/
def segment {F : Type} (L : Lib F) (t : Str) (st : St F) : St F :=
  if L.same t "Data".toList then { st with seg := .data }
  else if L.same t "Init".toList then { st with seg := .init, labels := [] }
  else if L.same t "Code".toList then { st with seg := .code, labels := [] }
  else st

/-- One pass of the loop of `LoadProgram` after its token was read, shadervm.cpp:940-1316; `n` is the
bound on the steps of inner loops. -/
def pass {F : Type} (E : Env F) (n : Nat) (t : Str) (s : Stream) (st : St F) :
    Out (Stream × St F) :=
  match if st.spec then none
    else cached shaderTypes.length (E.L.isAt shaderTypes t) E.tmp with
  | some i => .ok (s, { st with spec := true, type := i })
  | none =>
    if t = "AQSIS_V".toList then
      if (getToken s).1 = version then .ok ((getToken s).2, st) else .err
    else if E.L.same t "USES".toList then
      .ok ((s.read E.L.readI 0).2, { st with uses := (s.read E.L.readI 0).1 })
    else if E.L.same t "segment".toList then
      .ok ((getToken s).2.ws, segment E.L (getToken s).1 st)
    else
      match st.seg with
      | .data => declare E.L n t s st
      | _ => instruction E n t s st

/-- The loop of `LoadProgram`, shadervm.cpp:936-1317. -/
def loadLoop {F : Type} (E : Env F) : Nat → Stream → St F → Out (St F)
  | 0, _, _ => .loop
  | n + 1, s, st =>
    if s.eof then finish E st
    else
      match pass E n (getToken s).1 (getToken s).2 st with
      | .ok (s', st') => loadLoop E n s' st'
      | .err => .err
      | .ub => .ub
      | .loop => .loop

/-- A new shader (shadervm.cpp:495-518); `m_Uses` is `0xFFFFFFFF` as an `int`. -/
def St.start {F : Type} : St F := ⟨.data, false, 0, -1, [], 0, 0, [], [], []⟩

/-- `CqShaderVM::LoadProgram`, shadervm.cpp:919-1350, with at most `n` steps. -/
def load {F : Type} (E : Env F) (n : Nat) (text : Str) : Out (St F) :=
  loadLoop E n ⟨text, false, false⟩ .start

/-- `CqShaderVM::GetVar`, shadervm.h:289-295: a variable of the shader or (`true`) a standard one. -/
def getVar (i : Nat) : Bool × Nat :=
  if i &&& 0x8000 ≠ 0 then (true, i &&& 0x7FFF) else (false, i)

/-- A shader that can be run: its identity, its programs (shadervm.h:241-242). -/
structure Program (F : Type) where
  me : Nat
  init : List (Elem F)
  code : List (Elem F)

/-- The copy of a shader, `operator=` and the copy constructor, shadervm.cpp:529-561, 1508-1529. -/
def clone {F : Type} (b : Nat) (p : Program F) : Program F := ⟨b, p.init, p.code⟩

end Verif.Shader.Slx
