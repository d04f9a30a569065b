/-!
# Model of the binary RIB formatter

`/repo/libs/riutil/ribwriter.cpp`, class `BinaryFormatter` (204-343).  Output is the list of bytes
written.  C strings are byte lists without NUL; a float is its 32-bit pattern.
-/
namespace Verif.Rib

/-- ribwriter.cpp:215-222 `unpack`: MSB first. -/
def unpack (i : Nat) : Nat × Nat × Nat × Nat :=
  (i / 2 ^ 24 % 256, i / 2 ^ 16 % 256, i / 2 ^ 8 % 256, i % 256)

/-- ribwriter.cpp:226-232 `highestByteNonzero`. -/
def highestByteNonzero (c : Nat × Nat × Nat × Nat) : Nat :=
  if c.1 ≠ 0 then 3 else if c.2.1 ≠ 0 then 2 else if c.2.2.1 ≠ 0 then 1 else 0

/-- ribwriter.cpp:237-244 `encodeInt32`. -/
def encodeInt32 (i base : Nat) : List Nat :=
  let c := unpack i
  let high := highestByteNonzero c
  (base + high) :: [c.1, c.2.1, c.2.2.1, c.2.2.2].drop (3 - high)

/-- Conversion `RtInt → TqUint32`. -/
def toU32 (i : Int) : Nat := (i % 2 ^ 32).toNat

/-- ribwriter.cpp:285-288 `print(RtInt)`. -/
def binInt (i : Int) : List Nat := encodeInt32 (toU32 i) 128

/-- The four raw bytes of a float, ribwriter.cpp:292-294 and 326-328. -/
def rawFloat (bits : Nat) : List Nat :=
  let c := unpack bits
  [c.1, c.2.1, c.2.2.1, c.2.2.2]

/-- ribwriter.cpp:289-295 `print(RtFloat)`. -/
def binFloat (bits : Nat) : List Nat := 164 :: rawFloat bits

/-- ribwriter.cpp:296-310 `print(RtConstString)`; `TqUint32 len = strlen(s)` is reduced modulo
2^32 (the hypothesis of the theorems keeps lengths below 2^31). -/
def binStr (s : List Nat) : List Nat :=
  let len := s.length % 2 ^ 32
  if len < 16 then (144 + len) :: s.take len else encodeInt32 len 160 ++ s.take len

/-- A request argument as handed to the formatter. ribwriter.cpp:285-335. -/
inductive WArg where
  | int (i : Int)
  | float (bits : Nat)
  | str (s : List Nat)
  | ints (a : List Int)
  | floats (a : List Nat)
  | strs (a : List (List Nat))
deriving DecidableEq, Repr

/-- ribwriter.cpp:312-335: the `print` overloads for arguments.  `printTriple` (337-340) is three
`float`s, `printParam` (342-347) is a `str` followed by an array. -/
def binArg : WArg → List Nat
  | .int i => binInt i
  | .float b => binFloat b
  | .str s => binStr s
  | .ints a => 91 :: (a.flatMap binInt ++ [93])
  | .floats a => encodeInt32 (a.length % 2 ^ 32) 200 ++ a.flatMap rawFloat
  | .strs a => 91 :: (a.flatMap binStr ++ [93])

/-- Formatter state: `m_encodedRequests` and `m_currRequestCode` (ribwriter.cpp:208-210). -/
structure BinW where
  codes : List (List Nat × Nat)
  next : Nat

/-- ribwriter.cpp:247-248. -/
def BinW.init : BinW := ⟨[], 0⟩

/-- ribwriter.cpp:254-272 `beginRequest`.  `none`: the assertion that the code counter did not
wrap fails. -/
def BinW.beginRequest (w : BinW) (name : List Nat) : Option (List Nat × BinW) :=
  match w.codes.lookup name with
  | some code => some ([166, code], w)
  | none =>
    let code := w.next
    if (code + 1) % 256 = 0 then none
    else some (204 :: code :: (binStr name ++ [166, code]), ⟨(name, code) :: w.codes, (code + 1) % 256⟩)

/-- What is sent to the formatter: a request with its arguments, or a comment
(`ArchiveRecord("comment", ...)`; ribwriter.cpp:275-283). -/
inductive WOp where
  | request (name : List Nat) (args : List WArg)
  | comment (text : List Nat)
deriving DecidableEq, Repr

/-- ribwriter.cpp:254-335. -/
def BinW.op (w : BinW) : WOp → Option (List Nat × BinW)
  | .request name args =>
    match w.beginRequest name with
    | none => none
    | some (b, w') => some (b ++ args.flatMap binArg, w')
  | .comment t => some (35 :: (t ++ [10]), w)

/-- The whole output of a sequence of formatter calls. ribwriter.cpp:254-335. -/
def BinW.ops (w : BinW) : List WOp → Option (List Nat × BinW)
  | [] => some ([], w)
  | o :: os =>
    match w.op o with
    | none => none
    | some (b, w') =>
      match w'.ops os with
      | none => none
      | some (b', w'') => some (b ++ b', w'')

end Verif.Rib
