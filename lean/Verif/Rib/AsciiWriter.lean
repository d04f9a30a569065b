import Verif.Rib.BinaryWriter
/-!
# Model of the ASCII RIB formatter

`/repo/libs/riutil/ribwriter.cpp`, class `AsciiFormatter` (66-185).  Output is the list of bytes.
The text of a float (`ostream <<` with precision 9) is not modelled: it is a parameter.
-/
namespace Verif.Rib

/-- `ostream << int` for a nonnegative value: decimal digits without leading zeros.
ribwriter.cpp:123. -/
def decDigits (n : Nat) : List Nat :=
  if n < 10 then [48 + n] else decDigits (n / 10) ++ [48 + n % 10]
termination_by n

/-- ribwriter.cpp:123 `print(RtInt)`. -/
def asciiInt (i : Int) : List Nat :=
  if i < 0 then 45 :: decDigits i.natAbs else decDigits i.natAbs

/-- `std::oct << int(c)` for a byte. ribwriter.cpp:149-150. -/
def octDigits (c : Nat) : List Nat :=
  if c < 8 then [48 + c] else if c < 64 then [48 + c / 8, 48 + c % 8]
  else [48 + c / 64, 48 + c / 8 % 8, 48 + c % 8]

/-- ribwriter.cpp:133-153: one character of a string. -/
def escChar (c : Nat) : List Nat :=
  if c = 34 then [92, 34]
  else if c = 10 then [92, 110]
  else if c = 13 then [92, 114]
  else if c = 9 then [92, 116]
  else if c = 8 then [92, 98]
  else if c = 12 then [92, 102]
  else if c = 92 then [92, 92]
  else if 32 ≤ c ∧ c ≤ 176 then [c]
  else 92 :: octDigits c

/-- ribwriter.cpp:126-157 `print(RtConstString)`. -/
def asciiStr (s : List Nat) : List Nat := 34 :: (s.flatMap escChar ++ [34])

/-- Elements separated by one space (ribwriter.cpp:163-168). -/
def sepBy : List (List Nat) → List Nat
  | [] => []
  | [x] => x
  | x :: y :: r => x ++ 32 :: sepBy (y :: r)

/-- ribwriter.cpp:159-170: arrays. -/
def asciiArray (xs : List (List Nat)) : List Nat := 91 :: (sepBy xs ++ [93])

/-- The `print` overloads; `ftext` gives the text of a float. ribwriter.cpp:123-170. -/
def asciiArg (ftext : Nat → List Nat) : WArg → List Nat
  | .int i => asciiInt i
  | .float b => ftext b
  | .str s => asciiStr s
  | .ints a => asciiArray (a.map asciiInt)
  | .floats a => asciiArray (a.map ftext)
  | .strs a => asciiArray (a.map asciiStr)

/-- ribwriter.cpp:103-121 `beginRequest`/`endRequest`, each argument preceded by a space
(`whitespace()`, as in the generated request printers), and comments; `indent` is the indent
string. -/
def asciiOp (ftext : Nat → List Nat) (indent : List Nat) : WOp → List Nat
  | .request name args => indent ++ name ++ args.flatMap (fun a => 32 :: asciiArg ftext a) ++ [10]
  | .comment t => indent ++ 35 :: (t ++ [10])

/-- A sequence of formatter calls, each with the indent string in force at the time.
ribwriter.cpp:103-170. -/
def asciiOps (ftext : Nat → List Nat) (ops : List (List Nat × WOp)) : List Nat :=
  ops.flatMap fun p => asciiOp ftext p.1 p.2

end Verif.Rib
