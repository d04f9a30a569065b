/-!
# Enumeration names

`/repo/include/aqsis/util/enum.h`, class `CqEnumInfo`, with `CqString::hash` of
`/repo/include/aqsis/util/sstring.h`.
-/
namespace Verif.Util.Enum

/-- `const char*` made from a `std::string`: ends at the first NUL. enum.h:255, 305. -/
def cstr (s : List Nat) : List Nat := s.takeWhile (· ≠ 0)

/-- A `char` is signed. sstring.h:74-81. -/
def schar (c : Nat) : Int := if c < 128 then c else (c : Int) - 256

/-- sstring.h:71-85 `CqString::hash` with `TqUlong` arithmetic modulo `2^bits`. -/
def hash (bits : Nat) (s : List Nat) : Nat :=
  match cstr s with
  | [] => 0
  | c :: r => (r.foldl (fun (h : Int) d => ((h * 32 - h + schar d) % 2 ^ bits)) (schar c % 2 ^ bits)).toNat

/-- Order of `std::pair<TqHash, EnumT>`. enum.h:258. -/
def pairLE (a b : Nat × Nat) : Bool := a.1 < b.1 || (a.1 == b.1 && a.2 ≤ b.2)

/-- The (hash, value) pairs before sorting (enum.h:253-257). -/
def pairs (h : List Nat → Nat) (names : List (List Nat)) : List (Nat × Nat) :=
  names.zipIdx.map fun p => (h p.1, p.2)

/-- enum.h:251-259 `initLookup`. `std::sort` is modelled by the library merge sort; pairs are all
different, so that any sort gives the same. -/
def initLookup (h : List Nat → Nat) (names : List (List Nat)) : List (Nat × Nat) :=
  (pairs h names).mergeSort pairLE

/-- The loop at enum.h:310-316, from `pos` on. -/
def scanLoop (names : List (List Nat)) (h : Nat) (s : List Nat) : List (Nat × Nat) → Option Nat
  | [] => none
  | p :: ps =>
    if p.1 = h then
      if names[p.2]? = some s then some p.2 else scanLoop names h s ps
    else none

/-- enum.h:303-318 `valueFromString`; `std::lower_bound` finds the first pair whose hash is not less
than the one sought. -/
def valueFromString (h : List Nat → Nat) (names : List (List Nat)) (dflt : Nat) (s : List Nat) : Nat :=
  (scanLoop names (h s) s ((initLookup h names).dropWhile fun p => p.1 < h s)).getD dflt

/-- enum.h:320-325 `stringFromValue`; `none`: the assertion fails. -/
def stringFromValue (names : List (List Nat)) (v : Nat) : Option (List Nat) := names[v]?

/-- `operator>>` of the macro (enum.h:181-187): one blank-delimited word. -/
def isSpace (c : Nat) : Bool := c == 32 || (9 ≤ c && c ≤ 13)
/-- `operator>>`, enum.h:181-187. -/
def extract (h : List Nat → Nat) (names : List (List Nat)) (dflt : Nat) (s : List Nat) : Nat :=
  valueFromString h names dflt ((s.dropWhile isSpace).takeWhile (!isSpace ·))

/-! ## The tables -/

/-- Literals of primvartype.h, wrapmode.h, channelinfo.h. -/
def kw (l : List Char) : List Nat := l.map Char.toNat

/-- include/aqsis/riutil/primvartype.h:61-69. -/
def variableClassNames : List (List Nat) :=
  [kw ['i','n','v','a','l','i','d'], kw ['c','o','n','s','t','a','n','t'],
   kw ['u','n','i','f','o','r','m'], kw ['v','a','r','y','i','n','g'], kw ['v','e','r','t','e','x'],
   kw ['f','a','c','e','v','a','r','y','i','n','g'], kw ['f','a','c','e','v','e','r','t','e','x']]

/-- include/aqsis/riutil/primvartype.h:95-110. -/
def variableTypeNames : List (List Nat) :=
  [kw ['i','n','v','a','l','i','d'], kw ['f','l','o','a','t'], kw ['i','n','t','e','g','e','r'],
   kw ['p','o','i','n','t'], kw ['s','t','r','i','n','g'], kw ['c','o','l','o','r'],
   kw ['t','r','i','p','l','e'], kw ['h','p','o','i','n','t'], kw ['n','o','r','m','a','l'],
   kw ['v','e','c','t','o','r'], kw ['v','o','i','d'], kw ['m','a','t','r','i','x'],
   kw ['s','i','x','t','e','e','n','t','u','p','l','e'], kw ['b','o','o','l']]

/-- include/aqsis/tex/filtering/wrapmode.h:54-67. -/
def wrapModeNames : List (List Nat) :=
  [kw ['b','l','a','c','k'], kw ['p','e','r','i','o','d','i','c'], kw ['c','l','a','m','p'],
   kw ['t','r','u','n','c']]

/-- include/aqsis/tex/buffers/channelinfo.h:57-68, the constants of `EqChannelType`. -/
inductive ChannelType where
  | float32 | unsigned32 | signed32 | float16 | unsigned16 | signed16 | unsigned8 | signed8
  | typeUnknown
deriving DecidableEq, Repr

/-- Values of the constants, channelinfo.h:57-68. -/
def ChannelType.value : ChannelType → Nat
  | .float32 => 0 | .unsigned32 => 1 | .signed32 => 2 | .float16 => 3 | .unsigned16 => 4
  | .signed16 => 5 | .unsigned8 => 6 | .signed8 => 7 | .typeUnknown => 8

/-- channelinfo.h:70-80. -/
def channelTypeNames : List (List Nat) :=
  [kw ['u','i','n','t','3','2'], kw ['i','n','t','3','2'], kw ['f','l','o','a','t','3','2'],
   kw ['u','i','n','t','1','6'], kw ['i','n','t','1','6'], kw ['f','l','o','a','t','1','6'],
   kw ['i','n','t','8'], kw ['u','i','n','t','8'],
   kw ['u','n','k','n','o','w','n','_','c','h','a','n','n','e','l']]

end Verif.Util.Enum
