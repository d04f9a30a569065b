import Verif.Filter.Frames
import Verif.Rib.AsciiWriter
/-!
# Primitive variable declarations and the token dictionary

`/repo/libs/riutil/primvartoken.cpp`, `/repo/include/aqsis/riutil/primvartoken.h`,
`/repo/libs/riutil/tokendictionary.cpp`.

Strings are lists of bytes without the terminating NUL (which none contains).
-/
namespace Verif.Riutil

/-- The bytes of a literal. Literals of primvartoken.cpp:94-125. -/
def kw (l : List Char) : List Nat := l.map Char.toNat

/-- `Ri::TypeSpec::IClass` (include/aqsis/riutil/ricxx.h:117-126). -/
inductive IClass where
  | constant | uniform | varying | vertex | facevarying | facevertex | noClass
deriving DecidableEq, Repr

/-- `Ri::TypeSpec::Type` (ricxx.h:127-142). -/
inductive PType where
  | float | point | color | integer | string | vector | normal | hpoint | matrix | mpoint | pointer
  | unknown
deriving DecidableEq, Repr

/-- `Ri::TypeSpec` (ricxx.h:144-151). -/
structure Spec where
  iclass : IClass := .uniform
  type : PType := .unknown
  arraySize : Int := 1
deriving DecidableEq, Repr

/-- The characters of `" \t\n"`. primvartoken.cpp:59-70. -/
def isBlank (c : Nat) : Bool := c == 32 || c == 9 || c == 10

/-- Not one of `" []\t\n"`. primvartoken.cpp:59-70. -/
def inWord (c : Nat) : Bool := !(isBlank c || c == 91 || c == 93)

/-- primvartoken.cpp:59-70 `nextToken`: the token `[begin,end)` and the text from `end` on. -/
def nextToken (l : List Nat) : Option (List Nat × List Nat) :=
  match l.dropWhile isBlank with
  | [] => none
  | c :: r =>
    if c = 91 ∨ c = 93 then some ([c], r)
    else some ((c :: r).takeWhile inWord, (c :: r).dropWhile inWord)

/-- primvartoken.cpp:74-78. -/
def lower (c : Nat) : Nat := if 65 ≤ c ∧ c < 91 then c + 32 else c

/-- primvartoken.cpp:82-91 `lowerCaseEqual`. -/
def lowerEq (w : List Nat) (k : List Char) : Bool := w.map lower == kw k

/-- primvartoken.cpp:94-105 `parseIClass`. -/
def parseIClass (w : List Nat) : Option IClass :=
  if lowerEq w ['c','o','n','s','t','a','n','t'] then some .constant
  else if lowerEq w ['u','n','i','f','o','r','m'] then some .uniform
  else if lowerEq w ['v','a','r','y','i','n','g'] then some .varying
  else if lowerEq w ['v','e','r','t','e','x'] then some .vertex
  else if lowerEq w ['f','a','c','e','v','a','r','y','i','n','g'] then some .facevarying
  else if lowerEq w ['f','a','c','e','v','e','r','t','e','x'] then some .facevertex
  else none

/-- primvartoken.cpp:108-125 `parseType`. -/
def parseType (w : List Nat) : Option PType :=
  if lowerEq w ['f','l','o','a','t'] then some .float
  else if lowerEq w ['p','o','i','n','t'] then some .point
  else if lowerEq w ['c','o','l','o','r'] then some .color
  else if lowerEq w ['i','n','t','e','g','e','r'] then some .integer
  else if lowerEq w ['i','n','t'] then some .integer
  else if lowerEq w ['s','t','r','i','n','g'] then some .string
  else if lowerEq w ['v','e','c','t','o','r'] then some .vector
  else if lowerEq w ['n','o','r','m','a','l'] then some .normal
  else if lowerEq w ['h','p','o','i','n','t'] then some .hpoint
  else if lowerEq w ['p','o','i','n','t','e','r'] then some .pointer
  else if lowerEq w ['m','a','t','r','i','x'] then some .matrix
  else if lowerEq w ['m','p','o','i','n','t'] then some .mpoint
  else none

/-- The end of the text where a token was sought (macro `NEXT_OR_END`, primvartoken.cpp:165-173).
`want`: `nameEnd` is not null.  `pc`, `pt`, `pa`: class, type, array size parsed. -/
def declEnd (want pc pt pa : Bool) (s : Spec) : Option (Spec × Option (List Nat)) :=
  if want then none
  else if !pt && (pc || pa) then none
  else some (s, none)

/-- The name (primvartoken.cpp:199-212), the current token being `t` and the text after it `r`. -/
def declName (pc pt pa : Bool) (s : Spec) (t r : List Nat) : Option (Spec × Option (List Nat)) :=
  if t.head? = some 93 then none
  else if !pt && (pc || pa) then none
  else if (nextToken r).isSome then none
  else some (s, some t)

/-- The array size (primvartoken.cpp:185-198).  `strtol` starts at the token and may run on past it;
the size is accepted when it stops exactly at the end of the token. -/
def declArray (want pc pt : Bool) (s : Spec) (t r : List Nat) : Option (Spec × Option (List Nat)) :=
  if t.head? = some 91 then
    match nextToken r with
    | none => none
    | some (n, r1) =>
      match Verif.Filter.Frames.strtol (n ++ r1) with
      | none => none
      | some (v, rest) =>
        if rest.length = r1.length then
          match nextToken r1 with
          | none => none
          | some (b, r2) =>
            if b.head? = some 93 then
              match nextToken r2 with
              | none => declEnd want pc pt true { s with arraySize := v }
              | some (t', r') => declName pc pt true { s with arraySize := v } t' r'
            else none
        else none
  else declName pc pt false s t r

/-- The type (primvartoken.cpp:181-183). -/
def declType (want pc : Bool) (s : Spec) (t r : List Nat) : Option (Spec × Option (List Nat)) :=
  match parseType t with
  | some ty =>
    match nextToken r with
    | none => declEnd want pc true false { s with type := ty }
    | some (t', r') => declArray want pc true { s with type := ty } t' r'
  | none => declArray want pc false s t r

/-- primvartoken.cpp:138-215 `parseDeclaration`: `none` when it reports an error.  The second
component of the result is the name found, if any. -/
def parseDecl (want : Bool) (l : List Nat) : Option (Spec × Option (List Nat)) :=
  match nextToken l with
  | none => declEnd want false false false {}
  | some (t, r) =>
    match parseIClass t with
    | some c =>
      match nextToken r with
      | none => declEnd want true false false { iclass := c }
      | some (t', r') => declType want true { iclass := c } t' r'
    | none => declType want false {} t r

/-! ## Printing -/

/-- `typeSpecToEqTypes` (primvartoken.cpp:263-295) followed by the names of `EqVariableClass`
(include/aqsis/riutil/primvartype.h:61-69). -/
def className : IClass → List Nat
  | .constant => kw ['c','o','n','s','t','a','n','t']
  | .uniform => kw ['u','n','i','f','o','r','m']
  | .varying => kw ['v','a','r','y','i','n','g']
  | .vertex => kw ['v','e','r','t','e','x']
  | .facevarying => kw ['f','a','c','e','v','a','r','y','i','n','g']
  | .facevertex => kw ['f','a','c','e','v','e','r','t','e','x']
  | .noClass => kw ['i','n','v','a','l','i','d']

/-- `typeSpecToEqTypes` followed by the names of `EqVariableType` (primvartype.h:95-110). -/
def typeName : PType → List Nat
  | .float => kw ['f','l','o','a','t']
  | .point => kw ['p','o','i','n','t']
  | .color => kw ['c','o','l','o','r']
  | .integer => kw ['i','n','t','e','g','e','r']
  | .string => kw ['s','t','r','i','n','g']
  | .vector => kw ['v','e','c','t','o','r']
  | .normal => kw ['n','o','r','m','a','l']
  | .hpoint => kw ['h','p','o','i','n','t']
  | .matrix => kw ['m','a','t','r','i','x']
  | .mpoint | .pointer | .unknown => kw ['i','n','v','a','l','i','d']

/-- `tokenString` (primvartoken.cpp:327-332) and `operator<<` (primvartoken.h:347-354). -/
def tokenString (s : Spec) (name : List Nat) : List Nat :=
  className s.iclass ++ 32 :: (typeName s.type ++
    ((if s.arraySize = 1 then [] else 91 :: (Verif.Rib.asciiInt s.arraySize ++ [93])) ++ 32 :: name))

/-! ## The dictionary -/

/-- `std::map<std::string, TypeSpec>`: at most one value per name. tokendictionary.cpp:49-98. -/
abbrev Dict := List Nat → Option Spec

/-- `m_dict[name] = spec`. tokendictionary.cpp:49-64. -/
def Dict.set (d : Dict) (n : List Nat) (s : Spec) : Dict := fun m => if m = n then some s else d m

/-- `TokenDict::declare(name, type)` (tokendictionary.cpp:49-64): `none` when it throws. -/
def declare (d : Dict) (name type : List Nat) : Option Dict :=
  match parseDecl false type with
  | none => none
  | some (_, some _) => none
  | some (s, none) => if s.type = .unknown then none else some (d.set name s)

/-- `TokenDict::lookup` (tokendictionary.cpp:71-98): the type and the name. -/
def lookup (d : Dict) (token : List Nat) : Option (Spec × List Nat) :=
  match parseDecl true token with
  | none => none
  | some (_, none) => none
  | some (s, some n) =>
    if s.type ≠ .unknown then some (s, n)
    else match d n with
      | none => none
      | some s' => some (s', n)

/-- A stream of declarations; one that throws leaves the dictionary as it was.
tokendictionary.cpp:49-64. -/
def declareAll (d : Dict) : List (List Nat × List Nat) → Dict
  | [] => d
  | (n, t) :: h => declareAll ((declare d n t).getD d) h

end Verif.Riutil
