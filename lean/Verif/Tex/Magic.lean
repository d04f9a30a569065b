/-!
# File type detection

Model of libs/tex/io/magicnumber.cpp:57-121.  A file is its list of bytes (0 to
255).  Simplification: the stream is read without translation of line ends (the
file is opened in text mode, magicnumber.cpp:73, which matters only on Windows).
-/

namespace Verif.Tex.Magic

/-- include/aqsis/tex/io/imagefiletype.h:47-57. -/
inductive FileType where
  | tiff | exr | jpg | png | aqsisBake | aqsisZfile | unknown
  deriving DecidableEq, Repr

/-- libs/tex/io/magicnumber.cpp:57-66: at most 50 bytes. -/
def getMagicNumber (file : List Nat) : List Nat := file.take 50

/-- `std::equal(m.begin(), m.begin()+n, pattern)`; `none` when it reads past the
end of the vector or of the pattern (with its final zero). magicnumber.cpp:88-112. -/
def equal (m : List Nat) (n : Nat) (pattern : List Nat) : Option Bool :=
  match n, m, pattern ++ [0] with
  | 0, _, _ => some true
  | n + 1, a :: m, b :: p => if a = b then equalGo n m p else some false
  | _ + 1, _, _ => none
where
  /-- The rest of the comparison. -/
  equalGo : Nat → List Nat → List Nat → Option Bool
    | 0, _, _ => some true
    | n + 1, a :: m, b :: p => if a = b then equalGo n m p else some false
    | _ + 1, _, _ => none

/-- Element access; `none` past the end. magicnumber.cpp:99-102. -/
def at? (m : List Nat) (i : Nat) : Option Nat := m[i]?

/-- `a && b` where `b` may be undefined. magicnumber.cpp:87-112. -/
def andThen (a : Bool) (b : Unit → Option Bool) : Option Bool := if a then b () else some false

/-- `a || b` where both may be undefined. magicnumber.cpp:88-89. -/
def orElse (a : Option Bool) (b : Unit → Option Bool) : Option Bool :=
  match a with
  | some true => some true
  | some false => b ()
  | none => none

/-- `if(c) … else …` where the condition may be undefined. magicnumber.cpp:87-120. -/
def ifThen (c : Option Bool) (t : FileType) (e : Unit → Option FileType) : Option FileType :=
  match c with
  | some true => some t
  | some false => e ()
  | none => none

/-- libs/tex/io/magicnumber.cpp:82-121.  `none`: reads out of bounds. -/
def guess (file : List Nat) : Option FileType :=
  let m := getMagicNumber file
  ifThen (andThen (m.length ≥ 4) fun _ =>
      orElse (equal m 4 [0x49, 0x49, 0x2A, 0]) fun _ => equal m 4 [0x4D, 0x4D, 0, 0x2A]) .tiff fun _ =>
  ifThen (andThen (m.length ≥ 4) fun _ => equal m 4 [0x76, 0x2F, 0x31, 1]) .exr fun _ =>
  ifThen (andThen (m.length ≥ 4) fun _ => do
      let a ← at? m 0
      if a ≠ 0x89 then return false
      let b ← at? m 1
      if b ≠ 0x50 then return false
      let c ← at? m 2
      if c ≠ 0x4E then return false
      let d ← at? m 3
      return d = 0x47) .png fun _ =>
  ifThen (andThen (m.length ≥ 16) fun _ =>
      equal m 15 ("Aqsis bake file".toList.map Char.toNat)) .aqsisBake fun _ =>
  ifThen (andThen (m.length ≥ 11) fun _ =>
      equal m 11 ("Aqsis ZFile".toList.map Char.toNat)) .aqsisZfile fun _ =>
  some .unknown

end Verif.Tex.Magic
