/-!
# Bit vectors

`/repo/include/aqsis/util/bitvector.h`, `/repo/libs/util/bitvector.cpp`, class `CqBitVector`.

The bytes of a newly allocated array are unspecified; they are an argument `junk` of the operations
that allocate.  An outcome `none` is an assertion failure or an access outside the array.
-/
namespace Verif.Util.Bits

/-- `typedef unsigned char bit`, bitvector.h:36. -/
abbrev Byte := BitVec 8

/-- Members (bitvector.h:260-262); `m_cNumInts` is the length of the array. -/
structure BV where
  bits : List Byte
  len : Nat
deriving DecidableEq, Repr

/-- bitvector.h:254-257. -/
def numberOfInts (size : Nat) : Nat := (size + 8 - 1) / 8

/-- bitvector.h:84-94. -/
def setSize (junk : Nat → Byte) (v : BV) (size : Nat) : BV :=
  if v.bits.length ≠ numberOfInts size then
    { bits := (List.range (numberOfInts size)).map junk, len := size }
  else { v with len := size }

/-- The constructor (bitvector.h:56-60). -/
def new (junk : Nat → Byte) (size : Nat) : BV :=
  if 0 < size then setSize junk ⟨[], 0⟩ size else ⟨[], 0⟩

/-- The mask of bitvector.h:100-102. -/
def lastMask (len : Nat) : Byte :=
  (255#8) >>> (8 - (if len % 8 ≠ 0 then len % 8 else 8))

/-- bitvector.h:98-103. With no bytes it accesses index -1. -/
def canonize (v : BV) : Option BV :=
  if v.bits = [] then none
  else some { v with bits := v.bits.modify (v.bits.length - 1) (· &&& lastMask v.len) }

/-- bitvector.h:108-115. -/
def setValue (v : BV) (elem : Nat) (value : Bool) : Option BV :=
  if elem < v.len then
    some { v with bits := v.bits.modify (elem / 8) fun b =>
      if value then b ||| (1#8 <<< (elem % 8)) else b &&& ~~~ (1#8 <<< (elem % 8)) }
  else none

/-- bitvector.h:119-123. -/
def value (v : BV) (elem : Nat) : Option Bool :=
  if elem < v.len then
    (v.bits[elem / 8]?).map fun b => decide (b &&& (1#8 <<< (elem % 8)) ≠ 0#8)
  else none

/-- bitvector.h:127-131. -/
def toggle (v : BV) (elem : Nat) : Option BV :=
  if elem < v.len then
    some { v with bits := v.bits.modify (elem / 8) (· ^^^ (1#8 <<< (elem % 8))) }
  else none

/-- bitvector.h:135-143. -/
def setAll (v : BV) (val : Bool) : Option BV :=
  canonize { v with bits := v.bits.map fun _ => if val then 255#8 else 0#8 }

/-- bitvector.h:146-153. -/
def complement (v : BV) : Option BV :=
  canonize { v with bits := v.bits.map (~~~ ·) }

/-- The loops `for(i = 0; i < numints; i++) m_aBits[i] = m_aBits[i] op from.m_aBits[i]`.
bitvector.cpp:41-98. -/
def combine (op : Byte → Byte → Byte) (n : Nat) (a b : List Byte) : List Byte :=
  List.zipWith op (a.take n) b ++ a.drop n

/-- bitvector.cpp:39-52. -/
def intersect (junk : Nat → Byte) (v w : BV) : Option BV :=
  let size := if w.len < v.len then w.len else v.len
  let v := setSize junk v size
  canonize { v with bits := combine (· &&& ·) (numberOfInts size) v.bits w.bits }

/-- bitvector.cpp:61-75. -/
def union (junk : Nat → Byte) (v w : BV) : Option BV :=
  let size := if w.len > v.len then w.len else v.len
  let ssize := if w.len < v.len then w.len else v.len
  let v := setSize junk v size
  canonize { v with bits := combine (· ||| ·) (numberOfInts ssize) v.bits w.bits }

/-- bitvector.cpp:84-98. -/
def difference (junk : Nat → Byte) (v w : BV) : Option BV :=
  let size := if w.len > v.len then w.len else v.len
  let ssize := if w.len < v.len then w.len else v.len
  let v := setSize junk v size
  canonize { v with bits := combine (· ^^^ ·) (numberOfInts ssize) v.bits w.bits }

/-- The copy constructor and assignment (bitvector.h:166-174). -/
def assign (junk : Nat → Byte) (v w : BV) : BV :=
  let v := setSize junk v w.len
  { v with bits := combine (fun _ b => b) v.bits.length v.bits w.bits }

/-- The table of bitvector.cpp:110-127. -/
def bitcount : List Nat := [
  0, 1, 1, 2, 1, 2, 2, 3, 1,
  2, 2, 3, 2, 3, 3, 4, 1, 2, 2, 3, 2, 3, 3, 4, 2, 3, 3, 4, 3,
  4, 4, 5, 1, 2, 2, 3, 2, 3, 3, 4, 2, 3, 3, 4, 3, 4, 4, 5, 2,
  3, 3, 4, 3, 4, 4, 5, 3, 4, 4, 5, 4, 5, 5, 6, 1, 2, 2, 3, 2,
  3, 3, 4, 2, 3, 3, 4, 3, 4, 4, 5, 2, 3, 3, 4, 3, 4, 4, 5, 3,
  4, 4, 5, 4, 5, 5, 6, 2, 3, 3, 4, 3, 4, 4, 5, 3, 4, 4, 5, 4,
  5, 5, 6, 3, 4, 4, 5, 4, 5, 5, 6, 4, 5, 5, 6, 5, 6, 6, 7, 1,
  2, 2, 3, 2, 3, 3, 4, 2, 3, 3, 4, 3, 4, 4, 5, 2, 3, 3, 4, 3,
  4, 4, 5, 3, 4, 4, 5, 4, 5, 5, 6, 2, 3, 3, 4, 3, 4, 4, 5, 3,
  4, 4, 5, 4, 5, 5, 6, 3, 4, 4, 5, 4, 5, 5, 6, 4, 5, 5, 6, 5,
  6, 6, 7, 2, 3, 3, 4, 3, 4, 4, 5, 3, 4, 4, 5, 4, 5, 5, 6, 3,
  4, 4, 5, 4, 5, 5, 6, 4, 5, 5, 6, 5, 6, 6, 7, 3, 4, 4, 5, 4,
  5, 5, 6, 4, 5, 5, 6, 5, 6, 6, 7, 4, 5, 5, 6, 5, 6, 6, 7, 5,
  6, 6, 7, 6, 7, 7, 8]

/-- bitvector.cpp:105-131. -/
def count (v : BV) : Nat := v.bits.foldl (fun c b => c + bitcount.getD b.toNat 0) 0

end Verif.Util.Bits
