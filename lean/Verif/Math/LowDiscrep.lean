import Mathlib.Data.Rat.Defs
import Mathlib.Algebra.Order.Ring.Rat

/-!
# Model of quasi-random points

`CqLowDiscrepancy`, `/repo/libs/math/lowdiscrep.cpp`, and the table of points for texture filters,
`/repo/libs/tex/filtering/randomtable.cpp`.

Simplifications: numbers of type float are rational; random numbers are a function of the number of
the call and the range asked for.
-/

namespace Verif.Math.LowDiscrep

/-- Outcomes: a value, or undefined behaviour. -/
inductive Res (α : Type) where
  | ok (a : α)
  | ub
  deriving DecidableEq, Repr

/-- Sequencing of outcomes. -/
def Res.bind {α β : Type} : Res α → (α → Res β) → Res β
  | .ok a, f => f a
  | .ub, _ => .ub

/-- `s_primes`, libs/math/lowdiscrep.cpp:37-74. -/
def primes : List Nat :=
  [2, 3, 5, 7, 11, 13, 17, 19, 23, 29, 31, 37, 41, 43, 47, 53, 59, 61, 67, 71, 73, 79, 83, 89,
   97, 101, 103, 107, 109, 113, 127, 131, 137, 139, 149, 151, 157, 163, 167, 173, 179, 181, 191,
   193, 197, 199, 211, 223, 227, 229, 233, 239, 241, 251, 257, 263, 269, 271, 277, 281, 283,
   293, 307, 311, 313, 317, 331, 337, 347, 349, 353, 359, 367, 373, 379, 383, 389, 397, 401,
   409, 419, 421, 431, 433, 439, 443, 449, 457, 461, 463, 467, 479, 487, 491, 499, 503, 509,
   521, 523, 541, 547, 557, 563, 569, 571, 577, 587, 593, 599, 601, 607, 613, 617, 619, 631,
   641, 643, 647, 653, 659, 661, 673, 677, 683, 691, 701, 709, 719, 727, 733, 739, 743, 751,
   757, 761, 769, 773, 787, 797, 809, 811, 821, 823, 827, 829, 839, 853, 857, 859, 863, 877,
   881, 883, 887, 907, 911, 919, 929, 937, 941, 947, 953, 967, 971, 977, 983, 991, 997, 1009,
   1013, 1019, 1021, 1031, 1033, 1039, 1049, 1051, 1061, 1063, 1069, 1087, 1091, 1093, 1097,
   1103, 1109, 1117, 1123, 1129, 1151, 1153, 1163, 1171, 1181, 1187, 1193, 1201, 1213, 1217,
   1223, 1229, 1231, 1237, 1249, 1259, 1277, 1279, 1283, 1289, 1291, 1297, 1301, 1303, 1307,
   1319, 1321, 1327, 1361, 1367, 1373, 1381, 1399, 1409, 1423, 1427, 1429, 1433, 1439, 1447,
   1451, 1453, 1459, 1471, 1481, 1483, 1487, 1489, 1493, 1499, 1511, 1523, 1531, 1543, 1549,
   1553, 1559, 1567, 1571, 1579, 1583, 1597, 1601, 1607, 1609, 1613, 1619, 1621, 1627, 1637,
   1657, 1663, 1667, 1669, 1693, 1697, 1699, 1709, 1721, 1723, 1733, 1741, 1747, 1753, 1759,
   1777, 1783, 1787, 1789, 1801, 1811, 1823, 1831, 1847, 1861, 1867, 1871, 1873, 1877, 1879,
   1889, 1901, 1907, 1913, 1931, 1933, 1949, 1951, 1973, 1979, 1987, 1993, 1997, 1999, 2003,
   2011, 2017, 2027, 2029, 2039, 2053, 2063, 2069, 2081, 2083, 2087, 2089, 2099, 2111, 2113,
   2129, 2131, 2137, 2141, 2143, 2153, 2161, 2179, 2203, 2207, 2213, 2221, 2237, 2239, 2243,
   2251, 2267, 2269, 2273, 2281, 2287, 2293, 2297, 2309]

/-- The loop of `reverseRadical`, libs/math/lowdiscrep.cpp:87-91; the first argument is a bound on its
turns. -/
def radLoop : Nat → Nat → Nat → ℚ → ℚ → ℚ
  | 0, _, _, _, value => value
  | f + 1, n, base, scale, value =>
    if n = 0 then value
    else radLoop f (n / base) base (scale * (1 / base)) (value + ((n % base : Nat) : ℚ) * scale)

/-- `reverseRadical`, libs/math/lowdiscrep.cpp:81-94, for bases from 2 on. -/
def reverseRadical (n base : Nat) : ℚ := radLoop n n base (1 / base) 0

/-- Subtraction of `unsigned`. -/
def usub (a b : Nat) : Nat := (a + 2 ^ 32 - b) % 2 ^ 32

/-- The choice of the bases, libs/math/lowdiscrep.cpp:122-128, for the dimensions from `i` on.
Reading past the table is undefined. -/
def pick (rnd : Nat → Nat → Nat) (dims : Nat) : Nat → Nat → Nat → Nat → List Nat → Res (List Nat)
  | 0, _, _, _, bases => .ok bases
  | f + 1, i, low, high, bases =>
    if ¬ i < dims then .ok bases
    else
      let j := rnd i (usub high low) + low
      match primes[j]? with
      | none => .ub
      | some p => pick rnd dims f (i + 1) (j + 1) (high + 1) (bases.set i p)

/-- `std::swap` of two elements, libs/math/lowdiscrep.cpp:134. -/
def swap (l : List Nat) (i j : Nat) : Res (List Nat) :=
  match l[i]?, l[j]? with
  | some a, some b => .ok ((l.set i b).set j a)
  | _, _ => .ub

/-- The permutation, libs/math/lowdiscrep.cpp:131-135, from `i` down; random numbers from call `k`
on. -/
def permute (rnd : Nat → Nat → Nat) : Nat → Nat → List Nat → Res (List Nat)
  | 0, _, bases => .ok bases
  | i + 1, k, bases => (swap bases (i + 1) (rnd k i)).bind (permute rnd i (k + 1))

/-- `Reset`, libs/math/lowdiscrep.cpp:115-136, for `bases` as they are before; `dims` is less than
2³². -/
def reset (rnd : Nat → Nat → Nat) (dims : Nat) (bases : List Nat) : Res (List Nat) :=
  (pick rnd dims dims 0 0 (usub bases.length dims) bases).bind fun b => permute rnd (usub dims 1) dims b

/-- The constructor, libs/math/lowdiscrep.cpp:105-110. -/
def construct (rnd : Nat → Nat → Nat) (dims : Nat) : Res (List Nat) :=
  reset rnd dims (List.replicate dims 0)

/-- `Generate`, libs/math/lowdiscrep.cpp:141-145. -/
def generate (bases : List Nat) (axis i : Nat) : Res ℚ :=
  match bases[axis]? with
  | none => .ub
  | some b => .ok (reverseRadical i b)

/-- `m_tableSize`, libs/tex/filtering/randomtable.h:78. -/
def tableSize : Nat := 1024

/-- The entries of the table for an axis, libs/tex/filtering/randomtable.cpp:54-59. -/
def entries (rnd : Nat → Nat → Nat) (axis index : Nat) : Res ℚ :=
  (construct rnd 2).bind fun bases => generate bases axis (index + 1)

/-- `x` and `y` of the table, libs/tex/filtering/randomtable.h:113-123. -/
def sample (rnd : Nat → Nat → Nat) (offset : ℚ) (axis index : Nat) : Res ℚ :=
  (entries rnd axis (index % tableSize)).bind fun e =>
    let res := e + offset
    .ok (res - if res ≥ 1 then 1 else 0)

end Verif.Math.LowDiscrep
