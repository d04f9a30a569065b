import Mathlib.Algebra.Order.Field.Basic
import Mathlib.Algebra.Order.Floor.Defs
import Mathlib.Data.Nat.Bitwise

/-!
# Bilinear patches

Model of `CqSurfacePatchBilinear` (libs/core/geometry/patch.cpp:577-835): the four values of a patch are 0 at (0,0), 1 at (1,0), 2 at
(0,1) and 3 at (1,1). A triangle is a patch whose fourth vertex is a phantom. Exact arithmetic in an ordered field; a value stands for
one component of one primitive variable (of a point with a weight: after division by it).
-/

namespace Verif.Geom.Bilinear

variable {K : Type} [Field K] [LinearOrder K]

/-- The four values of one component, `pValue( 0 )` to `pValue( 3 )`. -/
structure Quad (K : Type) where
  a : K
  b : K
  c : K
  d : K
  deriving DecidableEq, Repr

/-- `Subdivide` of varying variables, libs/core/parameters.h:284-297, and of vertex variables,
libs/core/geometry/surface.cpp:310-323. -/
def Quad.split (u : Bool) (q : Quad K) : Quad K × Quad K :=
  if u then
    (⟨q.a, (q.a + q.b) * (1 / 2), q.c, (q.c + q.d) * (1 / 2)⟩, ⟨(q.a + q.b) * (1 / 2), q.b, (q.c + q.d) * (1 / 2), q.d⟩)
  else
    (⟨q.a, q.b, (q.a + q.c) * (1 / 2), (q.b + q.d) * (1 / 2)⟩, ⟨(q.a + q.c) * (1 / 2), (q.b + q.d) * (1 / 2), q.c, q.d⟩)

/-- The pieces of a patch with their flag for a phantom vertex, `CqSurfacePatchBilinear::Split`,
libs/core/geometry/patch.cpp:748-829. -/
def pieces (phantom u : Bool) (q : Quad K) : List (Quad K × Bool) :=
  let r := q.split u
  if phantom then
    let s := r.1.split (!u)
    let t := r.2.split (!u)
    [(s.1, false), (s.2, true), (t.1, true)]
  else [(r.1, false), (r.2, false)]

/-- The fourth value of a triangle, `CqPolygonBase::CreatePhantomData`, libs/core/geometry/polygon.cpp:325-403. -/
def phantomQuad (a b c : K) : Quad K := ⟨a, b, c, (b - a) + c⟩

/-! ## Bounds -/

/-- One component of `Bound`, libs/core/geometry/patch.cpp:623-650; `big` is `FLT_MAX`. Motion of the transformation is left out. -/
def Quad.bound (big : K) (phantom : Bool) (q : Quad K) : K × K :=
  (if phantom then [q.a, q.b, q.c] else [q.a, q.b, q.c, q.d]).foldl
    (fun r v => (if v < r.1 then v else r.1, if r.2 < v then v else r.2)) (big, -big)

/-! ## The line that cuts off the phantom vertex -/

/-- The cross product of two vectors in the raster. -/
def cross (ax ay bx bY : K) : K := ax * bY - ay * bx

/-- Points in the raster. -/
structure Pt (K : Type) where
  x : K
  y : K
  deriving DecidableEq, Repr

/-- The end points of the line, libs/core/micropolygon.cpp:733-748, 1035-1050. -/
def splitLine (v0 v1 v2 : Pt K) : Pt K × Pt K :=
  if (v1.x - v0.x) * (v2.y - v0.y) - (v1.y - v0.y) * (v2.x - v0.x) ≥ 0 then (v1, v2) else (v2, v1)

/-- Whether a hit at `p` is kept, libs/core/micropolygon.cpp:1630-1654, without depth of field. -/
def kept (v0 v1 v2 p : Pt K) : Bool :=
  let l := splitLine v0 v1 v2
  let v := (l.1.y - l.2.y) * p.x + (l.2.x - l.1.x) * p.y + (l.1.x * l.2.y - l.2.x * l.1.y)
  !decide (v ≤ 0)

/-! ## Dice sizes -/

/-- The square of the length of a vector, `Magnitude2`. -/
def nsq (v : Fin 3 → K) : K := v 0 * v 0 + v 1 * v 1 + v 2 * v 2

/-- A hull in raster space, libs/core/geometry/patch.cpp:682-687. -/
abbrev Hull (K : Type) := Fin 3 → Quad K

/-- `uLen` before the square root, libs/core/geometry/patch.cpp:692-694. -/
def uLen2 (h : Hull K) : K :=
  let v1 := nsq fun i => (h i).b - (h i).a
  let v2 := nsq fun i => (h i).d - (h i).c
  if v1 > v2 then v1 else v2

/-- `vLen` before the square root, libs/core/geometry/patch.cpp:696-698. -/
def vLen2 (h : Hull K) : K :=
  let v1 := nsq fun i => (h i).c - (h i).a
  let v2 := nsq fun i => (h i).d - (h i).b
  if v1 > v2 then v1 else v2

/-- `m_SplitDir` is `SplitDir_U`, libs/core/geometry/patch.cpp:700-704: the lengths are compared after division by the shading rate and
the square root, which both keep the order. -/
def splitU (h : Hull K) : Bool := decide (uLen2 h > vLen2 h)

/-- The pieces of a hull. -/
def hullPieces (phantom u : Bool) (h : Hull K) : List (Hull K × Bool) :=
  let n := if phantom then 3 else 2
  (List.range n).map fun k =>
    (fun i => (((pieces phantom u (h i))[k]?).getD ((h i), false)).1, (((pieces phantom u (h 0))[k]?).getD ((h 0), false)).2)

variable [FloorRing K]

/-- `lround`, include/aqsis/math/math.h:66-70; the conversion to the integer type is exact. -/
def lround (x : K) : ℤ := ⌊x - 1 / 2⌋ + 1

/-- The dice size for a length divided by the square root of the shading rate, libs/core/geometry/patch.cpp:706-710. -/
def diceSize (len : K) : ℤ := max (lround len) 1

/-- The last tests of `Diceable`, libs/core/geometry/patch.cpp:720-735: `none` is a patch that is discarded. `eps` is `FLT_EPSILON`,
`gs` the option for the size of grids, `rnd` is `ceilPow2` (712-718) or the identity. -/
def diceable (eps gs : K) (rnd : ℤ → ℤ) (uLen vLen : K) : Option (Bool × ℤ × ℤ) :=
  let u := rnd (diceSize uLen)
  let v := rnd (diceSize vLen)
  if (diceSize uLen : K) < eps ∨ (diceSize vLen : K) < eps then none
  else if (u : K) > gs * gs ∨ (v : K) > gs * gs ∨ ((u * v : ℤ) : K) > gs * gs then some (false, u, v)
  else some (true, u, v)

/-! ## Powers of two -/

/-- A shift of a 32 bit number to the right by C++: undefined for 32 bits or more. -/
def shr (y i : ℕ) : Option ℕ := if i < 32 then some (y >>> i) else none

/-- The same on x86, which takes the lower five bits of the number of places. -/
def shrX86 (y i : ℕ) : Option ℕ := some (y >>> (i % 32))

/-- The loop of `ceilPow2`, include/aqsis/math/math.h:145-146: `k` more steps, `i` is the number of places. It ends when the bit is
shifted out of the 32 bits of `i`, after 32 steps. -/
def fillBits (sh : ℕ → ℕ → Option ℕ) : ℕ → ℕ → ℕ → Option ℕ
  | 0, _, y => some y
  | k + 1, i, y => (sh y i).bind fun z => fillBits sh k (2 * i) (y ||| z)

/-- `ceilPow2`, include/aqsis/math/math.h:142-149. -/
def ceilPow2 (sh : ℕ → ℕ → Option ℕ) (x : ℕ) : Option ℕ :=
  (fillBits sh 32 1 ((x + (2 ^ 32 - 1)) % 2 ^ 32)).map fun y => (y + 1) % 2 ^ 32

end Verif.Geom.Bilinear
