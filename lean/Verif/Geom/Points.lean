import Mathlib.Algebra.Order.Field.Rat
import Mathlib.Data.List.Perm.Basic
import Mathlib.Logic.Equiv.Defs
/-!
# Points

Model of the points primitive: `CqPoints`, `CqPointsKDTreeData`, `CqKDTree`, `CqMicroPolyGridPoints` and the
micropolygons of points (libs/core/geometry/points.cpp, points.h, kdtree.h).

Simplifications: floats are rational numbers; lengths are given by their squares, as they are square roots;
`std::nth_element` is any function with the contract of the standard; the attributes, the primitive variables other
than positions and widths, and depth of field are left out.
-/
namespace Verif.Geom.Points

/-! ## The tree -/

/-- A piece of a points primitive (libs/core/geometry/points.h:264-270, kdtree.h:95-97): the number of points,
the indices of the points, the dimension in which the next split is made and the largest width. -/
structure Piece where
  n : Nat
  leaves : List Nat
  dim : Nat
  maxWidth : ℚ
deriving DecidableEq, Repr

/-- The whole primitive, after `InitialiseKDTree` (libs/core/geometry/points.cpp:89-94, 426-431; kdtree.h:69);
`w` is the result of `InitialiseMaxWidth`. -/
def whole (npoints : Nat) (w : ℚ) : Piece := ⟨npoints, List.range npoints, 0, w⟩

/-- `PartitionElements` (libs/core/geometry/points.cpp:64-77). `nth dim m l` is `l` after `std::nth_element` with the
position `m` and the order of the coordinates `dim`. -/
def partitionElements (nth : Nat → Nat → List Nat → List Nat) (dim : Nat) (leaves : List Nat) :
    List Nat × List Nat :=
  let m := leaves.length / 2
  let l := nth dim m leaves
  (l.take m, l.drop m)

/-- `CqPoints::Split` with `CqKDTree::Subdivide` (libs/core/geometry/points.cpp:366-392, kdtree.h:75-82). -/
def split (nth : Nat → Nat → List Nat → List Nat) (p : Piece) : Piece × Piece :=
  let median := p.n / 2
  let l := partitionElements nth p.dim p.leaves
  (⟨median, l.1, (p.dim + 1) % 3, p.maxWidth⟩, ⟨p.n - median, l.2, (p.dim + 1) % 3, p.maxWidth⟩)

/-- `CqPoints::CopySplit` (libs/core/geometry/points.cpp:399-418): the pieces of a later time of a deforming primitive
are those of the first time; the largest width is that of the constructor (line 93). -/
def copySplit (from1 from2 : Piece) : Piece × Piece :=
  (⟨from1.n, from1.leaves, from1.dim, 0⟩, ⟨from2.n, from2.leaves, from2.dim, 0⟩)

/-- `CqPoints::Diceable` (libs/core/geometry/points.cpp:329-341); `gridsize` as an unsigned number. -/
def diceable (gridsize : Nat) (p : Piece) : Bool := !decide (p.n > gridsize)

/-- Splitting until every piece is diceable, as the buckets do (libs/core/bucketprocessor.cpp:1012-1058). `none`: not
finished after `fuel` levels. -/
def pieces (nth : Nat → Nat → List Nat → List Nat) (gridsize : Nat) : Nat → Piece → Option (List Piece)
  | 0, p => if diceable gridsize p then some [p] else none
  | fuel + 1, p =>
    if diceable gridsize p then some [p]
    else
      let s := split nth p
      (pieces nth gridsize fuel s.1).bind fun a => (pieces nth gridsize fuel s.2).map fun b => a ++ b

/-- `pointsNaturalDice` (libs/core/geometry/points.cpp:264-284) for one element `j` of an array variable: the values of
the `diceSize` points. `none`: read outside of the values or of the indices. -/
def naturalDice {α : Type} (src : List α) (arraySize j : Nat) (leaves : List Nat) (diceSize : Nat) :
    Option (List α) :=
  (List.range diceSize).mapM fun i => (leaves[i]?).bind fun k => src[arraySize * k + j]?

/-- The width of the points of a grid (libs/core/geometry/points.cpp:609-616): `"constantwidth"`, `"width"`. -/
def widthOf (constantwidth : Option ℚ) (width : Option (Nat → ℚ)) (p : Piece) (iu : Nat) : Option ℚ :=
  match width with
  | some w => (p.leaves[iu]?).map w
  | none => match constantwidth with
    | some c => some c
    | none => some 1

/-! ## Widths and bounds -/

/-- A vector. `CqVector3D`, include/aqsis/math/vector3d.h. -/
structure V3 where
  x : ℚ
  y : ℚ
  z : ℚ
deriving DecidableEq, Repr

/-- The linear part of a matrix: the images of the three axes. As used at libs/core/geometry/points.cpp:439, 594. -/
structure M3 where
  a : V3
  b : V3
  c : V3
deriving DecidableEq, Repr

/-- `matrix * vector` for a direction. As used at libs/core/geometry/points.cpp:627-631. -/
def M3.app (m : M3) (v : V3) : V3 :=
  ⟨m.a.x * v.x + m.b.x * v.y + m.c.x * v.z, m.a.y * v.x + m.b.y * v.y + m.c.y * v.z,
   m.a.z * v.x + m.b.z * v.y + m.c.z * v.z⟩

/-- The square of `Magnitude()`. As used at libs/core/geometry/points.cpp:459, 622, 632. -/
def len2 (v : V3) : ℚ := v.x ^ 2 + v.y ^ 2 + v.z ^ 2

/-- The square of the width of a point in camera space (libs/core/geometry/points.cpp:620-632): `m` is the matrix from
object to camera, `nm` the one for normals, `w` the width. -/
def camWidth2 (m nm : M3) (w : ℚ) : ℚ :=
  let horiz := nm.app ⟨1, 0, 0⟩
  w ^ 2 * len2 (m.app horiz) / len2 horiz

/-- The square of the contribution of one width to `m_MaxWidth` (libs/core/geometry/points.cpp:442, 456-459). -/
def boundWidth2 (m : M3) (w : ℚ) : ℚ := len2 (m.app ⟨w, 0, 0⟩)

/-- A bound. `CqBound`, libs/core/bound.h. -/
structure Bound where
  lo : V3
  hi : V3
deriving DecidableEq, Repr

/-- `Encapsulate` of a point (libs/core/bound.cpp:134-143). -/
def Bound.add (b : Bound) (v : V3) : Bound :=
  ⟨⟨min b.lo.x v.x, min b.lo.y v.y, min b.lo.z v.z⟩, ⟨max b.hi.x v.x, max b.hi.y v.y, max b.hi.z v.z⟩⟩

/-- `Encapsulate` of a bound (libs/core/bound.cpp:117-126). -/
def Bound.union (b c : Bound) : Bound :=
  ⟨⟨min b.lo.x c.lo.x, min b.lo.y c.lo.y, min b.lo.z c.lo.z⟩,
   ⟨max b.hi.x c.hi.x, max b.hi.y c.hi.y, max b.hi.z c.hi.z⟩⟩

/-- `CqPoints::Bound` without moving transforms (libs/core/geometry/points.cpp:348-357), starting with the bound `b`
that is passed in. `none`: read outside of the indices. -/
def bound (P : Nat → V3) (p : Piece) (b : Bound) : Option Bound :=
  ((List.range p.n).mapM fun i => p.leaves[i]?).map fun is =>
    let b := is.foldl (fun b i => b.add (P i)) b
    ⟨⟨b.lo.x - p.maxWidth, b.lo.y - p.maxWidth, b.lo.z - p.maxWidth⟩,
     ⟨b.hi.x + p.maxWidth, b.hi.y + p.maxWidth, b.hi.z + p.maxWidth⟩⟩

/-- An empty bound; `big` stands for `FLT_MAX`. libs/core/bound.h; libs/core/geometry/surface.h:634-635. -/
def emptyBound (big : ℚ) : Bound := ⟨⟨big, big, big⟩, ⟨-big, -big, -big⟩⟩

/-- `CqDeformingSurface::Bound` (libs/core/geometry/surface.h:632-643): the bounds of the times one after another, the
same variable `B` being passed to all. -/
def deformingBound (big : ℚ) : List ((Nat → V3) × Piece) → Option Bound :=
  let rec go (B acc : Bound) : List ((Nat → V3) × Piece) → Option Bound
    | [] => some acc
    | (P, p) :: rest => (bound P p B).bind fun B' => go B' (acc.union B') rest
  go (emptyBound big) (emptyBound big)

/-! ## Micropolygons -/

/-- The bound of a point at rest (libs/core/geometry/points.h:350-359) or of a key (points.h:406-415). -/
def pointBound (pos : V3) (r : ℚ) : Bound :=
  ⟨⟨pos.x - r, pos.y - r, pos.z⟩, ⟨pos.x + r, pos.y + r, pos.z⟩⟩

/-- `CqMicroPolygonPoints::Sample` without depth of field (libs/core/geometry/points.cpp:653-664): the depth. -/
def sample (pos : V3) (r x y : ℚ) : Option ℚ :=
  if (pos.x - x) ^ 2 + (pos.y - y) ^ 2 < r * r then some pos.z else none

/-- A key of a moving point: `m_Times`, `m_Keys` (libs/core/geometry/points.h:499-500, 423-424). -/
structure Key where
  time : ℚ
  pos : V3
  r : ℚ
deriving DecidableEq, Repr

/-- The bounds of one segment, `d` from 1 to 4 (libs/core/geometry/points.cpp:851-870), as list of bound and time. -/
def segment (start stop : Bound) (t0 t1 : ℚ) : Nat → Bound → ℚ → ℚ → List (Bound × ℚ)
  | 0, _, _, _ => []
  | k + 1, mid0, time, delta =>
    let l (a b : ℚ) := delta * (b - a) + a
    let mid1 : Bound := ⟨⟨l start.lo.x stop.lo.x, l start.lo.y stop.lo.y, l start.lo.z stop.lo.z⟩,
      ⟨l start.hi.x stop.hi.x, l start.hi.y stop.hi.y, l start.hi.z stop.hi.z⟩⟩
    (mid0.union mid1, time) ::
      segment start stop t0 t1 k mid1 (delta * (t1 - t0) + t0) (delta + delta)

/-- `BuildBoundList` of moving points (libs/core/geometry/points.cpp:839-875): each segment sets the entries 0 to 3
again. -/
def buildBoundList : List Key → List (Bound × ℚ)
  | [] => []
  | k :: ks => go k ks []
where
  /-- The loop over the keys (libs/core/geometry/points.cpp:848-873). -/
  go : Key → List Key → List (Bound × ℚ) → List (Bound × ℚ)
  | _, [], acc => acc
  | k, k' :: ks, _ =>
    let s := pointBound k.pos k.r
    let e := pointBound k'.pos k'.r
    go k' ks (segment s e k.time k'.time 4 s k.time (1/4))

/-- The loop at libs/core/geometry/points.cpp:901-902 with the rest of the keys: the pair of keys around the time. The
times of the keys increase, so that line 895 agrees with this loop. -/
def findSpan (time : ℚ) : Key → List Key → Key × Option Key
  | k, [] => (k, none)
  | k, k' :: ks => if time ≥ k'.time then findSpan time k' ks else (k, some k')

/-- Position and radius at a time (libs/core/geometry/points.cpp:889-922). `none`: no key. -/
def atTime (keys : List Key) (time : ℚ) : Option (V3 × ℚ) :=
  match keys with
  | [] => none
  | k :: ks =>
    if time > k.time then
      match findSpan time k ks with
      | (a, none) => some (a.pos, a.r)
      | (a, some b) =>
        if a.time = time then some (a.pos, a.r)
        else
          let f := (time - a.time) / (b.time - a.time)
          some (⟨(b.pos.x - a.pos.x) * f + a.pos.x, (b.pos.y - a.pos.y) * f + a.pos.y,
            (b.pos.z - a.pos.z) * f + a.pos.z⟩, (b.r - a.r) * f + a.r)
    else some (k.pos, k.r)

/-- `CqMicroPolygonMotionPoints::Sample` without depth of field (libs/core/geometry/points.cpp:887-936). -/
def sampleMoving (keys : List Key) (time x y : ℚ) : Option ℚ :=
  (atTime keys time).bind fun p => sample p.1 p.2 x y

/-- The position of a point of a moving object in camera space at a key time: the point is brought to camera space with
the matrix of the first time of its transform (libs/core/api/ri.cpp:2186-2189), back with the matrix of time 0
(libs/core/geometry/points.cpp:485, 530) and to camera space with that of the key time (lines 522, 553). The camera is at
rest. -/
def movedPoint {V : Type} (M : ℚ → V ≃ V) (firstTime t : ℚ) (p : V) : V :=
  M t ((M 0).symm (M firstTime p))

end Verif.Geom.Points
