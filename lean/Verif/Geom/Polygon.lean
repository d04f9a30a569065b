import Verif.Geom.Bilinear
import Verif.Geom.GenPoly

/-!
# Polygons and polygon meshes

Model of `CqPolygonBase`, `CqSurfacePolygon`, `CqSurfacePointsPolygon` and `CqSurfacePointsPolygons`
(libs/core/geometry/polygon.cpp, libs/core/geometry/polygon.h): the split of a polygon into bilinear patches and triangles,
its normal, and the split of a mesh into its faces. Exact arithmetic in an ordered field; values are those of one component
of one primitive variable.
-/

namespace Verif.Geom.Polygon

open Verif.Geom.Bilinear (Quad phantomQuad)
open Verif.Geom.GenPoly (V3)

/-- The corners of a piece, as numbers of vertices of the polygon. It is a triangle if the last two are the same
(libs/core/geometry/polygon.cpp:212-213). -/
structure Piece where
  a : Nat
  b : Nat
  c : Nat
  d : Nat
  deriving DecidableEq

/-- The flag for a phantom vertex, libs/core/geometry/polygon.cpp:212-213. -/
def Piece.isTri (p : Piece) : Bool := p.c == p.d

/-- libs/core/geometry/polygon.cpp:121-125 and 315: the loop over the pieces of a polygon with `n` vertices. The first
argument bounds the number of steps; `n` are enough. -/
def splitLoop (n : Nat) : Nat → Nat → Nat → List Piece
  | 0, _, _ => []
  | f + 1, i, b =>
    if i < n then
      ⟨0, b, i, if n > i + 1 then i + 1 else i⟩ :: splitLoop n f (i + 2) (if n > i + 1 then i + 1 else i)
    else []

/-- libs/core/geometry/polygon.cpp:82-83, 86, 119-121: the pieces of a polygon. -/
def splitPoly (n : Nat) : List Piece := splitLoop n n 2 1

/-- A face of a mesh, libs/core/geometry/polygon.h:541-544. A single polygon is the face with the numbers of its vertices
as indices and zero for the others (libs/core/geometry/polygon.h:119-124, 238-245). -/
structure Face where
  index : Nat
  fvIndex : Nat
  indices : List Int
  deriving DecidableEq

/-- libs/core/geometry/polygon.h:492-495, `PolyIndex`. -/
def Face.polyIndex (f : Face) (i : Nat) : Int := if i < f.indices.length then f.indices.getD i 0 else f.indices.getLastD 0

/-- libs/core/geometry/polygon.h:496-499, `FaceVaryingIndex`. -/
def Face.fvOf (f : Face) (i : Nat) : Nat := f.fvIndex + i

section

variable {K : Type} [Field K] [LinearOrder K]

/-- libs/core/geometry/polygon.cpp:179-185 and 199-205: the four values of a piece; `val` is the value of a vertex of the
polygon. -/
def pieceQuad (val : Nat → K) (p : Piece) : Quad K :=
  if p.isTri then phantomQuad (val p.a) (val p.b) (val p.d) else ⟨val p.a, val p.b, val p.d, val p.c⟩

/-- libs/core/geometry/polygon.cpp:177-186: a varying or vertex variable. -/
def varyingQuad (f : Face) (vals : Int → K) (p : Piece) : Quad K := pieceQuad (fun i => vals (f.polyIndex i)) p

/-- libs/core/geometry/polygon.cpp:197-206: a face varying variable. -/
def faceVaryingQuad (f : Face) (vals : Nat → K) (p : Piece) : Quad K := pieceQuad (fun i => vals (f.fvOf i)) p

/-- libs/core/geometry/polygon.cpp:187-191: a uniform variable. -/
def uniformValue (f : Face) (vals : Nat → K) : K := vals f.index

/-- libs/core/geometry/polygon.cpp:268-304: the values of `u` and `v`. -/
def uQuad : Quad K := ⟨0, 1, 0, 1⟩

/-- libs/core/geometry/polygon.cpp:296-304. -/
def vQuad : Quad K := ⟨0, 0, 1, 1⟩

/-- libs/core/geometry/polygon.cpp:235-263: `s` (and `t`) are the first (and second) coordinates of the transformed
corners; `T` stands for one row of the matrix. -/
def stQuad (T : V3 K → K) (x y z : Quad K) : Quad K :=
  ⟨T ⟨x.a, y.a, z.a⟩, T ⟨x.b, y.b, z.b⟩, T ⟨x.c, y.c, z.c⟩, T ⟨x.d, y.d, z.d⟩⟩

/-- One component of the bound, libs/core/geometry/polygon.cpp:36-60; `big` is `FLT_MAX`. -/
def polyBound (big : K) (vals : List K) : K × K :=
  vals.foldl (fun r v => (if v < r.1 then v else r.1, if r.2 < v then v else r.2)) (big, -big)

/-! ## The normal -/

/-- The square of the length, include/aqsis/math/vector3d.h:345-348. -/
def mag2 (v : V3 K) : K := v.x * v.x + v.y * v.y + v.z * v.z

/-- The difference of points. -/
def sub (a b : V3 K) : V3 K := ⟨a.x - b.x, a.y - b.y, a.z - b.z⟩

/-- The cross product, `operator%`. -/
def vcross (a b : V3 K) : V3 K := ⟨a.y * b.z - a.z * b.y, a.z * b.x - a.x * b.z, a.x * b.y - a.y * b.x⟩

/-- libs/core/geometry/polygon.cpp:96-103: the first vector, with the vertices that follow; if no vertex is far enough, it is
the last one. Lengths are compared by their squares. -/
def firstVec (eps : K) (a : V3 K) : V3 K → List (V3 K) → V3 K × List (V3 K)
  | v, [] => (v, [])
  | _, p :: ps => if eps * eps < mag2 (sub p a) then (sub p a, ps) else firstVec eps a (sub p a) ps

/-- libs/core/geometry/polygon.cpp:104-110: the second vector. -/
def secondVec (eps : K) (a v0 : V3 K) : V3 K → List (V3 K) → V3 K
  | v, [] => v
  | _, p :: ps => if eps * eps < mag2 (sub p a) ∧ sub p a ≠ v0 then sub p a else secondVec eps a v0 (sub p a) ps

/-- libs/core/geometry/polygon.cpp:89-112: the normal before it is scaled to length one (113; a zero vector stays what it
is, include/aqsis/math/vector3d.h:355-365). `o` is the attribute `Orientation`, `cso` the handedness. -/
def facetNormal (eps : K) (o cso : Bool) : List (V3 K) → V3 K
  | [] => ⟨0, 0, 0⟩
  | a :: ps =>
    let f := firstVec eps a ⟨0, 0, 0⟩ ps
    let n := vcross f.1 (secondVec eps a f.1 ⟨0, 0, 0⟩ f.2)
    if (o && cso) || (!o && !cso) then n else ⟨-n.x, -n.y, -n.z⟩

/-- libs/core/geometry/polygon.cpp:426-441, `CheckDegenerate`. -/
def checkDegenerate (eps : K) : List (V3 K) → Bool
  | p :: q :: ps => if eps * eps < mag2 (sub q p) then false else checkDegenerate eps (q :: ps)
  | _ => true

end

/-! ## Meshes -/

/-- libs/core/geometry/polygon.cpp:542-558: take the indices of one face, from the place `iP` on. The results are the
indices, if all are valid, and the new place. An index is valid if it is not negative (the cast makes a great number of it)
and less than the number of points. -/
def takeFace (size : Nat) (idx : List Int) : Nat → Nat → List Int → Option (List Int) × Nat
  | 0, iP, acc => (some acc.reverse, iP)
  | n + 1, iP, acc =>
    if 0 ≤ idx.getD iP 0 ∧ idx.getD iP 0 < size then takeFace size idx n (iP + 1) (idx.getD iP 0 :: acc) else (none, iP)

/-- libs/core/geometry/polygon.cpp:530-566, `CqSurfacePointsPolygons::Split`. -/
def meshLoop (size : Nat) (idx : List Int) : Nat → Nat → List Nat → List Face
  | _, _, [] => []
  | poly, iP, c :: cs =>
    match takeFace size idx c iP [] with
    | (some l, iP') => ⟨poly, iP, l⟩ :: meshLoop size idx (poly + 1) iP' cs
    | (none, iP') => meshLoop size idx (poly + 1) iP' cs

/-- libs/core/geometry/polygon.cpp:530-566. -/
def splitMesh (size : Nat) (counts : List Nat) (idx : List Int) : List Face := meshLoop size idx 0 0 counts

end Verif.Geom.Polygon
