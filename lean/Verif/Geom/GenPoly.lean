import Mathlib.Algebra.Order.Field.Basic
import Mathlib.Algebra.Order.Field.Rat

/-!
# General polygons

Model of the triangulation of polygons with any number of corners and with holes
(libs/core/api/genpoly.cpp, libs/core/api/genpoly.h) and of the way the requests `GeneralPolygon` and
`PointsGeneralPolygons` (libs/core/api/ri.cpp) put the loops together.

Numbers are exact: `TqFloat` is an ordered field. Points are given by a function from indices; a read outside of a list of
vertices is the outcome `none` where the program can make one.
-/

namespace Verif.Geom.GenPoly

/-- A point in space (`CqVector3D`, include/aqsis/math/vector3d.h). -/
structure V3 (K : Type) where
  x : K
  y : K
  z : K
  deriving DecidableEq

/-- libs/core/api/genpoly.h:130-137, `EssAxis`, without the value for unknown. -/
inductive Axis where
  | xy
  | xz
  | yz
  deriving DecidableEq

/-- libs/core/api/genpoly.h:123-129, `EssOrientation`. -/
inductive Orient where
  | unknown
  | cw
  | acw
  deriving DecidableEq

/-- libs/core/api/genpoly.h:139-143, the fields of `CqPolygonGeneral2D` without the points. -/
structure Poly where
  verts : List Nat
  orient : Orient
  axis : Axis
  reverse : Bool
  deriving DecidableEq

section

variable {K : Type} [Field K] [LinearOrder K]

/-- libs/core/api/genpoly.h:105-118: the two coordinates that remain. -/
def proj : Axis → V3 K → K × K
  | .xy, p => (p.x, p.y)
  | .xz, p => (p.x, p.z)
  | .yz, p => (p.y, p.z)

/-- libs/core/api/genpoly.h:103-120, `operator[]`. All uses but those of `calcOrientation` and `contains` are in range. -/
def Poly.pt (P : Nat → V3 K) (g : Poly) (i : Nat) : K × K := proj g.axis (P (g.verts.getD i 0))

/-- One term of the area, libs/core/api/genpoly.cpp:123-124 and 128-129. -/
def cross (a b : K × K) : K := a.1 * b.2 - b.1 * a.2

/-- libs/core/api/genpoly.cpp:121-129: twice the area of a polygon with `n` vertices. -/
def area (pos : Nat → K × K) (n : Nat) : K :=
  (List.range (n - 1)).foldl (fun s i => s + cross (pos i) (pos (i + 1))) (cross (pos (n - 1)) (pos 0))

/-- libs/core/api/genpoly.cpp:117-137, `CalcOrientation`. With no vertices the element -1 is read: `none`. -/
def calcOrientation (P : Nat → V3 K) (g : Poly) : Option Poly :=
  if g.verts = [] then none
  else some { g with orient := if 0 ≤ area (g.pt P) g.verts.length then .acw else .cw }

/-- libs/core/api/genpoly.cpp:95-110, `SwapDirection`. The loop that exchanges elements is `List.reverse`. -/
def swapDirection (P : Nat → V3 K) (g : Poly) : Option Poly :=
  (calcOrientation P { g with verts := g.verts.reverse }).map fun g' => { g' with reverse := !g'.reverse }

/-- libs/core/api/genpoly.cpp:152-155. -/
def det (a b c : K × K) : K := (b.1 - a.1) * (c.2 - a.2) - (c.1 - a.1) * (b.2 - a.2)

/-- libs/core/api/genpoly.cpp:157-174. -/
def orientOf (d : K) : Orient := if 0 < d then .acw else if d = 0 then .unknown else .cw

/-- libs/core/api/genpoly.cpp:145-175, `CalcDeterminant`. The assertions (147-149) hold in all uses. -/
def calcDet (pos : Nat → K × K) (i j k : Nat) : Orient := orientOf (det (pos i) (pos j) (pos k))

/-- libs/core/api/genpoly.cpp:183-218, `NoneInside`. The loop that ends with the first failure is `List.all`. -/
def noneInside (pos : Nat → K × K) (o : Orient) (i1 i2 i3 : Nat) (l : List Nat) : Bool :=
  l.all fun n =>
    (n == i1 || n == i2 || n == i3)
    || (calcDet pos i2 i1 n == o || calcDet pos i1 i3 n == o || calcDet pos i3 i2 n == o)
    || (pos n == pos i1 || pos n == pos i2 || pos n == pos i3)

/-- libs/core/api/genpoly.cpp:396, 399-400. -/
def prevIx (c k : Nat) : Nat := if k = 0 then c - 1 else k - 1

/-- libs/core/api/genpoly.cpp:397, 399-403. -/
def nextIx (c k : Nat) : Nat := if k = 0 then k + 1 else if k = c - 1 then 0 else k + 1

/-- libs/core/api/genpoly.cpp:405-413: can the vertex at place `k` of the list be cut off? -/
def isEar (pos : Nat → K × K) (o : Orient) (l : List Nat) (k : Nat) : Bool :=
  calcDet pos (l.getD (prevIx l.length k) 0) (l.getD k 0) (l.getD (nextIx l.length k) 0) == o
  && noneInside pos o (l.getD (prevIx l.length k) 0) (l.getD k 0) (l.getD (nextIx l.length k) 0) l

/-- libs/core/api/genpoly.cpp:386-457: the loop of `Triangulate`, `n` being the number of vertices above three. The places
are those in the vertices of the polygon. The inner loop (394-417) is `List.find?`. -/
def clip (pos : Nat → K × K) (o : Orient) : Nat → List Nat → List (Nat × Nat × Nat)
  | 0, l => if l.length = 3 then [(l.getD 0 0, l.getD 1 0, l.getD 2 0)] else []
  | n + 1, l =>
    match (List.range l.length).find? (isEar pos o l) with
    | none => []
    | some k =>
      (l.getD (prevIx l.length k) 0, l.getD k 0, l.getD (nextIx l.length k) 0) :: clip pos o n (l.eraseIdx k)

/-- libs/core/api/genpoly.cpp:423-434 and 444-455: the vertices as they are written. -/
def emit (g : Poly) (t : Nat × Nat × Nat) : Nat × Nat × Nat :=
  if g.reverse then (g.verts.getD t.2.2 0, g.verts.getD t.2.1 0, g.verts.getD t.1 0)
  else (g.verts.getD t.1 0, g.verts.getD t.2.1 0, g.verts.getD t.2.2 0)

/-- libs/core/api/genpoly.cpp:373-457, `Triangulate`. The three numbers of each triangle are one element here. -/
def triangulate (P : Nat → V3 K) (g : Poly) : List (Nat × Nat × Nat) :=
  (clip (g.pt P) g.orient (g.verts.length - 3) (List.range g.verts.length)).map (emit g)

/-- The square of the distance, libs/core/api/genpoly.cpp:291-292. Distances are compared only. -/
def dist2 (a b : K × K) : K := (a.1 - b.1) * (a.1 - b.1) + (a.2 - b.2) * (a.2 - b.2)

/-- libs/core/api/genpoly.cpp:294-337: one pair of vertices. `tie` stands for the comparison of unit vectors
(296-322). The greatest number (280) is `none`. -/
def closer (tie : Nat × Nat → Nat × Nat → Bool) (pos pos' : Nat → K × K) (s : Option (K × Nat × Nat)) (ij : Nat × Nat) :
    Option (K × Nat × Nat) :=
  match s with
  | none => some (dist2 (pos ij.1) (pos' ij.2), ij)
  | some (d, m) =>
    if dist2 (pos ij.1) (pos' ij.2) = d then (if tie ij m then some (d, ij) else some (d, m))
    else if dist2 (pos ij.1) (pos' ij.2) < d then some (dist2 (pos ij.1) (pos' ij.2), ij)
    else some (d, m)

/-- libs/core/api/genpoly.cpp:285-289: the pairs in the order of the loops. -/
def pairsOf (n m : Nat) : List (Nat × Nat) :=
  (List.range n).flatMap fun i => (List.range m).map fun j => (i, j)

/-- libs/core/api/genpoly.cpp:276-339. Without any pair the places stay zero (277-278). -/
def closest (tie : Nat × Nat → Nat × Nat → Bool) (pos pos' : Nat → K × K) (n m : Nat) : Nat × Nat :=
  match (pairsOf n m).foldl (closer tie pos pos') none with
  | none => (0, 0)
  | some (_, ij) => ij

/-- libs/core/api/genpoly.cpp:342-358: the new list of vertices. -/
def joined (A B : List Nat) (i j : Nat) : List Nat := A.drop i ++ A.take (i + 1) ++ B.drop j ++ B.take (j + 1)

/-- libs/core/api/genpoly.cpp:271-366, `Combine`. Points of the other polygon are projected along its own axis. Reads
outside of empty lists (349, 357) need empty loops, for which `calcOrientation` already has no result. -/
def combine (tie : Nat × Nat → Nat × Nat → Bool) (P : Nat → V3 K) (g h : Poly) : Poly :=
  { g with
    verts :=
      joined g.verts h.verts (closest tie (g.pt P) (h.pt P) g.verts.length h.verts.length).1
        (closest tie (g.pt P) (h.pt P) g.verts.length h.verts.length).2 }

/-- libs/core/api/genpoly.cpp:250-254: does the ray from the point to the right cross this edge? -/
def crosses (x y : K) (a b : K × K) : Bool :=
  ((decide (a.2 ≤ y) && decide (y < b.2)) || (decide (b.2 ≤ y) && decide (y < a.2)))
  && decide (x < (b.1 - a.1) * (y - a.2) / (b.2 - a.2) + a.1)

/-- libs/core/api/genpoly.cpp:246-256, for one vertex of the other polygon: the edges go to the number of vertices of the
*other* polygon. A read outside of the vertices of this one is `none`. -/
def insideBy (n : Nat) (A : List (K × K)) (p : K × K) : Option Bool :=
  (List.range n).foldl (fun s i =>
    match s, A[i]?, A[if i = 0 then n - 1 else i - 1]? with
    | some c, some a, some b => some (if crosses p.1 p.2 a b then !c else c)
    | _, _, _ => none) (some false)

/-- libs/core/api/genpoly.cpp:234-262, `Contains`. -/
def contains (A B : List (K × K)) : Option Bool :=
  B.foldl (fun s p =>
    match s with
    | some true => insideBy B.length A p
    | r => r) (some true)

/-- libs/core/api/genpoly.cpp:73-77: the absolute values of the components of the normal at a corner. -/
def absNormal (a b c : V3 K) : V3 K :=
  let d1 : V3 K := ⟨b.x - a.x, b.y - a.y, b.z - a.z⟩
  let d2 : V3 K := ⟨c.x - b.x, c.y - b.y, c.z - b.z⟩
  let n : V3 K := ⟨d1.y * d2.z - d1.z * d2.y, d1.z * d2.x - d1.x * d2.z, d1.x * d2.y - d1.y * d2.x⟩
  ⟨max n.x (-n.x), max n.y (-n.y), max n.z (-n.z)⟩

/-- libs/core/api/genpoly.cpp:79. -/
def maxComp (n : V3 K) : K := max (max n.x n.y) n.z

/-- libs/core/api/genpoly.cpp:71-81: the last normal that was calculated. -/
def searchNormal : V3 K → K → List (V3 K) → V3 K
  | n, m, a :: b :: c :: t =>
    if m < 1 / 1000000 then searchNormal (absNormal a b c) (maxComp (absNormal a b c)) (b :: c :: t) else n
  | n, _, _ => n

/-- libs/core/api/genpoly.cpp:83-88. -/
def axisOfNormal (n : V3 K) : Axis :=
  if n.y < n.x ∧ n.z < n.x then .yz else if n.x < n.y ∧ n.z < n.y then .xz else .xy

/-- libs/core/api/genpoly.cpp:64-89, `CalcAxis`. -/
def calcAxis (P : Nat → V3 K) (verts : List Nat) : Axis :=
  axisOfNormal (searchNormal ⟨1, 0, 0⟩ 0 (verts.map P))

/-- libs/core/api/ri.cpp:1919-1931: least and greatest value of a coordinate. -/
def extent (l : List K) : K :=
  l.tail.foldl (fun m v => if v < m then m else v) (l.headD 0)
    - l.tail.foldl (fun m v => if m < v then m else v) (l.headD 0)

/-- libs/core/api/ri.cpp:1907-1939: the axis in `GeneralPolygon`. -/
def boxAxis (l : List (V3 K)) : Axis :=
  let dx : K := extent (l.map (·.x))
  let dy : K := extent (l.map (·.y))
  let dz : K := extent (l.map (·.z))
  if dx < dy ∧ dx < dz then .yz else if dy < dx ∧ dy < dz then .xz else .xy

/-- libs/core/api/ri.cpp:1962-1977 and 1982-1991, 2439-2448 and 2453-2462: turn a loop to the wanted direction. -/
def orientLoop (P : Nat → V3 K) (want : Orient) (g : Poly) : Option Poly :=
  (calcOrientation P g).bind fun g' => if g'.orient ≠ want then swapDirection P g' else some g'

/-- The direction of the first loop, libs/core/api/ri.cpp:1962, 1972, 2441, 2446. -/
def outerWant (o : Bool) : Orient := if o then .acw else .cw

/-- The direction of the other loops, libs/core/api/ri.cpp:1982-1991, 2453-2462. -/
def holeWant (o : Bool) : Orient := if o then .cw else .acw

/-- libs/core/api/ri.cpp:1944-1954, 2420-2430: a loop as it is made. -/
def loopPoly (ax : List Nat → Axis) (l : List Nat) : Poly := ⟨l, .unknown, ax l, false⟩

/-- libs/core/api/ri.cpp:1980-1993, 2451-2464: the loops after the first one. -/
def addHoles (tie : Nat × Nat → Nat × Nat → Bool) (P : Nat → V3 K) (ax : List Nat → Axis) (o : Bool) :
    Poly → List (List Nat) → Option Poly
  | g, [] => some g
  | g, l :: ls => (orientLoop P (holeWant o) (loopPoly ax l)).bind fun h => addHoles tie P ax o (combine tie P g h) ls

/-- libs/core/api/ri.cpp:1942-1998, 2410-2468: the polygon that is triangulated. Without loops the orientation of an empty
polygon is calculated: `none`. -/
def generalPoly (tie : Nat × Nat → Nat × Nat → Bool) (P : Nat → V3 K) (ax : List Nat → Axis) (o : Bool) :
    List (List Nat) → Option Poly
  | [] => none
  | l :: ls =>
    (orientLoop P (outerWant o) (loopPoly ax l)).bind fun g =>
      (addHoles tie P ax o g ls).bind fun g' => calcOrientation P g'

/-- libs/core/api/ri.cpp:1907-1999, 2408-2470: the triangles of one polygon. -/
def generalTris (tie : Nat × Nat → Nat × Nat → Bool) (P : Nat → V3 K) (ax : List Nat → Axis) (o : Bool)
    (loops : List (List Nat)) : Option (List (Nat × Nat × Nat)) :=
  (generalPoly tie P ax o loops).map (triangulate P)

/-- libs/core/api/ri.cpp:1962-1977: the attribute `Orientation` after the request `GeneralPolygon`. It is written to the
current attributes. -/
def orientationAfter (P : Nat → V3 K) (ax : Axis) (o : Bool) (l : List Nat) : Option Bool :=
  (calcOrientation P ⟨l, .unknown, ax, false⟩).map fun g => if g.orient ≠ outerWant o then !o else o

/-- What `PointsGeneralPolygons` hands on: triangles, places of face varying values and numbers of triangles. -/
structure Tris where
  tris : List (Nat × Nat × Nat)
  fv : List Nat
  uv : List Nat
  deriving DecidableEq

/-- libs/core/api/ri.cpp:2479-2486: the places that are stored for one vertex. -/
def fvPlaces (verts : List Nat) (start stop v : Nat) : List Nat :=
  (List.range' start (stop - start)).filter fun iv => verts.getD iv 0 == v

/-- The three vertices of a triangle as they are in the list. -/
def flat (ts : List (Nat × Nat × Nat)) : List Nat := ts.flatMap fun t => [t.1, t.2.1, t.2.2]

/-- libs/core/api/ri.cpp:2406-2495: the loop over the polygons; `start` is `initial_index`. A failed assertion (2487) is
`none`. -/
def pgpLoop (tie : Nat × Nat → Nat × Nat → Bool) (P : Nat → V3 K) (o : Bool) (verts : List Nat) :
    Nat → Tris → List (List (List Nat)) → Option Tris
  | _, r, [] => some r
  | start, r, poly :: rest =>
    (generalTris tie P (calcAxis P) o poly).bind fun ts =>
      if (flat ts).all fun v => fvPlaces verts start (start + poly.flatten.length) v != [] then
        pgpLoop tie P o verts (start + poly.flatten.length)
          ⟨r.tris ++ ts, r.fv ++ (flat ts).flatMap (fvPlaces verts start (start + poly.flatten.length)),
            r.uv ++ [ts.length]⟩ rest
      else none

/-- libs/core/api/ri.cpp:2352-2507, `PointsGeneralPolygons` with all assertions (2426 holds by the count of points). The
polygons are given as lists of loops of indices, `verts` is all of them in a row. -/
def pointsGeneralPolygons (tie : Nat × Nat → Nat × Nat → Bool) (P : Nat → V3 K) (o : Bool)
    (polys : List (List (List Nat))) : Option Tris :=
  (pgpLoop tie P o polys.flatten.flatten 0 ⟨[], [], []⟩ polys).bind fun r =>
    if r.fv.length = 3 * r.tris.length then some r else none

/-- libs/core/api/ri.cpp:2528-2533: face varying values for the triangles. -/
def fvValues {α : Type} (fv : List Nat) (vals : List α) : List (Option α) := fv.map fun i => vals[i]?

/-- libs/core/api/ri.cpp:2544-2554: uniform values for the triangles. -/
def uniformValues {α : Type} : List Nat → List α → List α
  | n :: ns, v :: vs => List.replicate n v ++ uniformValues ns vs
  | _, _ => []

end

end Verif.Geom.GenPoly
