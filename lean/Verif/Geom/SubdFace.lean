import Verif.Geom.Subd
import Mathlib.Logic.Function.Basic
/-!
# Subdividing a facet

libs/core/geometry/subdivision2.cpp. New laths have the next numbers. A mesh has a vertex variable (or varying variable) and a face vertex variable (or face varying
variable) for one time; without the latter `m_FaceVertexIndex` is 0 and is not used. Absent values stand for loops that do not end.
-/
namespace Verif.Geom.Subd
open Verif.Geom.Lath

/-- A `CqSubdivision2` (libs/core/geometry/subdivision2.h:207-218, libs/core/geometry/lath.h:293-303): the laths; `m_pParentFacet`, `m_pChildVertex`, `m_pMidVertex` and `m_pFaceVertex`;
`m_mapSharpEdges` and `m_mapSharpCorners`, with 0 for laths that are not in the map; the values of a vertex variable, as many as `m_aapVertices` has, and `fcount` values of a face vertex variable. -/
structure State (K E : Type) where
  mesh : Mesh
  parent : Nat → Option Nat
  child : Nat → Option Nat
  mid : Nat → Option Nat
  face : Nat → Option Nat
  hard : Nat → K
  corner : Nat → K
  val : Nat → E
  fval : Nat → E
  fcount : Nat

/-- How variables are made: `isClose`, and the classes of the two variables. -/
structure Vars (E : Type) where
  close : E → E → Bool
  kv : Cls
  kf : Cls

section
variable (K : Type) {E : Type} [Field K] [LinearOrder K] [AddCommGroup E] [Module K E] (w : Vars E)

/-- The loops of `AddVertex`, `AddEdgeVertex` and `AddFaceVertex` (libs/core/geometry/subdivision2.cpp:724-790, 968-1034, 1081-1141) for a point with the values `p` and `q`: the indices
of its vertex, which is not new if there is one already (`o`), and of its face vertex. -/
def addPoint (s : State K E) (o : Option Nat) (p q : Option E) : Option (State K E × Nat × Nat) :=
  match o with
  | some i => q.map fun q => ({ s with fval := Function.update s.fval s.fcount q, fcount := s.fcount + 1 }, i, s.fcount)
  | none => p.bind fun p => q.map fun q =>
    let n := s.mesh.atVert.length
    ({ s with
      mesh := { s.mesh with atVert := s.mesh.atVert ++ [[]] }
      val := Function.update s.val n p
      fval := Function.update s.fval s.fcount q
      fcount := s.fcount + 1 }, n, s.fcount)

/-- `AddFaceVertex` (libs/core/geometry/subdivision2.cpp:1079-1142). -/
def addFaceVertex (s : State K E) (l : Nat) : Option (State K E × Nat × Nat) :=
  addPoint K s none (createFaceVertex K s.mesh w.kv s.val l) (createFaceVertex K s.mesh w.kf s.fval l)

/-- `AddEdgeVertex` and what precedes it (libs/core/geometry/subdivision2.cpp:966-1035, 1481-1487). -/
def addEdgeVertex (s : State K E) (l : Nat) : Option (State K E × Nat × Nat) :=
  addPoint K s (((s.mesh.ec l).bind s.mid).map s.mesh.vert) (createEdgeVertex K w.close s.mesh w.kv s.val s.hard l) (createEdgeVertex K w.close s.mesh w.kf s.fval s.hard l)

/-- `AddVertex` and what precedes it (libs/core/geometry/subdivision2.cpp:722-791, 1497-1504). -/
def addVertex (s : State K E) (l : Nat) : Option (State K E × Nat × Nat) :=
  addPoint K s ((s.child l).map s.mesh.vert) (createVertex K w.close s.mesh w.kv s.val s.hard s.corner l) (createVertex K w.close s.mesh w.kf s.fval s.hard s.corner l)

/-- The loops over the edges and over the vertices (libs/core/geometry/subdivision2.cpp:1479-1492, 1495-1509): the indices `aVertices` and `aFVertices`. -/
def addPoints (add : State K E → Nat → Option (State K E × Nat × Nat)) : List Nat → State K E → Option (State K E × List (Nat × Nat))
  | [], s => some (s, [])
  | x :: r, s => (add s x).bind fun (s, i, j) => (addPoints add r s).map fun (s, t) => (s, (i, j) :: t)

/-- `while( r-- > 0) pLathF = pLathF->ccf()` (libs/core/geometry/subdivision2.cpp:1431-1433, 1589-1591). -/
def turn (m : Mesh) : Nat → Nat → Option Nat
  | 0, x => some x
  | r + 1, x => (m.ccf x).bind (turn m r)

/-- The four laths with the vertices `v`, `e'`, `f` and `e`, and `m_aapVertices` (libs/core/geometry/subdivision2.cpp:1518-1529, 1538-1541). -/
def addQuad (m : Mesh) (v e e' f : Nat × Nat) : Mesh :=
  let a := m.laths
  { m with
    laths := a + 4
    cf := fun l => if l < a then m.cf l else if l = a + 3 then a else l + 1
    cv := fun l => if l < a then m.cv l else none
    vert := fun l => if l < a then m.vert l else if l = a then v.1 else if l = a + 1 then e'.1 else if l = a + 2 then f.1 else e.1
    fvert := fun l => if l < a then m.fvert l else if l = a then v.2 else if l = a + 1 then e'.2 else if l = a + 2 then f.2 else e.2
    atVert := (((m.atVert.modify v.1 (· ++ [a])).modify e'.1 (· ++ [a + 1])).modify f.1 (· ++ [a + 2])).modify e.1 (· ++ [a + 3]) }

/-- `AddSharpCorner` (libs/core/geometry/subdivision2.h:130-137). -/
def addSharpCorner (m : Mesh) (corner : Nat → K) (l : Nat) (k : K) : Option (Nat → K) :=
  (m.Qve l).map fun L x => if L.contains x then k else corner x

/-- The body of the loop that makes the laths (libs/core/geometry/subdivision2.cpp:1517-1593) for the lath `x` with the number `i`, and the next lath `y`. The loops of lines 1545-1565 are
those of `Qvf`. -/
def quad (s : State K E) (i x y : Nat) (v e e' f : Nat × Nat) : Option (State K E × Nat) :=
  let a := s.mesh.laths
  let m := addQuad s.mesh v e e' f
  let corner : Nat → K := fun l => if l < a then s.corner l else 0
  (m.Qvf x).bind fun F => (if 0 < s.corner x then addSharpCorner K m corner a (s.corner x) else some corner).bind fun corner => (turn m i a).map fun t =>
    ({ s with
      mesh := { m with facets := m.facets ++ [t] }
      parent := fun l => if l < a then s.parent l else some x
      child := fun l => if F.contains l then some a else if l < a then s.child l else none
      mid := fun l => if l = x then some (a + 3) else if l < a then s.mid l else none
      face := fun l => if l < a then s.face l else none
      hard := fun l => if l < a then s.hard l else if l = a ∧ 0 < s.hard x then s.hard x * s.hard x else if l = a + 1 ∧ 0 < s.hard y then s.hard y * s.hard y else 0
      corner := corner }, t)

/-- The loop that makes the laths (libs/core/geometry/subdivision2.cpp:1515-1594) from `i` on: `apSubFaces`. -/
def quads (L : List Nat) (v e : List (Nat × Nat)) (f : Nat × Nat) : Nat → Nat → State K E → Option (State K E × List Nat)
  | 0, _, s => some (s, [])
  | k + 1, i, s =>
    let j := (i + 1) % L.length
    (quad K s i (L.getD i 0) (L.getD j 0) (v.getD i (0, 0)) (e.getD i (0, 0)) (e.getD j (0, 0)) f).bind fun (s, t) =>
      (quads L v e f k (i + 1) s).map fun (s, r) => (s, t :: r)

/-- Links at the corner of a new facet (libs/core/geometry/subdivision2.cpp:1610-1617). -/
def linkCorner (m : Mesh) (a : Nat) : Option Mesh :=
  (m.atVert.getD (m.vert a) []).foldlM (fun m x =>
    let m := if m.vert (m.cf x) = m.vert (a + 3) then m.setCv a x else m
    (m.ccf x).map fun y => if m.vert y = m.vert (a + 1) then m.setCv x a else m) m

/-- Links at the middle of edges (libs/core/geometry/subdivision2.cpp:1624-1634). -/
def linkMid (m : Mesh) (a : Nat) : Option Mesh :=
  let m := (m.atVert.getD (m.vert (a + 1)) []).foldl (fun m x => if m.vert (m.cf x) = m.vert a then m.setCv (a + 1) x else m) m
  (m.atVert.getD (m.vert (a + 3)) []).foldlM (fun m x => (m.ccf x).map fun y => if m.vert y = m.vert a then m.setCv x (a + 3) else m) m

/-- The body of the loop at lines 1599-1618 (libs/core/geometry/subdivision2.cpp): `a` and `a'` are the laths A of a facet and of the next one. -/
def linkFacet (m : Mesh) (a a' : Nat) : Option Mesh := linkCorner ((m.setCv (a' + 3) (a + 1)).setCv (a + 2) (a' + 2)) a

/-- Subdivision of a facet for the first time (libs/core/geometry/subdivision2.cpp:1454-1636). -/
def splitFace (s : State K E) (l : Nat) : Option (State K E × List Nat) :=
  (s.mesh.Qfe l).bind fun L => (addFaceVertex K w s l).bind fun (s, f) => (addPoints K (addEdgeVertex K w) L s).bind fun (s, e) =>
    (addPoints K (addVertex K w) L s).bind fun (s, v) =>
      let n := L.length
      let b := s.mesh.laths
      (quads K L v e f n 0 s).bind fun (s, r) =>
        ((List.range n).foldlM (fun m i => linkFacet m (b + 4 * i) (b + 4 * ((i + 1) % n))) s.mesh).bind fun m =>
          ((List.range n).foldlM (fun m i => linkMid m (b + 4 * i)) m).map fun m =>
            ({ s with mesh := m, face := fun x => if L.contains x then some (b + 4 * L.idxOf x + 2) else s.face x }, r)

/-- The first loop of `subdivideNeighbourFaces` (libs/core/geometry/subdivision2.cpp:1646-1652): the state, and whether there is a boundary. -/
def aroundFwd (sub : State K E → Nat → Option (State K E)) (v : Nat) : Nat → Nat → State K E → Option (State K E × Bool)
  | 0, _, _ => none
  | fuel + 1, x, s => (if (s.face x).isNone then sub s x else some s).bind fun s =>
      match s.mesh.cv x with
      | none => some (s, true)
      | some y => if y = v then some (s, false) else aroundFwd sub v fuel y s

/-- The second loop (libs/core/geometry/subdivision2.cpp:1658-1663). -/
def aroundBwd (sub : State K E → Nat → Option (State K E)) : Nat → Option Nat → State K E → Option (State K E)
  | _, none, s => some s
  | 0, some _, _ => none
  | fuel + 1, some x, s => (if (s.face x).isNone then sub s x else some s).bind fun s => aroundBwd sub fuel (s.mesh.ccv x) s

/-- `subdivideNeighbourFaces` (libs/core/geometry/subdivision2.cpp:1640-1665). -/
def around (sub : State K E → Nat → Option (State K E)) (fuel : Nat) (s : State K E) (v : Nat) : Option (State K E) :=
  (aroundFwd K sub v fuel v s).bind fun (s, b) => if b then aroundBwd K sub fuel (s.mesh.ccv v) s else some s

/-- `CqSubdivision2::SubdivideFace` (libs/core/geometry/subdivision2.cpp:1411-1637): the state and `apSubFaces`. `fuel` bounds the steps of the loops around vertices, and the levels. -/
def subdivideFace : Nat → State K E → Nat → Option (State K E × List Nat)
  | 0, _, _ => none
  | fuel + 1, s, l =>
    match s.face l with
    | some c => (s.mesh.Qvf c).bind fun F =>
        (F.zipIdx.mapM fun (x, i) => ((s.mesh.ccf x).bind s.mesh.ccf).bind (turn s.mesh i)).map fun r => (s, r)
    | none =>
      (match s.parent l with
        | none => some s
        | some p => (s.mesh.Qfe p).bind fun L => L.foldlM (around K (fun s x => (subdivideFace fuel s x).map Prod.fst) fuel) s).bind fun s =>
          splitFace K w s l

end
end Verif.Geom.Subd
