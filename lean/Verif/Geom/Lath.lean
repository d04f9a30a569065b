import Mathlib.Data.List.Basic
/-!
# Laths and the mesh of a subdivision surface

libs/core/geometry/lath.h, libs/core/geometry/lath.cpp, libs/core/geometry/subdivision2.cpp.

Laths are numbers, in the order in which they are made. Absent values stand for loops that do not end. The arrays of results, which the code sizes
by a first run of the same loops, are lists.
-/
namespace Verif.Geom.Lath

/-- The laths of a `CqSubdivision2` (libs/core/geometry/lath.h:293-303, libs/core/geometry/subdivision2.h:207-212): `m_pClockwiseFacet`, `m_pClockwiseVertex`,
`m_VertexIndex`, `m_FaceVertexIndex`, `m_aapVertices` and `m_apFacets`. `m_pClockwiseFacet` is always set. `src` and `fsrc` are the indices of the given values that the
values of the vertices and face vertices are copies of. -/
structure Mesh where
  laths : Nat
  cf : Nat → Nat
  cv : Nat → Option Nat
  vert : Nat → Nat
  fvert : Nat → Nat
  atVert : List (List Nat)
  facets : List Nat
  src : List Nat
  fsrc : List Nat

namespace Mesh

/-! ## Neighbours -/

/-- `CqLath::ec` (libs/core/geometry/lath.h:347-355). -/
def ec (m : Mesh) (l : Nat) : Option Nat := (m.cv l).map m.cf

/-- `CqLath::ccv` (libs/core/geometry/lath.h:365-373). -/
def ccv (m : Mesh) (l : Nat) : Option Nat := m.ec (m.cf l)

/-- The loop of `CqLath::ccfBoundary` (libs/core/geometry/lath.cpp:45-51). -/
def ccfLoop (m : Mesh) (l : Nat) : Nat → Nat → Option Nat
  | 0, _ => none
  | f + 1, x => if m.cf x = l then some x else ccfLoop m l f (m.cf x)

/-- `CqLath::ccf` and `ccfBoundary` (libs/core/geometry/lath.h:385-392, libs/core/geometry/lath.cpp:41-56). -/
def ccf (m : Mesh) (l : Nat) : Option Nat :=
  match (m.ec l).bind m.cv with
  | some x => some x
  | none => m.ccfLoop l (m.laths + 1) (m.cf l)

/-- The loop of `CqLath::Qfe` (libs/core/geometry/lath.cpp:69-90). -/
def faceLoop (m : Mesh) (l : Nat) : Nat → Nat → Option (List Nat)
  | 0, _ => none
  | f + 1, x => if x = l then some [] else (faceLoop m l f (m.cf x)).map (x :: ·)

/-- `CqLath::Qfe`, `Qfv` (libs/core/geometry/lath.cpp:67-91, libs/core/geometry/lath.h:442-445); `cQfv` is its length
(libs/core/geometry/lath.cpp:566-580). -/
def Qfe (m : Mesh) (l : Nat) : Option (List Nat) := (m.faceLoop l (m.laths + 1) (m.cf l)).map (l :: ·)

/-- The loop clockwise around a vertex (libs/core/geometry/lath.cpp:116-121, 190-194): the laths, and whether there is a boundary. -/
def fwd (m : Mesh) (l : Nat) : Nat → Option Nat → Option (List Nat × Bool)
  | _, none => some ([], true)
  | 0, some _ => none
  | f + 1, some x => if x = l then some ([], false) else (fwd m l f (m.cv x)).map fun r => (x :: r.1, r.2)

/-- The loop counter clockwise around a vertex (libs/core/geometry/lath.cpp:131-136, 202-206). -/
def bwd (m : Mesh) : Nat → Option Nat → Option (List Nat)
  | _, none => some []
  | 0, some _ => none
  | f + 1, some x => (bwd m f (m.ccv x)).map (x :: ·)

/-- `CqLath::Qvf` (libs/core/geometry/lath.cpp:176-208); `cQvf` is its length (lines 678-702). -/
def Qvf (m : Mesh) (l : Nat) : Option (List Nat) :=
  (m.fwd l (m.laths + 1) (m.cv l)).bind fun (a, boundary) =>
    if boundary then (m.bwd (m.laths + 1) (m.ccv l)).map fun b => l :: a ++ b else some (l :: a)

/-- `CqLath::Qve` (libs/core/geometry/lath.cpp:102-140); `cQve` and `cQvv` are its length (lines 591-667). -/
def Qve (m : Mesh) (l : Nat) : Option (List Nat) :=
  (m.fwd l (m.laths + 1) (m.cv l)).bind fun (a, boundary) =>
    if boundary then (m.bwd (m.laths + 1) (m.ccv l)).map fun b => l :: a ++ b ++ [m.cf (b.getLastD l)] else some (l :: a)

/-- `CqLath::Qvv` (libs/core/geometry/lath.cpp:152-165). -/
def Qvv (m : Mesh) (l : Nat) : Option (List Nat) :=
  (m.Qve l).bind fun L => L.mapM fun x => if m.vert x = m.vert l then m.ccf x else some x

/-- `CqLath::Qee` (libs/core/geometry/lath.cpp:219-248). -/
def Qee (m : Mesh) (l : Nat) : Option (List Nat) :=
  (m.Qve l).bind fun L1 => (m.ccf l).bind fun x => (m.Qve x).map fun L2 => L1 ++ L2.filter fun y => m.ec l ≠ some y ∧ l ≠ y

/-- Is the lath `y` on the facet of `x` (libs/core/geometry/lath.cpp:289-300)? -/
def onFacet (m : Mesh) (y x : Nat) : Bool := ((m.Qfe x).getD []).contains y

/-- `CqLath::Qff` (libs/core/geometry/lath.cpp:259-306). -/
def Qff (m : Mesh) (l : Nat) : Option (List Nat) :=
  (m.Qfe l).bind fun E => (E.mapM m.Qve).map fun Ls =>
    Ls.flatten.foldl (fun R y => if R.any (m.onFacet y) then R else R ++ [y]) []

/-- The loop of `CqLath::isBoundaryVertex` (libs/core/geometry/lath.h:269-276). -/
def boundaryLoop (m : Mesh) (l : Nat) : Nat → Option Nat → Option Bool
  | _, none => some true
  | 0, some _ => none
  | f + 1, some x => if x = l then some false else boundaryLoop m l f (m.ccv x)

/-- `CqLath::isBoundaryVertex` (libs/core/geometry/lath.h:266-277). -/
def isBoundaryVertex (m : Mesh) (l : Nat) : Option Bool := m.boundaryLoop l (m.laths + 1) (m.ccv l)

/-- `CqLath::isCornerVertex` (libs/core/geometry/lath.h:501-505). -/
def isCornerVertex (m : Mesh) (l : Nat) : Bool := (m.cv l).isNone && (m.cv (m.cf l)).isNone

/-! ## Building -/

/-- `CqSubdivision2::Prepare` (libs/core/geometry/subdivision2.cpp:164-170) for `n` vertices and `fn` face vertices. -/
def prepare (n fn : Nat) : Mesh :=
  ⟨0, fun _ => 0, fun _ => none, fun _ => 0, fun _ => 0, List.replicate n [], [], List.range n, List.range fn⟩

/-- `CqSubdivision2::AddFacet` (libs/core/geometry/subdivision2.cpp:1160-1190). A facet has vertices; their indices are in the range. -/
def addFacet (m : Mesh) (vs : List Nat) (iFV : Nat) : Mesh :=
  let b := m.laths
  { m with
    laths := b + vs.length
    cf := fun l => if l < b then m.cf l else if l = b then b + vs.length - 1 else l - 1
    vert := fun l => if l < b then m.vert l else vs.getD (l - b) 0
    fvert := fun l => if l < b then m.fvert l else iFV + (l - b)
    atVert := (vs.zipIdx).foldl (fun A (v, i) => A.modify v (· ++ [b + i])) m.atVert
    facets := m.facets ++ [b] }

/-- The loop over the faces in `RiCxxCore::SubdivisionMesh` (libs/core/api/ri.cpp:3329-3334). -/
def addFacets (m : Mesh) : List (List Nat) → Nat → Mesh
  | [], _ => m
  | vs :: r, iP => addFacets (m.addFacet vs iP) r (iP + vs.length)

/-- Set one clockwise link (libs/core/geometry/lath.h:171-174). -/
def setCv (m : Mesh) (l x : Nat) : Mesh := { m with cv := Function.update (β := fun _ => Option Nat) m.cv l (some x) }

/-- What the loops of `Finalise` change: the mesh, the current lath, the laths that were visited, and their number
(libs/core/geometry/subdivision2.cpp:1305-1318). -/
structure Walk where
  mesh : Mesh
  cur : Nat
  visited : List Nat
  count : Nat

/-- The first loop of `CqSubdivision2::Finalise` over the laths `L` of one vertex (libs/core/geometry/subdivision2.cpp:1319-1341). -/
def linkFwd (L : List Nat) : Nat → Walk → Option Walk
  | 0, _ => none
  | f + 1, w => (w.mesh.ccf w.cur).bind fun c =>
      match L.find? fun x => !w.visited.contains x && w.mesh.vert (w.mesh.cf x) == w.mesh.vert c with
      | none => some w
      | some x => linkFwd L f ⟨w.mesh.setCv w.cur x, x, x :: w.visited, w.count + 1⟩

/-- The second loop (libs/core/geometry/subdivision2.cpp:1348-1371). `cur` is `pStart`. A lath without `ccf` does not occur. -/
def linkBwd (L : List Nat) : Nat → Walk → Option Walk
  | 0, _ => none
  | f + 1, w =>
      match L.find? fun x => !w.visited.contains x && (w.mesh.ccf x).map w.mesh.vert == some (w.mesh.vert (w.mesh.cf w.cur)) with
      | none => some w
      | some x => linkBwd L f ⟨w.mesh.setCv x w.cur, x, w.cur :: w.visited, w.count + 1⟩

/-- Both loops for one vertex (libs/core/geometry/subdivision2.cpp:1313-1374): the last lath of the first loop, and the state at the end. -/
def link (m : Mesh) (L : List Nat) (s : Nat) : Option (Nat × Walk) :=
  (linkFwd L (L.length + 1) ⟨m, s, [], 0⟩).bind fun w =>
    (if (w.mesh.cv w.cur).isNone then linkBwd L (L.length + 1) { w with cur := s } else some { w with cur := s }).map fun w' =>
      (w.cur, { w' with visited := w'.cur :: w'.visited, count := w'.count + 1 })

/-- Move the laths that were not visited to a new vertex (libs/core/geometry/subdivision2.cpp:1376-1397, 801-870). `p` is `pCurrent`, whose values are copied. If
there are face varying variables (`fv`), there is one new face vertex for all laths; if not, the index is 0. Vertex variables have as many values as there are vertices. -/
def separate (fv : Bool) (m : Mesh) (i p : Nat) (visited : List Nat) : Mesh :=
  let L := m.atVert.getD i []
  let rest := L.filter fun x => !visited.contains x
  let n := m.atVert.length
  let f := if fv then m.fsrc.length else 0
  { m with
    vert := fun l => if rest.contains l then n else m.vert l
    fvert := fun l => if rest.contains l then f else m.fvert l
    atVert := (m.atVert.set i (L.filter fun x => visited.contains x)) ++ [rest]
    src := m.src ++ [m.src.getD (m.vert p) 0]
    fsrc := if fv then m.fsrc ++ [m.fsrc.getD (m.fvert p) 0] else m.fsrc }

/-- The body of the loop over the vertices (libs/core/geometry/subdivision2.cpp:1298-1397). -/
def finaliseVertex (fv : Bool) (m : Mesh) (i : Nat) : Option Mesh :=
  match m.atVert.getD i [] with
  | [] => some m
  | [_] => some m
  | s :: t => (link m (s :: t) s).map fun (p, w) =>
      if w.count < (s :: t).length then separate fv w.mesh i p w.visited else w.mesh

/-- `CqSubdivision2::Finalise` from the vertex `i` on (libs/core/geometry/subdivision2.cpp:1289-1402). -/
def finaliseFrom (fv : Bool) : Nat → Nat → Mesh → Option Mesh
  | 0, _, _ => none
  | f + 1, i, m => if m.atVert.length ≤ i then some m else (finaliseVertex fv m i).bind (finaliseFrom fv f (i + 1))

/-- `CqSubdivision2::Finalise` (libs/core/geometry/subdivision2.cpp:1289-1402). -/
def finalise (fv : Bool) (m : Mesh) : Option Mesh := finaliseFrom fv (m.laths + m.atVert.length + 1) 0 m

/-- The mesh of `RiCxxCore::SubdivisionMesh` for `n` vertices (libs/core/api/ri.cpp:3324-3335). -/
def build (fv : Bool) (n : Nat) (faces : List (List Nat)) : Option Mesh :=
  ((prepare n (faces.map List.length).sum).addFacets faces 0).finalise fv

end Mesh
end Verif.Geom.Lath
