/-
Splitting patch meshes and curve groups into single patches and segments.

Source: libs/core/geometry/patch.h:204-264, 316-374 (counts),
libs/core/geometry/patch.cpp:969-1113 (CqSurfacePatchMeshBicubic::SplitInternally),
1192-1330 (CqSurfacePatchMeshBilinear::Split),
libs/core/geometry/cubiccurves.cpp:598-604, 616-647, 672-739, 842-1010,
libs/core/geometry/linearcurves.cpp:455-594.

Only the index arithmetic is modelled: a split piece is the list of source
indices its primitive variables are copied from. `int` arithmetic is exact here
(overflow of the counts is treated in Verif.Riutil.ClassCounts). `/` and `%` are
C++'s truncating operations.
-/
namespace Verif.Core.Mesh

/-- Source indices of one piece: "vertex" variables, "varying" variables and the
"uniform" value. The surfaces made at libs/core/geometry/patch.cpp:1056-1113. -/
structure Piece where
  verts : List Int
  corners : List Int
  uniform : Int
deriving DecidableEq, Repr

/-- Patches along one direction of a bicubic mesh, patch.h:213-214; the same
formula gives the segments of a cubic curve, cubiccurves.cpp:598-604. -/
def cubicCount (periodic : Bool) (n step : Int) : Int :=
  if periodic then n.tdiv step else (n - 4).tdiv step + 1

/-- Patches along one direction of a bilinear mesh, patch.h:323-324. -/
def linearCount (periodic : Bool) (n : Int) : Int := if periodic then n else n - 1

/-- `nvaryingu`, `nvaryingv`: patch.cpp:978-979. -/
def boundaries (periodic : Bool) (patches : Int) : Int :=
  if periodic then patches else patches + 1

/-- The macros `PatchCoord` and `PatchCorner`, patch.cpp:966-967:
`((v % rows) * cols) + (u % cols)`. -/
def gridIndex (rows cols v u : Int) : Int := (v.tmod rows) * cols + u.tmod cols

/-- `for(i = 0; i < rows; i++) for(j = 0; j < cols; j++) push_back(f(i,j))`.
libs/core/geometry/patch.cpp:990-1113. -/
def gridLoop (rows cols : Int) (f : Int → Int → Piece) : List Piece :=
  (List.range rows.toNat).flatMap fun i : Nat =>
    (List.range cols.toNat).map fun j : Nat => f (i : Int) (j : Int)

/-- `CqSurfacePatchMeshBicubic::SplitInternally`, patch.cpp:969-1113.
The uniform value is taken at index `j` (patch.cpp:1056). -/
def splitBicubic (nu nv : Int) (up vp : Bool) (us vs : Int) : List Piece :=
  let pu := cubicCount up nu us
  let pv := cubicCount vp nv vs
  let cu := boundaries up pu
  let cv := boundaries vp pv
  gridLoop pv pu fun i j =>
    { verts := [0, 1, 2, 3].flatMap fun v =>
        [gridIndex nv nu (i * vs + v) (j * us), gridIndex nv nu (i * vs + v) (j * us + 1),
         gridIndex nv nu (i * vs + v) (j * us + 2), gridIndex nv nu (i * vs + v) (j * us + 3)]
      corners := [gridIndex cv cu i j, gridIndex cv cu i (j + 1),
                  gridIndex cv cu (i + 1) j, gridIndex cv cu (i + 1) (j + 1)]
      uniform := j }

/-- `CqSurfacePatchMeshBilinear::Split`, patch.cpp:1198-1331: vertex and varying
variables both use `PatchCoord`; the uniform value is taken at index `j`. -/
def splitBilinear (nu nv : Int) (up vp : Bool) : List Piece :=
  gridLoop (linearCount vp nv) (linearCount up nu) fun i j =>
    let c := [gridIndex nv nu i j, gridIndex nv nu i (j + 1),
              gridIndex nv nu (i + 1) j, gridIndex nv nu (i + 1) (j + 1)]
    { verts := c, corners := c, uniform := j }

/-- `CqCubicCurvesGroup::convertToBezierBasis`, cubiccurves.cpp:688-739: for each
segment in output order, the four source control points it is a combination of.
Output points `4m … 4m+3` belong to entry `m`. -/
def toBezier (per : Bool) (st : Int) : Int → List Int → List (List Int)
  | _, [] => []
  | start, n :: l =>
    ((List.range (cubicCount per n st).toNat).map fun k : Nat =>
      [k * st + start, (k * st + 1).tmod n + start, (k * st + 2).tmod n + start,
       (k * st + 3).tmod n + start]) ++ toBezier per st (start + n) l

/-- `CqCubicCurvesGroup::Split`, cubiccurves.cpp:842-1010, on the converted
variables; the three accumulators are the `curve…IndexStart` variables. -/
def splitCubic (per : Bool) (st : Int) : Int → Int → Int → List Int → List Piece
  | _, _, _, [] => []
  | vstart, astart, ustart, n :: l =>
    let segs := cubicCount per n st
    let nvary := boundaries per segs
    ((List.range segs.toNat).map fun k : Nat =>
      { verts := [4 * (k : Int) + vstart, 4 * k + 1 + vstart, 4 * k + 2 + vstart, 4 * k + 3 + vstart]
        corners := [(k : Int).tmod nvary + astart, ((k : Int) + 1).tmod nvary + astart]
        uniform := ustart }) ++
      splitCubic per st (vstart + 4 * segs) (astart + nvary) (ustart + 1) l

/-- One curve of `CqLinearCurvesGroup::Split`, linearcurves.cpp:480-582: `segs`
more segments, the next being number `segI`, with the running `vertexI`. Returns
the pieces and the final `vertexI`. -/
def linearSegs (n first uniformI : Int) : Nat → Int → Int → List Piece × Int
  | 0, _, vertexI => ([], vertexI)
  | segs + 1, segI, vertexI =>
    let next := if segI = n - 1 then first else vertexI + 1
    let (ps, v) := linearSegs n first uniformI segs (segI + 1) (vertexI + 1)
    ({ verts := [vertexI, next], corners := [vertexI, next], uniform := uniformI } :: ps, v)

/-- `CqLinearCurvesGroup::Split`, linearcurves.cpp:455-594. -/
def splitLinear (per : Bool) : Int → Int → List Int → List Piece
  | _, _, [] => []
  | vertexI, uniformI, n :: l =>
    let (ps, v) := linearSegs n vertexI uniformI (linearCount per n).toNat 0 vertexI
    ps ++ splitLinear per (if per then v else v + 1) (uniformI + 1) l

end Verif.Core.Mesh
