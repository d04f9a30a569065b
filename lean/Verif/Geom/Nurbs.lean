import Verif.Geom.Trim
/-!
# NURBS surfaces

libs/core/geometry/nurbs.cpp, libs/core/geometry/nurbs.h.

Everything in the u direction is done for each row of control points, and everything in the v direction for each column, with the same code
and other indices. A row or a column is a `Curve`, the type of the model of trim curves. The types of the variables (float, point, colour…) are
replaced by one vector space; integers and strings, for which the sums have no meaning, are left out.
-/
namespace Verif.Geom.Nurbs
open Verif.Geom.Trim

variable {K : Type} [Field K] [LinearOrder K] {V : Type} [AddCommGroup V] [Module K V]

/-! ## One direction -/

/-- The inner loop of `CqSurfaceNURBS::BasisFunctions` (libs/core/geometry/nurbs.cpp:201-207) for `r` from 0 to `m - 1`: the array `N` and
`saved`. `left[j]` is `u - U[i + 1 - j]`, `right[j]` is `U[i + j] - u` (lines 199-200). -/
def basisInner (U : Nat → K) (u : K) (i j : Nat) : Nat → (Nat → K) → Option ((Nat → K) × K)
  | 0, N => some (N, 0)
  | r + 1, N => (basisInner U u i j r N).bind fun (N, saved) =>
      let left := u - U (i + 1 - (j - r))
      let right := U (i + (r + 1)) - u
      (sdiv (N r) (right + left)).map fun temp => (Function.update (β := fun _ => K) N r (saved + right * temp), left * temp)

/-- `CqSurfaceNURBS::BasisFunctions` (libs/core/geometry/nurbs.cpp:190-210) with `k - 1 = m`. Absent if there is a division by zero. -/
def basis (U : Nat → K) (u : K) (i : Nat) : Nat → Option (Nat → K)
  | 0 => some (Function.update (β := fun _ => K) (fun _ => 0) 0 1)
  | m + 1 => (basis U u i m).bind fun N =>
      (basisInner U u i (m + 1) (m + 1) N).map fun (N, saved) => Function.update (β := fun _ => K) N (m + 1) saved

/-- The loop that counts the multiplicity (libs/core/geometry/nurbs.cpp:406-412, 588-594): not further down than the degree. -/
def countDownTo (T : Nat → K) (p : Nat) : Nat → Nat
  | 0 => 0
  | i + 1 => if p < i + 1 then (if T (i + 1) ≤ T i then countDownTo T p i + 1 else 0) else 0

/-- `s` in `InsertKnotU` and `InsertKnotV` (libs/core/geometry/nurbs.cpp:403-415, 585-597). -/
def multiplicity (T : Nat → K) (p : Nat) (u : K) (k : Nat) : Nat := if u ≤ T k then countDownTo T p k + 1 else 0

/-- `CqSurfaceNURBS::InsertKnotU` and `InsertKnotV` (libs/core/geometry/nurbs.cpp:379-556, 564-735) for one row or column: the number of new knots,
and the new curve. The points are computed by the same loops as those of trim curves (lines 449-550). -/
def insertKnot (c : Curve K V) (u : K) (r : Nat) : Nat × Curve K V :=
  let p := c.degree
  if u < c.knots p ∨ c.knots c.n < u then (0, c)
  else
    let k := (findK c.knots c.cKnots u (c.cKnots + 1) 0).toNat
    let s := multiplicity c.knots p u k
    let r := if p + 1 < r + s then p + 1 - s else r
    if r = 0 then (0, c)
    else (r, ⟨c.order, c.n + r, newKnots c.knots u k r, newPts c.knots c.pts c.n u k s p r⟩)

/-- `CqSurfaceNURBS::ClampU` and `ClampV` (libs/core/geometry/nurbs.cpp:1101-1143, 1150-1192) for one row or column. -/
def clamp (c : Curve K V) : Curve K V :=
  let u1 := c.knots c.degree
  let u2 := c.knots c.n
  let (n1, c1) := insertKnot c u1 c.degree
  let (n2, c2) := insertKnot c1 u2 c1.degree
  if n1 ≠ 0 ∨ n2 ≠ 0 then ⟨c2.order, c2.n - (n1 + n2), fun i => c2.knots (i + n1), fun i => c2.pts (i + n1)⟩ else c2

/-- The loop that moves knots behind the new one (libs/core/geometry/nurbs.cpp:775-776, 956-957): the knots, `i` and `k`. -/
def shiftK (T : Nat → K) (x : K) (a : Nat) : Nat → (Nat → K) × Nat × Nat → (Nat → K) × Nat × Nat
  | 0, s => s
  | f + 1, (U, i, k) => if x ≤ U i ∧ a < i then shiftK T x a f (Function.update (β := fun _ => K) U k (T i), i - 1, k - 1) else (U, i, k)

/-- The loop over the new knots, from the last to the first (libs/core/geometry/nurbs.cpp:773-778, 954-959). -/
def refKnots (T : Nat → K) (a : Nat) : List K → (Nat → K) × Nat × Nat → (Nat → K) × Nat × Nat
  | [], s => s
  | x :: X, s =>
    let (U, i, k) := shiftK T x a s.2.1 s
    refKnots T a X (Function.update (β := fun _ => K) U k x, i, k - 1)

/-- The loop that moves points behind the new one (libs/core/geometry/nurbs.cpp:813-819, 990-996). -/
def shiftP (U : Nat → K) (P : Nat → V) (p : Nat) (x : K) (a : Nat) : Nat → (Nat → V) × Nat × Nat → (Nat → V) × Nat × Nat
  | 0, s => s
  | f + 1, (Q, i, k) =>
    if x ≤ U i ∧ a < i then shiftP U P p x a f (Function.update (β := fun _ => V) Q (k - p - 1) (P (i - p - 1)), i - 1, k - 1) else (Q, i, k)

/-- The loop over `l` (libs/core/geometry/nurbs.cpp:825-914, 1001-1088) from 1 to `m`. -/
def blend (T U : Nat → K) (p : Nat) (x : K) (i k : Nat) : Nat → (Nat → V) → (Nat → V)
  | 0, Q => Q
  | m + 1, Q =>
    let Q := blend T U p x i k m Q
    let l := m + 1
    let ind := k - p + l
    let alpha := U (k + l) - x
    if alpha = 0 then Function.update (β := fun _ => V) Q (ind - 1) (Q ind)
    else
      let alpha := alpha / (U (k + l) - T (i - p + l))
      Function.update (β := fun _ => V) Q (ind - 1) (alpha • Q (ind - 1) + (1 - alpha) • Q ind)

/-- The loop over the new knots for the points (libs/core/geometry/nurbs.cpp:811-916, 988-1090). -/
def refPts (T U : Nat → K) (P : Nat → V) (p a : Nat) : List K → (Nat → V) × Nat × Nat → (Nat → V) × Nat × Nat
  | [], s => s
  | x :: X, s =>
    let (Q, i, k) := shiftP U P p x a s.2.1 s
    let Q := Function.update (β := fun _ => V) Q (k - p - 1) (Q (k - p))
    refPts T U P p a X (blend T U p x i k p Q, i, k - 1)

/-- `CqSurfaceNURBS::RefineKnotU` and `RefineKnotV` (libs/core/geometry/nurbs.cpp:743-920, 927-1094) for one row or column. Absent if the
search for a span fails. The array of knots keeps its contents when it is made longer. -/
def refine (c : Curve K V) (X : List K) : Option (Curve K V) :=
  match X.head?, X.getLast? with
  | some x0, some xr =>
    let r := X.length - 1
    let p := c.degree
    (c.findSpan x0).bind fun a => (c.findSpan xr).map fun b' =>
      let b := b' + 1
      let U0 : Nat → K := fun j => if j ≤ a then c.knots j else if b + p + r + 1 ≤ j then c.knots (j - (r + 1)) else c.knots j
      let U := (refKnots c.knots a X.reverse (U0, b + p - 1, b + p + r)).1
      let Q0 : Nat → V := fun j => if j ≤ a - p then c.pts j else if b - 1 + r + 1 ≤ j then c.pts (j - (r + 1)) else c.pts j
      ⟨c.order, r + 1 + c.n, U, (refPts c.knots U c.pts p a X.reverse (Q0, b + p - 1, b + p + r)).1⟩
  | _, _ => some c

/-- The search forward (libs/core/geometry/nurbs.cpp:1219-1225, 2063-2069): how many knots from index `i` on are `x`. -/
def countFwd (T : Nat → K) (x : K) (last : Nat) : Nat → Nat → Nat
  | 0, _ => 0
  | f + 1, i => if i < last ∧ T i = x then countFwd T x last f (i + 1) + 1 else 0

/-- The search backward (libs/core/geometry/nurbs.cpp:1227-1233, 2071-2077): `i`, `middex` and `same`. -/
def countBwd (T : Nat → K) (x : K) : Nat → Nat → Nat → Nat × Nat × Nat
  | 0, middex, same => (0, middex, same)
  | i + 1, middex, same => if T (i + 1) = x then countBwd T x i (middex - 1) (same + 1) else (i + 1, middex, same)

/-- The search for the place of a knot that is not there (libs/core/geometry/nurbs.cpp:1239-1241, 2082-2084). -/
def lastBelow (T : Nat → K) (x : K) (size : Nat) : Nat → Nat → Option Nat
  | 0, _ => none
  | f + 1, i => if size ≤ i + 1 then none else if T (i + 1) < x then lastBelow T x size f (i + 1) else some i

/-- The search for the split point at the parameter `x` and the refinement there (libs/core/geometry/nurbs.cpp:1207-1258, 2053-2098, 2108-2152): the split
point and the refined curve. Absent if a search leaves the array, or if there are more equal knots than the order (the difference of
unsigned numbers would be huge). -/
def cut (c : Curve K V) (x : K) : Option (Nat × Curve K V) :=
  let last := c.n + c.order - 1
  (c.findSpan x).bind fun middex =>
    (if c.knots middex = x then
        (if middex = 0 then none
         else some (countBwd c.knots x (middex - 1) middex (1 + countFwd c.knots x last (last + 1) (middex + 1))))
      else some (0, middex, 0)).bind fun (i, middex, same) =>
    (if i = 0 then (lastBelow c.knots x c.cKnots (c.cKnots + 1) 0).map fun m => (m, 0) else some (middex, same)).bind fun (middex, same) =>
    if c.order < same then none
    else
      let extra := c.order - same
      let splitPoint := if extra < c.order then middex - 1 else middex
      (refine c (List.replicate extra x)).map fun c' => (splitPoint, c')

/-- The part of a curve from the point `off` to the point `fin` (libs/core/geometry/nurbs.cpp:1263-1311, 2180-2210). -/
def part (c : Curve K V) (off fin : Nat) : Curve K V := ⟨c.order, fin + 1 - off, fun i => c.knots (off + i), fun i => c.pts (off + i)⟩

/-- `CqSurfaceNURBS::SplitNURBS` (libs/core/geometry/nurbs.cpp:1199-1312) for one row or column. -/
def split (c : Curve K V) : Option (Curve K V × Curve K V) :=
  (cut c ((c.knots 0 + c.knots (c.n + c.order - 1)) / 2)).map fun (sp, c') => (part c' 0 sp, part c' (sp + 1) (c'.n - 1))

/-- The loop over the split points in `SubdivideSegments` (libs/core/geometry/nurbs.cpp:2047-2099, 2102-2153): the split points after the first, and
the refined curve. `num` is the number of segments. -/
def cuts (num : Nat) : Nat → Curve K V → Option (List Nat × Curve K V)
  | 0, c => some ([], c)
  | m + 1, c => (cuts num m c).bind fun (l, c) =>
      let x := ((m + 1 : Nat) : K) / (num : K) * (c.knots c.n - c.knots (c.order - 1)) + c.knots (c.order - 1)
      (cut c x).map fun (sp, c') => (l ++ [sp], c')

/-! ## Surfaces -/

/-- `CqSurfaceNURBS` (libs/core/geometry/nurbs.h:366-378) with one vertex variable. -/
structure Surf (K V : Type) where
  uOrder : Nat
  vOrder : Nat
  nu : Nat
  nv : Nat
  uKnots : Nat → K
  vKnots : Nat → K
  pts : Nat → V

/-- A row of control points (libs/core/geometry/nurbs.cpp:449-460). -/
def Surf.row (s : Surf K V) (j : Nat) : Curve K V := ⟨s.uOrder, s.nu, s.uKnots, fun i => s.pts (j * s.nu + i)⟩

/-- A column of control points (libs/core/geometry/nurbs.cpp:629-639). -/
def Surf.col (s : Surf K V) (i : Nat) : Curve K V := ⟨s.vOrder, s.nv, s.vKnots, fun j => s.pts (j * s.nu + i)⟩

/-- An operation in the u direction: all rows, written with the new length of a row (for example libs/core/geometry/nurbs.cpp:449-460, 1273-1275). -/
def Surf.mapU (s : Surf K V) (f : Curve K V → Curve K V) : Surf K V :=
  let n := (f (s.row 0)).n
  ⟨s.uOrder, s.vOrder, n, s.nv, (f (s.row 0)).knots, s.vKnots, fun idx => (f (s.row (idx / n))).pts (idx % n)⟩

/-- An operation in the v direction: all columns (for example libs/core/geometry/nurbs.cpp:627-639, 718). -/
def Surf.mapV (s : Surf K V) (f : Curve K V → Curve K V) : Surf K V :=
  ⟨s.uOrder, s.vOrder, s.nu, (f (s.col 0)).n, s.uKnots, (f (s.col 0)).knots, fun idx => (f (s.col (idx % s.nu))).pts (idx / s.nu)⟩

/-- `CqSurfaceNURBS::Evaluate` (libs/core/geometry/nurbs.h:241-266). -/
def Surf.evaluate (s : Surf K V) (u v : K) : Option V :=
  ((s.row 0).findSpan u).bind fun uspan => (basis s.uKnots u uspan (s.uOrder - 1)).bind fun Nu =>
  ((s.col 0).findSpan v).bind fun vspan => (basis s.vKnots v vspan (s.vOrder - 1)).map fun Nv =>
    (List.range s.vOrder).foldl (fun S l =>
      S + Nv l • (List.range s.uOrder).foldl (fun temp k =>
        temp + Nu k • s.pts ((vspan - (s.vOrder - 1) + l) * s.nu + (uspan - (s.uOrder - 1)) + k)) 0) 0

/-- `CqSurfaceNURBS::Clamp` (libs/core/geometry/nurbs.h:279-283). -/
def Surf.clamp (s : Surf K V) : Surf K V := (s.mapU Nurbs.clamp).mapV Nurbs.clamp

/-- An operation in the u direction that may fail, on all rows (the searches depend on the knots only). See `Surf.mapU`
(for example libs/core/geometry/nurbs.cpp:1212, 2056). -/
def Surf.tryU (s : Surf K V) (f : Curve K V → Option (Curve K V)) : Surf K V := s.mapU fun c => (f c).getD c

/-- The same in the v direction (for example libs/core/geometry/nurbs.cpp:1212, 2111). -/
def Surf.tryV (s : Surf K V) (f : Curve K V → Option (Curve K V)) : Surf K V := s.mapV fun c => (f c).getD c

/-- `CqSurfaceNURBS::SplitNURBS` (libs/core/geometry/nurbs.cpp:1199-1312). -/
def Surf.split (s : Surf K V) (dirflag : Bool) : Option (Surf K V × Surf K V) :=
  if dirflag then (Nurbs.split (s.row 0)).map fun _ =>
    (s.tryU fun c => (Nurbs.split c).map Prod.fst, s.tryU fun c => (Nurbs.split c).map Prod.snd)
  else (Nurbs.split (s.col 0)).map fun _ =>
    (s.tryV fun c => (Nurbs.split c).map Prod.fst, s.tryV fun c => (Nurbs.split c).map Prod.snd)

/-- The first and the last point of each part (libs/core/geometry/nurbs.cpp:2155-2173, 2212-2216). -/
def ranges : Nat → List Nat → List (Nat × Nat)
  | _, [] => []
  | off, e :: l => (off, e) :: ranges (e + 1) l

/-- `CqSurfaceNURBS::SubdivideSegments` (libs/core/geometry/nurbs.cpp:2032-2217): rows of patches, one after the other. -/
def Surf.segments (s : Surf K V) : Option (List (Surf K V)) :=
  let nus := 1 + s.nu - s.uOrder
  let nvs := 1 + s.nv - s.vOrder
  (cuts nus (nus - 1) (s.row 0)).bind fun (lu, _) =>
    let s1 := s.tryU fun c => (cuts nus (nus - 1) c).map Prod.snd
    (cuts nvs (nvs - 1) (s1.col 0)).map fun (lv, _) =>
      let s2 := s1.tryV fun c => (cuts nvs (nvs - 1) c).map Prod.snd
      (ranges 0 (lv ++ [s2.nv - 1])).flatMap fun (v0, v1) => (ranges 0 (lu ++ [s2.nu - 1])).map fun (u0, u1) =>
        (s2.mapU fun c => part c u0 u1).mapV fun c => part c v0 v1

/-- The parameters at which `CqSurfaceNURBS::NaturalDice` evaluates in one direction (libs/core/geometry/nurbs.cpp:1389-1391, 1396-1398). -/
def diceParam (T : Nat → K) (order n : Nat) (size i : Nat) : K := (i : K) / (size : K) * (T n - T (order - 1)) + T (order - 1)

/-- `CqSurfaceNURBS::NaturalDice` (libs/core/geometry/nurbs.cpp:1382-1503): the grid, row after row. -/
def Surf.dice (s : Surf K V) (du dv : Nat) : List (Option V) :=
  (List.range (dv + 1)).flatMap fun iv => (List.range (du + 1)).map fun iu =>
    s.evaluate (diceParam s.uKnots s.uOrder s.nu du iu) (diceParam s.vKnots s.vOrder s.nv dv iv)

/-- `CqSurfaceNURBS::Bound` for one coordinate (libs/core/geometry/nurbs.cpp:1352-1372) of the projected points: the smallest and the greatest. `big` is
`FLT_MAX`. -/
def boundAxis (big : K) (P : List K) : K × K :=
  P.foldl (fun (lo, hi) x => (if x < lo then x else lo, if hi < x then x else hi)) (big, -big)

/-- The directions of a split (libs/core/geometry/surface.h:78-82, `EqSplitDir`). -/
inductive Dir where
  | u | v
deriving DecidableEq, Repr

/-- The directions that `CqSurfaceNURBS::Split` uses when it makes two surfaces (libs/core/geometry/nurbs.cpp:1596, 1605, 1617-1618): for the vertex variables, for
the other variables, and the direction that the children get. -/
def splitDirs (dir : Dir) (diceable : Bool) : Dir × Dir × Dir :=
  (if dir = .u || !diceable then .u else .v, if dir = .u then .u else .v, if dir = .u then .v else .u)

/-- The `u` values of `CqSurfaceNURBS::SetDefaultPrimitiveVariables` (libs/core/geometry/nurbs.cpp:1946-1964): one row of corners of segments. -/
def defaultU (umin umax : K) (segs : Nat) : List K :=
  (List.range (segs + 1)).map fun (r : Nat) => umin + (r : K) * ((umax - umin) / (segs : K))

end Verif.Geom.Nurbs
