import Mathlib.Algebra.Order.Field.Basic
import Mathlib.Algebra.Order.Field.Rat
import Mathlib.Algebra.Module.Prod
import Mathlib.Algebra.Module.Rat
/-!
# Trim curves

Model of libs/core/geometry/trimcurve.cpp (spans, basis functions, evaluation, insertion of knots, clamping, preparation of
loops, the test of points and lines against loops), of RiTrimCurve (libs/core/api/ri.cpp:2787-2830) and of the use of trim curves by
micropolygons (libs/core/micropolygon.cpp:784-835, 1591-1628).

Simplifications: exact arithmetic in an ordered field in place of `TqFloat`; arrays of knots and of control points are functions on the
natural numbers together with their sizes.
-/
namespace Verif.Geom.Trim

/-- The state of `CqTrimCurve`: the order, the number of control points, knots and (homogeneous) control points
(libs/core/geometry/trimcurve.h:107-112). -/
structure Curve (K V : Type) where
  order : Nat
  n : Nat
  knots : Nat → K
  pts : Nat → V

section
variable {K : Type} [Field K] [LinearOrder K]

/-- `CqTrimCurve::Degree` (libs/core/geometry/trimcurve.h:48-51). -/
def Curve.degree {V : Type} (c : Curve K V) : Nat := c.order - 1

/-- `CqTrimCurve::cKnots`, also the size of the array of knots (libs/core/geometry/trimcurve.h:60-63, 92-99). -/
def Curve.cKnots {V : Type} (c : Curve K V) : Nat := c.n + c.order

/-- The loop of `CqTrimCurve::FindSpan` (libs/core/geometry/trimcurve.cpp:30-42). The result is absent if a knot outside the array is
read, or if the loop does not end within `fuel` rounds. -/
def findLoop (T : Nat → K) (size : Nat) (u : K) : Nat → Nat → Nat → Option Nat
  | 0, _, _ => none
  | fuel + 1, low, high =>
    let mid := (low + high) / 2
    if size ≤ mid then none
    else if u < T mid then findLoop T size u fuel low mid
    else if size ≤ mid + 1 then none
    else if T (mid + 1) ≤ u then findLoop T size u fuel mid high
    else some mid

/-- `CqTrimCurve::FindSpan` (libs/core/geometry/trimcurve.cpp:23-43). -/
def Curve.findSpan {V : Type} (c : Curve K V) (u : K) : Option Nat :=
  if c.knots c.n ≤ u then some (c.n - 1)
  else if u ≤ c.knots c.degree then some c.degree
  else findLoop c.knots c.cKnots u (c.n + 2) 0 (c.n + 1)

/-- A quotient that is absent when the denominator is zero (the code would get an infinity or not-a-number,
libs/core/geometry/trimcurve.cpp:66). -/
def sdiv (a b : K) : Option K := if b = 0 then none else some (a / b)

/-- The inner loop of `CqTrimCurve::BasisFunctions` (libs/core/geometry/trimcurve.cpp:60-70) for `s = m - 1` down to 0; `i` there is
`span - s`. -/
def basisInner (T : Nat → K) (u : K) (span r : Nat) : Nat → (Nat → K) → Option (Nat → K)
  | 0, B => some B
  | s + 1, B =>
    let i : Int := (span : Int) - s
    (if i < 0 then some 0 else sdiv (u - T i.toNat) (T (i + r - 1).toNat - T i.toNat)).bind fun ω =>
      let B1 := Function.update (β := fun _ => K) B (s + 1) (B (s + 1) + (1 - ω) * B s)
      basisInner T u span r s (Function.update (β := fun _ => K) B1 s (ω * B1 s))

/-- The outer loop of `CqTrimCurve::BasisFunctions` (libs/core/geometry/trimcurve.cpp:55-71) up to `r = m + 1`. -/
def basisFns (T : Nat → K) (u : K) (span : Nat) : Nat → Option (Nat → K)
  | 0 => some (Function.update (β := fun _ => K) (fun _ => 0) 0 1)
  | m + 1 => (basisFns T u span m).bind fun B =>
      basisInner T u span (m + 2) (m + 1) (Function.update (β := fun _ => K) B (m + 1) 0)

variable {V : Type} [AddCommGroup V] [Module K V]

/-- The sum in `CqTrimCurve::Evaluate` (libs/core/geometry/trimcurve.cpp:81-103): the homogeneous point. -/
def Curve.evalH (c : Curve K V) (u : K) : Option V :=
  (c.findSpan u).bind fun span =>
    (basisFns c.knots u span (c.order - 1)).map fun basis =>
      (List.range c.order).foldl (fun r j => r + basis (c.order - 1 - j) • c.pts (j + (span + 1 - c.order))) 0

/-- The loop that finds `k` in `CqTrimCurve::InsertKnot` (libs/core/geometry/trimcurve.cpp:256, 263-271): the index before the first
knot greater than `u`, from index `i` on; the last index if there is none. -/
def findK (T : Nat → K) (size : Nat) (u : K) : Nat → Nat → Int
  | 0, _ => (size : Int) - 1
  | f + 1, i => if size ≤ i then (size : Int) - 1 else if u < T i then (i : Int) - 1 else findK T size u f (i + 1)

/-- The loop that counts the multiplicity (libs/core/geometry/trimcurve.cpp:275-282): the number of rounds from index `i` down. -/
def countDown (T : Nat → K) : Nat → Nat
  | 0 => 0
  | i + 1 => if T (i + 1) ≤ T i then countDown T i + 1 else 0

/-- `s` in `CqTrimCurve::InsertKnot` (libs/core/geometry/trimcurve.cpp:273-285). -/
def multiplicity (T : Nat → K) (u : K) (k : Nat) : Nat := if u ≤ T k then countDown T k + 1 else 0

/-- The knots after the insertion (libs/core/geometry/trimcurve.cpp:295-302). -/
def newKnots (T : Nat → K) (u : K) (k r : Nat) : Nat → K := fun i => if i ≤ k then T i else if i ≤ k + r then u else T (i - r)

/-- The loop over the points of one insertion (libs/core/geometry/trimcurve.cpp:323-331) for `i` from 0 to `m - 1`. -/
def insInner (T : Nat → K) (u : K) (k L : Nat) : Nat → (Nat → V) → (Nat → V)
  | 0, R => R
  | m + 1, R =>
    let R := insInner T u k L m R
    let alpha := (u - T (L + m)) / (T (k + (m + 1)) - T (L + m))
    Function.update (β := fun _ => V) R m (alpha • R (m + 1) + (1 - alpha) • R m)

/-- The loop over the insertions (libs/core/geometry/trimcurve.cpp:319-335) for `j` from 1 to `m`: the array `R` and the new control
points. -/
def insOuter (T : Nat → K) (u : K) (k s p r : Nat) : Nat → (Nat → V) × (Nat → V) → (Nat → V) × (Nat → V)
  | 0, x => x
  | m + 1, x =>
    let (R, Q) := insOuter T u k s p r m x
    let j := m + 1
    let L := k - p + j
    let R := insInner T u k L (p + 1 - j - s) R
    let Q := Function.update (β := fun _ => V) Q L (R 0)
    (R, if p > j + s then Function.update (β := fun _ => V) Q (k + r - j - s) (R (p - j - s)) else Q)

/-- The control points after the insertion (libs/core/geometry/trimcurve.cpp:304-339): copies before and behind, the insertions, the
rest from `R`. -/
def newPts (T : Nat → K) (P : Nat → V) (n : Nat) (u : K) (k s p r : Nat) : Nat → V :=
  let Q0 : Nat → V := fun i => if k - s + r ≤ i ∧ i < n + r then P (i - r) else P i
  let R0 : Nat → V := fun i => P (k - p + i)
  let (R, Q) := insOuter T u k s p r r (R0, Q0)
  fun i => if k - p + r < i ∧ i < k - s then R (i - (k - p + r)) else Q i

/-- `CqTrimCurve::InsertKnot` (libs/core/geometry/trimcurve.cpp:250-344): the number of new knots and the new curve. -/
def Curve.insertKnot (c : Curve K V) (u : K) (r : Nat) : Nat × Curve K V :=
  let p := c.degree
  if u < c.knots p ∨ c.knots c.n < u then (0, c)
  else
    let k := (findK c.knots c.cKnots u (c.cKnots + 1) 0).toNat
    let s := multiplicity c.knots u k
    let r := if p + 1 < r + s then p + 1 - s else r
    if r = 0 then (0, c)
    else (r, ⟨c.order, c.n + r, newKnots c.knots u k r, newPts c.knots c.pts c.n u k s p r⟩)

/-- `CqTrimCurve::Clamp` (libs/core/geometry/trimcurve.cpp:352-372). -/
def Curve.clamp (c : Curve K V) : Curve K V :=
  let (n1, c1) := c.insertKnot (c.knots c.degree) c.degree
  let (n2, c2) := c1.insertKnot (c1.knots c1.n) c1.degree
  if n1 ≠ 0 ∨ n2 ≠ 0 then ⟨c2.order, c2.n - (n1 + n2), fun i => c2.knots (i + n1), fun i => c2.pts (i + n1)⟩ else c2

/-- The point of the plane that belongs to a homogeneous one (libs/core/geometry/trimcurve.cpp:105); absent for weight zero. -/
def project (q : K × K × K) : Option (K × K) := if q.2.2 = 0 then none else some (q.1 / q.2.2, q.2.1 / q.2.2)

/-- `CqTrimCurve::Evaluate` (libs/core/geometry/trimcurve.cpp:79-106). -/
def Curve.eval (c : Curve K (K × K × K)) (u : K) : Option (K × K) := (c.evalH u).bind project

/-- The points of one curve in `CqTrimLoop::Prepare` (libs/core/geometry/trimcurve.cpp:120-132) for `cPoints` points. -/
def preparePts (c : Curve K (K × K × K)) (cPoints : Nat) : List (Option (K × K)) :=
  let c := c.clamp
  let range := c.knots (c.cKnots - 1) - c.knots 0
  (List.range cPoints).map fun (i : Nat) => c.eval (c.knots 0 + (i : K) * (range / (cPoints : K)))

/-- `CqTrimLoop::Prepare` (libs/core/geometry/trimcurve.cpp:110-134): the curves with the number of points that
`TrimDecimation` asks for (libs/core/geometry/nurbs.cpp:1749-1788, not modelled). -/
def prepare (cs : List (Curve K (K × K × K) × Nat)) : List (Option (K × K)) := cs.flatMap fun c => preparePts c.1 c.2

/-- Does a segment of the loop change the state in `CqTrimLoop::TrimPoint` (libs/core/geometry/trimcurve.cpp:154-166)? -/
def crosses (v a b : K × K) : Bool :=
  ((decide (a.2 < v.2) && decide (v.2 ≤ b.2)) || (decide (b.2 < v.2) && decide (v.2 ≤ a.2))) &&
    decide (a.1 + (v.2 - a.2) / (b.2 - a.2) * (b.1 - a.1) < v.1)

/-- The rounds of the loops over the segments: `prev` is the point `j`, then the points `i` (libs/core/geometry/trimcurve.cpp:152,
181). -/
def trimLoop (v : K × K) : K × K → List (K × K) → Bool → Bool
  | _, [], odd => odd
  | prev, a :: l, odd => trimLoop v a l (if crosses v a prev then !odd else odd)

/-- `CqTrimLoop::TrimPoint` (libs/core/geometry/trimcurve.cpp:145-169). -/
def trimPoint (pts : List (K × K)) (v : K × K) : Bool :=
  match pts.getLast? with
  | none => false
  | some z => trimLoop v z pts false

/-- Does a line meet a segment of the loop (libs/core/geometry/trimcurve.cpp:183-195)? -/
def meets (v1 v2 p3 p4 : K × K) : Bool :=
  let d := (v2.1 - v1.1) * (p4.2 - p3.2) - (v2.2 - v1.2) * (p4.1 - p3.1)
  if d = 0 then false
  else
    let r := ((v1.2 - p3.2) * (p4.1 - p3.1) - (v1.1 - p3.1) * (p4.2 - p3.2)) / d
    let s := ((v1.2 - p3.2) * (v2.1 - v1.1) - (v1.1 - p3.1) * (v2.2 - v1.2)) / d
    decide (0 ≤ r) && decide (0 ≤ s) && decide (r ≤ 1) && decide (s ≤ 1)

/-- The rounds of `CqTrimLoop::LineIntersects` (libs/core/geometry/trimcurve.cpp:181-197). -/
def lineLoop (v1 v2 : K × K) : K × K → List (K × K) → Bool
  | _, [] => false
  | prev, a :: l => if meets v1 v2 a prev then true else lineLoop v1 v2 a l

/-- `CqTrimLoop::LineIntersects` (libs/core/geometry/trimcurve.cpp:172-198). -/
def lineIntersects (pts : List (K × K)) (v1 v2 : K × K) : Bool :=
  match pts.getLast? with
  | none => false
  | some z => lineLoop v1 v2 z pts

/-- `CqTrimLoopArray::TrimPoint` (libs/core/geometry/trimcurve.cpp:211-225). -/
def trimPointAll (loops : List (List (K × K))) (v : K × K) : Bool :=
  if loops.length = 0 then false
  else
    let c := loops.foldl (fun c l => c + (if trimPoint l v then 1 else 0)) 0
    !(c % 2 == 1)

/-- `CqTrimLoopArray::LineIntersects` (libs/core/geometry/trimcurve.cpp:228-241). -/
def lineIntersectsAll (loops : List (List (K × K))) (v1 v2 : K × K) : Bool := loops.any fun l => lineIntersects l v1 v2

/-- What happens to a micropolygon when a grid is split (libs/core/micropolygon.cpp:784-835). -/
inductive MpTrim
  | discarded
  | checked
  | whole
  deriving DecidableEq, Repr

/-- The treatment of a micropolygon with the parameters `a`, `b`, `c`, `d` at its corners, in order round it
(libs/core/micropolygon.cpp:799-841). `outside` is the attribute "trimcurve" "sense". -/
def mpTrim (loops : List (List (K × K))) (outside : Bool) (a b c d : K × K) : MpTrim :=
  let fa := trimPointAll loops a ^^ outside
  let fb := trimPointAll loops b ^^ outside
  let fc := trimPointAll loops c ^^ outside
  let fd := trimPointAll loops d ^^ outside
  if (fa && fb && fc && fd) && (!lineIntersectsAll loops a b && !lineIntersectsAll loops b c && !lineIntersectsAll loops c d &&
      !lineIntersectsAll loops d a) then .discarded
  else if fa || fb || fc || fd then .checked
  else .whole

/-- Is a hit of a micropolygon marked as trimmed dropped (libs/core/micropolygon.cpp:1594-1628)? `vR` are the parameters at the hit
(libs/core/micropolygon.cpp:1603-1621). -/
def hitTrimmed (loops : List (List (K × K))) (outside : Bool) (vR : K × K) : Bool := trimPointAll loops vR && !outside

/-- Is there a hit of a static micropolygon at the parameters `vR`, given that its area contains the sample: both steps together
(libs/core/micropolygon.cpp:784-856, 1591-1628)? -/
def mpHit (loops : List (List (K × K))) (outside : Bool) (a b c d vR : K × K) : Bool :=
  match mpTrim loops outside a b c d with
  | .discarded => false
  | .whole => true
  | .checked => !hitTrimmed loops outside vR

end

/-- The arguments of RiTrimCurve that are read (libs/core/api/ri.cpp:2787). -/
structure TrimArgs (K : Type) where
  order : List Nat
  knot : List K
  min : List K
  max : List K
  n : List Nat
  u : List K
  v : List K
  w : List K

/-- The running indices `iorder`, `in`, `iknot`, `ivert` (libs/core/api/ri.cpp:2794-2797); `iorder` and `in` are always equal. -/
structure TrimIx where
  icurve : Nat
  iknot : Nat
  ivert : Nat

variable {K : Type} [Zero K]

/-- One curve of RiTrimCurve (libs/core/api/ri.cpp:2806-2826); a read outside an array gives 0 here. -/
def readCurve (a : TrimArgs K) (ix : TrimIx) : Curve K (K × K × K) × TrimIx :=
  let o := a.order.getD ix.icurve 0
  let cverts := a.n.getD ix.icurve 0
  (⟨o, cverts, fun i => a.knot.getD (ix.iknot + i) 0,
      fun i => (a.u.getD (ix.ivert + i) 0, a.v.getD (ix.ivert + i) 0, a.w.getD (ix.ivert + i) 0)⟩,
    ⟨ix.icurve + 1, ix.iknot + (o + cverts), ix.ivert + cverts⟩)

/-- The curves of one loop (libs/core/api/ri.cpp:2802-2827). -/
def readLoop (a : TrimArgs K) : Nat → TrimIx → List (Curve K (K × K × K)) × TrimIx
  | 0, ix => ([], ix)
  | m + 1, ix =>
    let (c, ix) := readCurve a ix
    let (l, ix) := readLoop a m ix
    (c :: l, ix)

/-- The loops (libs/core/api/ri.cpp:2787-2830). -/
def readLoops (a : TrimArgs K) : List Nat → TrimIx → List (List (Curve K (K × K × K)))
  | [], _ => []
  | nc :: rest, ix =>
    let (l, ix) := readLoop a nc ix
    l :: readLoops a rest ix

/-- RiTrimCurve (libs/core/api/ri.cpp:2787-2830): the new loops of the attributes. -/
def trimCurve (ncurves : List Nat) (a : TrimArgs K) : List (List (Curve K (K × K × K))) := readLoops a ncurves ⟨0, 0, 0⟩

end Verif.Geom.Trim
