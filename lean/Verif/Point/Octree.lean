import Mathlib.Data.Real.Sqrt
import Mathlib.Analysis.SpecialFunctions.Trigonometric.Basic
import Mathlib.Data.List.FinRange

/-!
The tree of surfels, from libs/pointrender/diffuse/DiffusePointOctree.cpp.

Simplifications: exact numbers instead of floats; a surfel is kept as a whole instead of as ten floats. Pointers to children that are
null are the tree `empty`. The workspace for the points of the children is a list for each child.
-/

namespace Verif.Point.Octree

/-- A vector or a colour. -/
abbrev V3 := Fin 3 → ℝ

/-- A surfel: position, normal, radius and colour, libs/pointrender/diffuse/DiffusePointOctree.cpp:199-203. -/
structure Surfel where
  p : V3
  n : V3
  r : ℝ
  col : V3

/-- `Imath::Box3f`. -/
structure Box where
  lo : V3
  hi : V3

/-- `Box3f::center`. -/
noncomputable def Box.center (b : Box) : V3 := fun k => (b.hi k + b.lo k) / 2

/-- `Box3f::size`. -/
def Box.size (b : Box) : V3 := fun k => b.hi k - b.lo k

/-- The crude values of a node, libs/pointrender/diffuse/DiffusePointOctree.h:88-92. -/
structure Agg where
  p : V3
  n : V3
  r : ℝ
  col : V3

/-- A node, libs/pointrender/diffuse/DiffusePointOctree.h:76-100. -/
inductive Tree where
  | empty
  | leaf (bound : Box) (agg : Agg) (points : List Surfel)
  | node (bound : Box) (agg : Agg) (children : Fin 8 → Tree)

/-- `sumA`, `sumP`, `sumN` and `sumCol`. -/
structure Sums where
  a : ℝ
  p : V3
  n : V3
  col : V3

/-- How the sums start, libs/pointrender/diffuse/DiffusePointOctree.cpp:189-192, 225-228. -/
def Sums.zero : Sums := ⟨0, fun _ => 0, fun _ => 0, fun _ => 0⟩

/-- What is added with the area `a`, libs/pointrender/diffuse/DiffusePointOctree.cpp:200-203, 243-246. -/
def Sums.add (s : Sums) (a : ℝ) (p n col : V3) : Sums :=
  ⟨s.a + a, fun k => s.p k + a * p k, fun k => s.n k + a * n k, fun k => s.col k + a * col k⟩

/-- `normalized`. -/
noncomputable def normalized (v : V3) : V3 :=
  let l := Real.sqrt (v 0 * v 0 + v 1 * v 1 + v 2 * v 2)
  fun k => if l = 0 then 0 else v k / l

/-- The crude values from the sums, libs/pointrender/diffuse/DiffusePointOctree.cpp:205-208, 248-251. -/
noncomputable def Sums.agg (s : Sums) : Agg :=
  ⟨fun k => 1 / s.a * s.p k, normalized s.n, Real.sqrt (s.a / Real.pi), fun k => 1 / s.a * s.col k⟩

/-- The sums of a leaf, libs/pointrender/diffuse/DiffusePointOctree.cpp:193-204. -/
noncomputable def leafSums (points : List Surfel) : Sums :=
  points.foldl (fun s x => s.add (x.r * x.r * Real.pi) x.p x.n x.col) Sums.zero

/-- `agg` of a node. -/
noncomputable def Tree.agg : Tree → Agg
  | .empty => ⟨fun _ => 0, fun _ => 0, 0, fun _ => 0⟩
  | .leaf _ a _ => a
  | .node _ a _ => a

/-- The sums of a node, libs/pointrender/diffuse/DiffusePointOctree.cpp:229-247; `points i` are those of the child `i`. -/
noncomputable def nodeSums (points : Fin 8 → List Surfel) (child : Fin 8 → Tree) : Sums :=
  (List.finRange 8).foldl (fun s i =>
    if (points i).length = 0 then s
    else s.add ((child i).agg.r * (child i).agg.r * Real.pi) (child i).agg.p (child i).agg.n (child i).agg.col) Sums.zero

open Classical in
/-- `cellIndex`, libs/pointrender/diffuse/DiffusePointOctree.cpp:220. -/
noncomputable def cellIndex (c p : V3) : Nat :=
  4 * (if p 2 > c 2 then 1 else 0) + 2 * (if p 1 > c 1 then 1 else 0) + (if p 0 > c 0 then 1 else 0)

open Classical in
/-- The points of a child in order, libs/pointrender/diffuse/DiffusePointOctree.cpp:218-222. -/
noncomputable def part (c : V3) (points : List Surfel) (i : Fin 8) : List Surfel :=
  points.filter fun x => decide (cellIndex c x.p = i.val)

/-- The bound of a child, libs/pointrender/diffuse/DiffusePointOctree.cpp:232-238. -/
noncomputable def childBound (b : Box) (i : Nat) : Box :=
  let c := b.center
  ⟨![if i % 2 = 0 then b.lo 0 else c 0, if i / 2 % 2 = 0 then b.lo 1 else c 1, if i / 4 % 2 = 0 then b.lo 2 else c 2],
   ![if i % 2 = 0 then c 0 else b.hi 0, if i / 2 % 2 = 0 then c 1 else b.hi 1, if i / 4 % 2 = 0 then c 2 else b.hi 2]⟩

/-- `makeTree`, libs/pointrender/diffuse/DiffusePointOctree.cpp:166-253, for at least one point; `left` is `maxDepth - depth`. -/
noncomputable def makeTree : Nat → List Surfel → Box → Tree
  | 0, points, bound => .leaf bound (leafSums points).agg points
  | left + 1, points, bound =>
    if points.length ≤ 8 then .leaf bound (leafSums points).agg points
    else
      let c := bound.center
      let child := fun i : Fin 8 =>
        if (part c points i).length = 0 then Tree.empty else makeTree left (part c points i) (childBound bound i.val)
      .node bound (nodeSums (part c points) child).agg child

/-- `boundRadius`, libs/pointrender/diffuse/DiffusePointOctree.cpp:173-174. -/
noncomputable def boundRadius (b : Box) : ℝ :=
  let d := b.size
  Real.sqrt (d 0 * d 0 + d 1 * d 1 + d 2 * d 2) / 2

/-- `Box3f::extendBy` over the points, libs/pointrender/diffuse/DiffusePointOctree.cpp:130-136; the box starts with the first point
instead of with nothing. -/
noncomputable def fitted (x : Surfel) (points : List Surfel) : Box :=
  points.foldl (fun b y => ⟨fun k => min (b.lo k) (y.p k), fun k => max (b.hi k) (y.p k)⟩) ⟨x.p, x.p⟩

/-- The box of the root, libs/pointrender/diffuse/DiffusePointOctree.cpp:158-162. -/
noncomputable def cubic (b : Box) : Box :=
  let d := b.size
  let c := b.center
  let m := max (max (d 0) (d 1)) (d 2) / 2
  ⟨fun k => c k - m, fun k => c k + m⟩

/-- The constructor, libs/pointrender/diffuse/DiffusePointOctree.cpp:123-164; `none` is the assertion at 168. The depth starts at 0
and `maxDepth` is 24 (182). -/
noncomputable def build : List Surfel → Option Tree
  | [] => none
  | x :: points => some (makeTree 24 (x :: points) (cubic (fitted x points)))

end Verif.Point.Octree
