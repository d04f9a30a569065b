import Verif.Point.Octree
import Verif.Point.MicroBuf

/-!
The walk over the tree of surfels, `renderNode` in libs/pointrender/microbuf_proj_func.cpp.

Simplifications: exact numbers instead of floats; what is drawn is a list of surfels and crude nodes in the order of the calls of
`renderDisk`. Children at the same distance are sorted by their index instead of by their address.
-/

namespace Verif.Point.Walk

open Verif.Point.Octree

/-- The arguments of `renderNode` but for the node: the place, the normal, cosine and sine of the angle of the cone, the greatest solid
angle; libs/pointrender/microbuf_proj_func.cpp:485-487. -/
structure View where
  P : V3
  N : V3
  c : ℝ
  s : ℝ
  max : ℝ

/-- `(q - P).length2()`, libs/pointrender/microbuf_proj_func.cpp:503-504, 545, 570. -/
def View.dist (v : View) (q : V3) : ℝ := dot (fun k => q k - v.P k) (fun k => q k - v.P k)

/-- The box of a node. -/
def bound : Tree → Box
  | .empty => ⟨fun _ => 0, fun _ => 0⟩
  | .leaf b _ _ => b
  | .node b _ _ => b

/-- `node->center`, libs/pointrender/diffuse/DiffusePointOctree.cpp:171-172. -/
noncomputable def center (t : Tree) : V3 := (bound t).center

/-- The node is left out, libs/pointrender/microbuf_proj_func.cpp:503-506. -/
noncomputable def culled (v : View) (t : Tree) : Bool :=
  sphereOutsideCone (fun k => center t k - v.P k) (v.dist (center t)) (boundRadius (bound t)) v.N v.c v.s

open Classical in
/-- The solid angle is small, libs/pointrender/microbuf_proj_func.cpp:508-518; over zero it is infinite or no number, and not less. -/
noncomputable def far (v : View) (t : Tree) : Bool :=
  decide (v.dist t.agg.p ≠ 0 ∧ Real.pi * t.agg.r * t.agg.r / v.dist t.agg.p < v.max)

/-- What is drawn as a disk: the crude values of a node (libs/pointrender/microbuf_proj_func.cpp:520-521) or a surfel (551-556). -/
inductive Item where
  | crude (t : Tree)
  | surfel (x : Surfel)

/-- How a walk ends; `stuck` only if `walk` has too few steps. -/
inductive Out where
  | done (l : List Item)
  | assertion
  | overflow
  | stuck

/-- Items drawn before the rest. -/
def Out.after (l : List Item) : Out → Out
  | .done m => .done (l ++ m)
  | o => o

/-- Whether the child is there, libs/pointrender/microbuf_proj_func.cpp:567-569. -/
def there : Tree → Bool
  | .empty => false
  | _ => true

open Classical in
/-- The points of a leaf by distance, libs/pointrender/microbuf_proj_func.cpp:541-548. -/
noncomputable def sorted (v : View) (l : List Surfel) : List Surfel :=
  l.mergeSort fun x y => decide (v.dist x.p ≤ v.dist y.p)

open Classical in
/-- The children that are there by distance, libs/pointrender/microbuf_proj_func.cpp:563-574. -/
noncomputable def order (v : View) (child : Fin 8 → Tree) : List (Fin 8) :=
  ((List.finRange 8).filter fun i => there (child i)).mergeSort fun i j => decide (v.dist (center (child i)) ≤ v.dist (center (child j)))

/-- The loop, libs/pointrender/microbuf_proj_func.cpp:497-581, in at most so many rounds; the head of the list is the top of the stack of
200 places (494), and nodes are pushed so that the nearest is on top (577-578). A leaf of more than eight points fails the assertion
(540). -/
noncomputable def walk (v : View) : Nat → List Tree → Out
  | _, [] => .done []
  | 0, _ :: _ => .stuck
  | n + 1, t :: stack =>
    if culled v t then walk v n stack
    else if far v t then (walk v n stack).after [.crude t]
    else match t with
      | .empty => walk v n stack
      | .leaf _ _ l => if l.length ≤ 8 then (walk v n stack).after ((sorted v l).map .surfel) else .assertion
      | .node _ _ child =>
        let stack' := (order v child).map child ++ stack
        if stack'.length ≤ 200 then walk v n stack' else .overflow

end Verif.Point.Walk
