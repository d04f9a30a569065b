/-!
# Constructive solid geometry on the hits of a sample

Model of `CqCSGTreeNode::ProcessSampleList` (libs/core/csgtree.cpp:166-244) and
the `EvaluateState` functions (libs/core/csgtree.cpp:280-346).

Simplifications: a node is known by a number instead of its address; a hit is a
tag together with the number of its node (`csgNode`, none for a null pointer);
children whose weak pointer has expired are `gone`.  The parent pointer is the
flag `hasParent` given to `process`.
-/

namespace Verif.Core.Csg

/-- libs/core/csgtree.h:70-76, without the primitive. -/
inductive Kind where
  | union
  | inter
  | diff
  deriving DecidableEq, Repr

/-- libs/core/csgtree.h:80-83, 119-123: nodes and their children. -/
inductive Node where
  | prim (id : Nat)
  | op (id : Nat) (kind : Kind) (children : List Node)
  | gone

/-- A sample with its CSG node (libs/core/imagepixel.h `SqImageSample::csgNode`). -/
structure Hit (β : Type) where
  tag : β
  node : Option Nat
  deriving DecidableEq, Repr

/-- The address of a node; none for an expired pointer.
`weak_ptr::lock`, libs/core/csgtree.cpp:96-113. -/
def Node.id? : Node → Option Nat
  | .prim i => some i
  | .op i _ _ => some i
  | .gone => none

/-- libs/core/csgtree.cpp:280-290, 305-315, 330-346: `EvaluateState`.  `none` is
the access to element 0 of an empty vector. -/
def evaluateState : Kind → List Bool → Option Bool
  | .union, ss => some (ss.any (fun s => s))
  | .inter, ss => some (ss.all (fun s => s))
  | .diff, [] => none
  | .diff, s :: ss => some (if s then !(ss.any (fun s => s)) else false)

/-- libs/core/csgtree.cpp:96-113: `isChild`. -/
def isChild (cs : List Node) : Option Nat → Option Nat
  | none => none
  | some i => cs.findIdx? (fun c => c.id? == some i)

/-- libs/core/csgtree.h:70-76: the type of the node with the given index. -/
def isPrim (cs : List Node) (j : Nat) : Bool :=
  match cs[j]? with
  | some (.prim _) => true
  | _ => false

/-- As above, for unions. libs/core/csgtree.h:70-76. -/
def isUnion (cs : List Node) (j : Nat) : Bool :=
  match cs[j]? with
  | some (.op _ .union _) => true
  | _ => false

/-- Flips one entry. libs/core/csgtree.cpp:212-243. -/
def flip (ss : List Bool) (j : Nat) : List Bool := ss.modify j (fun b => !b)

/-- libs/core/csgtree.cpp:196-206: the initial states of the children. -/
def initial (cs : List Node) : List (Option Nat) → List Bool → List Bool
  | [], ss => ss
  | none :: is, ss => initial cs is ss
  | some j :: is, ss =>
    if isPrim cs j && isUnion cs j then initial cs is (flip ss j) else initial cs is ss

/-- libs/core/csgtree.cpp:212-243: the pass over the samples.  `out` is the node
given to the samples that are kept. -/
def sweep {β : Type} (k : Kind) (out : Option Nat) :
    List (Hit β × Option Nat) → List Bool → Bool → Option (List (Hit β))
  | [], _, _ => some []
  | (h, none) :: hs, ss, cur => (sweep k out hs ss cur).map (h :: ·)
  | (h, some j) :: hs, ss, cur =>
    match evaluateState k (flip ss j) with
    | none => none
    | some new =>
      if new == cur then sweep k out hs (flip ss j) cur
      else (sweep k out hs (flip ss j) new).map ({ h with node := out } :: ·)

mutual
/-- libs/core/csgtree.cpp:166-244 for the operations, 254-265 for a primitive. -/
def process {β : Type} : Node → Bool → List (Hit β) → Option (List (Hit β))
  | .gone, _, hs => some hs
  | .prim i, _, hs =>
    some (hs.map fun h => if h.node = some i then { h with node := none } else h)
  | .op i k cs, hasParent, hs =>
    match processChildren cs hs with
    | none => none
    | some hs =>
      let idx := hs.map fun h => isChild cs h.node
      let ss := initial cs idx (cs.map fun _ => false)
      match evaluateState k ss with
      | none => none
      | some cur => sweep k (if hasParent then some i else none) (hs.zip idx) ss cur

/-- libs/core/csgtree.cpp:168-181: the children, except primitives. -/
def processChildren {β : Type} : List Node → List (Hit β) → Option (List (Hit β))
  | [], hs => some hs
  | .op i k cs :: rest, hs =>
    match process (.op i k cs) true hs with
    | none => none
    | some hs => processChildren rest hs
  | _ :: rest, hs => processChildren rest hs
end

end Verif.Core.Csg
