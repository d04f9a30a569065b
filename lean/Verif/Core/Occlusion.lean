import Mathlib.Order.Defs.LinearOrder
import Mathlib.Algebra.Order.Field.Rat
/-
The occlusion tree: /repo/libs/core/occlusion.cpp and occlusion.h.

Screen coordinates are of a type `α` and depths of a type `δ` with a linear
order (floats other than NaN); the only arithmetic used when culling is
`0.5 * (max + min)`, the parameter `mid`.
-/
namespace Verif.Core.Occlusion

/-- libs/core/occlusion.cpp:144-157 `SqNodeBound`. -/
structure Node (α : Type) where
  minX : α
  minY : α
  maxX : α
  maxY : α
  index : Nat
  splitInX : Bool

/-- The members of `CqOcclusionTree` (occlusion.h:140-152).  `m_depthTree` is a
map from its indices; `numTotal` is its size. -/
structure Tree (α δ : Type) where
  minX : α
  minY : α
  maxX : α
  maxY : α
  depths : Nat → δ
  firstLeaf : Nat
  numLevels : Nat
  splitXFirst : Bool
  needsUpdate : Bool

section
variable {α δ : Type} [LinearOrder α] [LinearOrder δ]

/-- include/aqsis/math/math.h:117-126 `max`. -/
def cmax {τ : Type} [LinearOrder τ] (a b : τ) : τ := if a < b then b else a

/-- include/aqsis/math/math.h:106-115 `min`. -/
def cmin {τ : Type} [LinearOrder τ] (a b : τ) : τ := if a < b then a else b

/-- Assignment to an element of `m_depthTree`. libs/core/occlusion.cpp:110-115. -/
def setAt (f : Nat → δ) (k : Nat) (v : δ) : Nat → δ := fun i => if i = k then v else f i

/-- libs/core/occlusion.cpp:135-136: the loop of `propagateDepths`, `n` being the
number of inner nodes still to do (`i = n - 1` is the next one). -/
def propagate : Nat → (Nat → δ) → (Nat → δ)
  | 0, t => t
  | i + 1, t => propagate i (setAt t i (cmax (t (2 * i + 1)) (t (2 * i + 2))))

/-- libs/core/occlusion.cpp:130-138 `propagateDepths`. -/
def propagateDepths (t : Tree α δ) : Tree α δ :=
  { t with depths := propagate (2 ^ (t.numLevels - 1) - 1) t.depths, needsUpdate := false }

/-- libs/core/occlusion.cpp:110-115 `setSampleDepth`; `none`: the assertion
fails. -/
def setSampleDepth (t : Tree α δ) (depth : δ) (index : Nat) : Option (Tree α δ) :=
  if depth ≤ t.depths index then
    some { t with depths := setAt t.depths index depth, needsUpdate := true }
  else none

/-- libs/core/occlusion.cpp:117-123 `updateTree`. -/
def updateTree (t : Tree α δ) : Tree α δ :=
  if t.needsUpdate then propagateDepths t else t

/-- The outcome of `canCull`. libs/core/occlusion.cpp:161-213. -/
inductive Cull where
  | cull (b : Bool)
  /-- The stack of 2*m_numLevels entries is exceeded (undefined). -/
  | overflow
  /-- Still looping when the fuel ran out. -/
  | looping
  deriving DecidableEq, Repr

/-- libs/core/occlusion.cpp:184-185: the cropped bound meets the node. -/
def meets (x0 y0 x1 y1 : α) (n : Node α) : Bool :=
  !(decide (x0 > n.maxX) || decide (y0 > n.maxY) || decide (x1 < n.minX) || decide (y1 < n.minY))

/-- libs/core/occlusion.cpp:198-209: the two halves of a node, in the order
pushed. -/
def halves (mid : α → α → α) (n : Node α) : Node α × Node α :=
  if n.splitInX then
    let avg := mid n.maxX n.minX
    ({ n with maxX := avg, index := n.index * 2 + 1, splitInX := !n.splitInX },
     { n with minX := avg, index := n.index * 2 + 2, splitInX := !n.splitInX })
  else
    let avg := mid n.maxY n.minY
    ({ n with maxY := avg, index := n.index * 2 + 1, splitInX := !n.splitInX },
     { n with minY := avg, index := n.index * 2 + 2, splitInX := !n.splitInX })

/-- libs/core/occlusion.cpp:179-212: the loop; `stack` has its top first, `cap`
is the size of the buffer. -/
def cullLoop (mid : α → α → α) (t : Tree α δ) (x0 y0 x1 y1 : α) (z : δ) (cap : Nat) :
    Nat → List (Node α) → Cull
  | 0, _ => .looping
  | _ + 1, [] => .cull true
  | fuel + 1, n :: stack =>
    if meets x0 y0 x1 y1 n then
      if t.depths n.index < z then cullLoop mid t x0 y0 x1 y1 z cap fuel stack
      else if t.firstLeaf ≤ n.index then .cull false
      else if cap < stack.length + 2 then .overflow
      else cullLoop mid t x0 y0 x1 y1 z cap fuel
        ((halves mid n).2 :: (halves mid n).1 :: stack)
    else cullLoop mid t x0 y0 x1 y1 z cap fuel stack

/-- libs/core/occlusion.cpp:161-213 `canCull`, for a bound with corners
`(x0,y0)` and `(x1,y1)` and nearest depth `z`. -/
def canCull (mid : α → α → α) (t : Tree α δ) (x0 y0 x1 y1 : α) (z : δ) (fuel : Nat) : Cull :=
  cullLoop mid t (cmax x0 t.minX) (cmax y0 t.minY) (cmin x1 t.maxX) (cmin y1 t.maxY) z
    (2 * t.numLevels) fuel
    [{ minX := t.minX, minY := t.minY, maxX := t.maxX, maxY := t.maxY, index := 0,
       splitInX := t.splitXFirst }]

end

/-! ### Leaf indices -/

/-- libs/core/occlusion.cpp:270-277: the loop interlacing the bits; `fuel`
bounds the number of turns. -/
def interlace : Nat → Nat → Nat → Nat → Nat → Nat
  | 0, index, _, _, _ => index
  | fuel + 1, index, x, y, bit =>
    if x ≠ 0 ∨ y ≠ 0 then
      interlace fuel (index ||| ((x &&& 1) <<< bit ||| (y &&& 1) <<< (bit + 1)))
        (x >>> 1) (y >>> 1) (bit + 2)
    else index

/-- libs/core/occlusion.cpp:249-281 `treeIndexForPoint`, for coordinates that
are not negative.  The second assertion is
`y < (1 << ((numLevels-splitXFirst)/2))`; the first one, because `!` and `/`
bind tighter than `-`, only says `x < (1 << numLevels)`.  `none`: an assertion
fails. -/
def treeIndexForPoint (numLevels : Nat) (splitXFirst : Bool) (x y : Nat) : Option Nat :=
  if 0 < numLevels ∧ x < 2 ^ numLevels ∧
      y < 2 ^ ((numLevels - (if splitXFirst then 1 else 0)) / 2) then
    let swap := (!splitXFirst) != (numLevels % 2 == 1)
    let u := if swap then y else x
    let v := if swap then x else y
    some (interlace (x + y + 1) (2 ^ (numLevels - 1)) u v 0 - 1)
  else none

/-- libs/core/occlusion.cpp:69-72: the depths in x and y are made to differ by
at most one. -/
def adjustDepths (dx dy : Nat) : Nat × Nat :=
  if dx < dy then (dy - 1, dy) else if dy < dx then (dx, dx - 1) else (dx, dy)

/-- libs/core/occlusion.cpp:92-104: a leaf for every sample, given by its
subpixel coordinates in the bucket.  `none`: an assertion fails. -/
def placeSamples {δ : Type} [LinearOrder δ] (zero fltMax : δ) (numLevels : Nat)
    (splitX : Bool) (firstLeaf numTotal : Nat) :
    List (Nat × Nat) → (Nat → δ) → Option (List Nat × (Nat → δ))
  | [], d => some ([], d)
  | (x, y) :: ps, d =>
    match treeIndexForPoint numLevels splitX x y with
    | none => none
    | some i =>
      if firstLeaf ≤ i ∧ i < numTotal ∧ d i = zero then
        match placeSamples zero fltMax numLevels splitX firstLeaf numTotal ps (setAt d i fltMax) with
        | none => none
        | some (is, d') => some (i :: is, d')
      else none

/-- The samples of a bucket in the order of `CqSampleIterator`; only the set of
them matters. libs/core/occlusion.cpp:92-104. -/
def samples (nx ny : Nat) : List (Nat × Nat) :=
  (List.range ny).flatMap (fun y => (List.range nx).map (fun x => (x, y)))

/-- libs/core/occlusion.cpp:54-107 `setupTree`.  `w`, `h`: size of the region in
pixels, `xs`, `ys`: samples per pixel, `(x0, y0)` its corner.  Coordinates are
rational numbers instead of floats.  `dx0`, `dy0` stand for
`lceil(log2(numXSubpix))` and `lceil(log2(numYSubpix))`.  Returns the leaf of each
sample too. -/
def setupTree {δ : Type} [LinearOrder δ] (zero fltMax : δ) (x0 y0 : ℚ) (w h xs ys : Nat)
    (dx0 dy0 : Nat) : Option (List Nat × Tree ℚ δ) :=
  let numX := w * xs
  let numY := h * ys
  let d := adjustDepths dx0 dy0
  let splitX := decide (d.1 ≥ d.2)
  let depth := d.1 + d.2
  let numLeaf := 2 ^ depth
  let total := 2 * numLeaf - 1
  match placeSamples zero fltMax (depth + 1) splitX (numLeaf - 1) total (samples numX numY)
      (fun _ => zero) with
  | none => none
  | some (is, dep) =>
    some (is, propagateDepths
      { minX := x0
        minY := y0
        maxX := x0 + w * ((2 : ℚ) ^ d.1 / numX)
        maxY := y0 + h * ((2 : ℚ) ^ d.2 / numY)
        depths := dep
        firstLeaf := numLeaf - 1
        numLevels := depth + 1
        splitXFirst := splitX
        needsUpdate := false })

end Verif.Core.Occlusion
