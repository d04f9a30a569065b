import Mathlib.Logic.Function.Basic

/-!
# Attributes and blocks

Every block of the scene description refers to an object with the attributes, every primitive to the one that was current
when it was made. The objects are shared and copied before they are changed, according to the reference counts of
`boost::shared_ptr`. An object with attributes refers to lists of parameters, which are shared and copied in the same way.

The reference counts are not stored here, they are computed from the references that exist. An object without references is
never used again; it stays in the model. Parameter values are of any type.
-/

namespace Verif.State.Attr

abbrev Name := String

/-- Types of blocks. `EqModeBlock`, libs/core/api/graphicsstate.h:48-60. (Blocks for objects and resources are not opened by
libs/core/api/ri.cpp:3132-3142, 3465-3474.) -/
inductive Ty where
  | main | frame | world | attribute | transform | solid | motion
deriving DecidableEq, Repr

/-- `CqNamedParameterList`, libs/core/parameters.h:1566-1647: a name and the values of parameters. -/
structure PList (V : Type) where
  name : Name
  params : Name → Option V

/-- A shader, plain or a list of layers (`CqLayeredShader`, libs/core/shaders.h:144-345). -/
inductive Shader where
  | plain (id : Nat)
  | layered (layers : List Nat)
deriving DecidableEq, Repr

/-- Which shader, libs/core/attributes.h:470-475. -/
inductive Kind where
  | displacement | areaLight | surface | atmosphere | interior | exterior
deriving DecidableEq, Repr

/-- `CqAttributes`, libs/core/attributes.h:468-478: the lists of parameters by name, the shaders (by their place in memory),
trim curves and lights. -/
structure AttrObj where
  table : List (Name × Nat)
  shaders : Kind → Option Nat
  trim : List Nat
  lights : List Nat

/-- A block and its attributes, `m_pattrCurrent`. -/
structure Block where
  ty : Ty
  attr : Nat
deriving DecidableEq, Repr

/-- Memory, the blocks (the current one first), and the attributes of the primitives (the last one first). -/
structure St (V : Type) where
  lists : Nat → PList V
  nLists : Nat
  attrs : Nat → AttrObj
  nAttrs : Nat
  shaders : Nat → Shader
  nShaders : Nat
  blocks : List Block
  prims : List Nat

variable {V : Type}

/-- References to an object with attributes. -/
def attrRefs (s : St V) (a : Nat) : Nat := ((s.blocks.map (·.attr) ++ s.prims).filter (· == a)).length

/-- References to a list of parameters, in the objects that are referred to. -/
def listRefs (s : St V) (l : Nat) : Nat :=
  ((List.range s.nAttrs).flatMap fun a =>
    if attrRefs s a = 0 then [] else ((s.attrs a).table.filter (·.2 == l)).map fun e => (a, e.1)).length

/-- The copy constructor, libs/core/attributes.cpp:138-145, 170-192 (it does not copy the trim curves). The table is copied
by `insert`, libs/core/attributes.h:452-461. -/
def clone (o : AttrObj) : AttrObj := { o with trim := [] }

/-- A new object. -/
def addAttr (s : St V) (o : AttrObj) : St V × Nat :=
  ({ s with attrs := Function.update s.attrs s.nAttrs o, nAttrs := s.nAttrs + 1 }, s.nAttrs)

/-- The object of the current block. -/
def cur (s : St V) : Nat := match s.blocks with
  | [] => 0
  | b :: _ => b.attr

/-- The current block refers to another object. -/
def setCur (s : St V) (a : Nat) : St V := match s.blocks with
  | [] => s
  | b :: bs => { s with blocks := { b with attr := a } :: bs }

/-- `pattrWriteCurrent` and `Write`, libs/core/api/graphicsstate.h:193-197, libs/core/attributes.h:73-80: the two references
that are not counted as others are that of the block and `pWrite`. -/
def writeCur (s : St V) : St V :=
  if attrRefs s (cur s) + 1 > 2 then
    let (s, a) := addAttr s (clone (s.attrs (cur s)))
    setCur s a
  else s

/-- Change the object of the current block. -/
def modCur (s : St V) (f : AttrObj → AttrObj) : St V :=
  { s with attrs := Function.update s.attrs (cur s) (f (s.attrs (cur s))) }

/-- `CqHashTable::Find`, libs/core/attributes.h:428-436. -/
def find (t : List (Name × Nat)) (n : Name) : Option Nat := t.lookup n

/-- `CqHashTable::Remove` and `Add`, libs/core/attributes.h:438-450. -/
def put (t : List (Name × Nat)) (n : Name) (l : Nat) : List (Name × Nat) := (n, l) :: t.filter (fun e => !(e.1 == n))

/-- `pAttributeWrite`, libs/core/attributes.h:105-123: the list to write to. The two references are that of the table and
`pAttr`. -/
def listWrite (s : St V) (n : Name) : St V × Nat :=
  match find (s.attrs (cur s)).table n with
  | some l =>
    if listRefs s l + 1 ≤ 2 then (s, l)
    else
      let s1 : St V := { s with lists := Function.update s.lists s.nLists (s.lists l), nLists := s.nLists + 1 }
      (modCur s1 fun o => { o with table := put o.table n s.nLists }, s.nLists)
  | none =>
    let s1 : St V := { s with lists := Function.update s.lists s.nLists ⟨n, fun _ => none⟩, nLists := s.nLists + 1 }
    (modCur s1 fun o => { o with table := put o.table n s.nLists }, s.nLists)

/-- `RiAttribute` and all requests that set one attribute, libs/core/api/ri.cpp:1222-1226, 1757-1841. -/
def setParam (s : St V) (n p : Name) (v : V) : St V :=
  let r := listWrite (writeCur s) n
  { r.1 with
    lists := Function.update r.1.lists r.2
      { r.1.lists r.2 with params := Function.update (r.1.lists r.2).params p (some v) } }

/-- A new shader is the current one, libs/core/api/ri.cpp:1329-1372, 1680-1696; libs/core/attributes.h:176-219. (The
shader exists. If it does not, a surface shader stays, the others become none.) -/
def setShader (s : St V) (k : Kind) (id : Nat) : St V :=
  let s1 : St V := { s with shaders := Function.update s.shaders s.nShaders (.plain id), nShaders := s.nShaders + 1 }
  modCur (writeCur s1) fun o => { o with shaders := Function.update o.shaders k (some s.nShaders) }

/-- `RiIlluminate`, libs/core/api/ri.cpp:1315-1323; libs/core/attributes.h:128-154. -/
def setLight (s : St V) (light : Nat) (on : Bool) : St V :=
  modCur (writeCur s) fun o =>
    if on then (if light ∈ o.lights then o else { o with lights := o.lights ++ [light] })
    else { o with lights := o.lights.erase light }

/-- `RiTrimCurve`, libs/core/api/ri.cpp:2787-2830 (after the first `pattrWriteCurrent` the others find no other
references). -/
def setTrim (s : St V) (loops : List Nat) : St V := modCur (writeCur s) fun o => { o with trim := loops }

/-- `RiShaderLayer`, libs/core/api/ri.cpp:3477-3546: a layer is added to the current shader, if that is made of layers.
Otherwise a new shader of layers becomes the current one. -/
def addLayer (s : St V) (k : Kind) (id : Nat) : St V :=
  let place : Option (Nat × List Nat) := match (s.attrs (cur s)).shaders k with
    | some i => (match s.shaders i with
      | .layered ls => some (i, ls)
      | .plain _ => none)
    | none => none
  match place with
  | some (i, ls) => { s with shaders := Function.update s.shaders i (.layered (ls ++ [id])) }
  | none =>
    let s1 : St V := { s with shaders := Function.update s.shaders s.nShaders (.layered [id]), nShaders := s.nShaders + 1 }
    modCur (writeCur s1) fun o => { o with shaders := Function.update o.shaders k (some s.nShaders) }

/-- Blocks that may be opened in a block. Main, libs/core/renderer.cpp:172-182: never in another; libs/core/api/graphicsstate.h:
frame 358-416; world 428-477; attribute 490-539; transform 549-598; solid 608-657; motion 754-815. -/
def allowed : Ty → Ty → Bool
  | _, .main => false
  | .main, _ => true
  | .frame, t => !(t == .frame || t == .solid)
  | .motion, _ => false
  | _, t => !(t == .frame || t == .world)

/-- Blocks that share the attributes with the block around them, libs/core/api/graphicsstate.cpp:168-179, 258-267. -/
def shares : Ty → Bool
  | .transform => true
  | .motion => true
  | _ => false

/-- `BeginXModeBlock`, libs/core/renderer.cpp:191-350; libs/core/api/graphicsstate.cpp:87-93, 114-120, 146-152, 168-179,
194-199, 258-267. -/
def beginBlock (s : St V) (t : Ty) : St V :=
  match s.blocks with
  | [] => s
  | b :: bs =>
    if allowed b.ty t then
      if shares t then { s with blocks := ⟨t, b.attr⟩ :: b :: bs }
      else
        let (s1, a) := addAttr s (clone (s.attrs b.attr))
        { s1 with blocks := ⟨t, a⟩ :: b :: bs }
    else s

/-- `EndXModeBlock`, libs/core/renderer.cpp:378-489. -/
def endBlock (s : St V) (t : Ty) : St V :=
  match s.blocks with
  | b :: b' :: bs =>
    if b.ty = t then
      if shares t then { s with blocks := { b' with attr := b.attr } :: bs } else { s with blocks := b' :: bs }
    else s
  | _ => s

/-- A primitive is made, libs/core/geometry/surface.cpp:165. -/
def makePrim (s : St V) : St V := { s with prims := cur s :: s.prims }

/-- Requests. -/
inductive Op (V : Type) where
  | param (n p : Name) (v : V)
  | shader (k : Kind) (id : Nat)
  | light (id : Nat) (on : Bool)
  | trim (loops : List Nat)
  | layer (k : Kind) (id : Nat)
  | openB (t : Ty)
  | closeB (t : Ty)
  | prim

def step (s : St V) : Op V → St V
  | .param n p v => setParam s n p v
  | .shader k id => setShader s k id
  | .light id on => setLight s id on
  | .trim loops => setTrim s loops
  | .layer k id => addLayer s k id
  | .openB t => beginBlock s t
  | .closeB t => endBlock s t
  | .prim => makePrim s

def run (s : St V) (ops : List (Op V)) : St V := ops.foldl step s

/-- After `RiBegin`: the main block and its attributes, libs/core/api/graphicsstate.cpp:60-66, libs/core/attributes.cpp:107-131
(only the list, without its parameters). -/
def initial : St V where
  lists := fun _ => ⟨"System", fun _ => none⟩
  nLists := 1
  attrs := fun _ => ⟨[("System", 0)], fun _ => none, [], []⟩
  nAttrs := 1
  shaders := fun _ => .plain 0
  nShaders := 0
  blocks := [⟨.main, 0⟩]
  prims := []

end Verif.State.Attr
