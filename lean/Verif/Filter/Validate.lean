/-!
# Model of the request validator: scopes and attribute state

`/repo/libs/riutil/ricxx_validate.cpp`.  Modelled: the scope stack, the scope check of every
request, the attribute stack (`ustep`, `vstep`) and the order in which a request checks and changes
them.  The other argument checks of a request are one flag (`ok`): they are made after the scope
check and before any change of state.  Filters further down do not throw.
-/
namespace Verif.Filter.Validate

/-- `ApiScope`, ricxx_validate.cpp:72-84 (`Scope_Resource` is never pushed). -/
inductive Scope where
  | beginEnd | frame | world | attrib | transform | solid | object | motion | archive | any
deriving DecidableEq, Repr

/-- The blocks: requests `…Begin`/`…End` that push a scope. ricxx_validate.cpp:604-2037. -/
inductive Blk where
  | frame | world | attrib | transform | solid | object | motion | archive
deriving DecidableEq, Repr

/-- The argument of `pushScope`, ricxx_validate.cpp:604-2037. -/
def Blk.scope : Blk → Scope
  | .frame => .frame
  | .world => .world
  | .attrib => .attrib
  | .transform => .transform
  | .solid => .solid
  | .object => .object
  | .motion => .motion
  | .archive => .archive

/-- The other requests, by the set of scopes they check for. ricxx_validate.cpp:604-2037. -/
inductive Group where
  | attr          -- Declare, Color, …, ErrorHandler
  | option        -- Format, …, MakeOcclusion
  | light         -- LightSource, AreaLightSource
  | coordSystem   -- CoordinateSystem
  | geometry      -- Polygon, …, Blobby
  | procedural    -- Procedural, Geometry, ObjectInstance
  | unchecked     -- IfBegin, ElseIf, Else, IfEnd, ClippingPlane, ConnectShaderLayers, Resource, ReadArchive
deriving DecidableEq, Repr

/-- ricxx_validate.cpp:604-2037. -/
inductive VReq where
  | begins (b : Blk)
  | ends (b : Blk)
  | plain (g : Group) (ok : Bool)
  | basis (ustep vstep : Int)
  | resourceBegin
  | resourceEnd
deriving DecidableEq, Repr

open Scope in
/-- Arguments of `checkScope`, ricxx_validate.cpp:604-2037; `none`: no check. -/
def allowed : VReq → Option (List Scope)
  | .begins .frame => some [beginEnd, archive]
  | .begins .world => some [beginEnd, frame, archive]
  | .begins .attrib => some [world, object, transform, attrib, solid, archive]
  | .begins .transform => some [beginEnd, world, object, transform, attrib, solid, frame, archive]
  | .begins .solid => some [world, object, transform, attrib, solid, archive]
  | .begins .object => some [beginEnd, world, transform, attrib, solid, frame, archive]
  | .begins .motion => some [beginEnd, world, object, transform, attrib, solid, frame, archive]
  | .begins .archive => none
  | .ends .frame => some [frame, archive]
  | .ends .world => some [archive, world]
  | .ends .attrib => some [archive, attrib]
  | .ends .transform => some [transform, archive]
  | .ends .solid => some [solid, archive]
  | .ends .object => some [archive, object]
  | .ends .motion => some [motion, archive]
  | .ends .archive => none
  | .plain .attr _ =>
    some [beginEnd, world, object, transform, attrib, solid, frame, archive, motion]
  | .plain .option _ => some [beginEnd, frame, archive]
  | .plain .light _ => some [beginEnd, world, transform, attrib, solid, frame, archive, motion]
  | .plain .coordSystem _ =>
    some [beginEnd, world, object, transform, attrib, solid, frame, archive]
  | .plain .geometry _ => some [motion, object, transform, world, attrib, solid, archive]
  | .plain .procedural _ => some [object, transform, world, attrib, solid, archive]
  | .plain .unchecked _ => none
  | .basis _ _ => some [beginEnd, world, object, transform, attrib, solid, frame, archive, motion]
  | .resourceBegin => none
  | .resourceEnd => none

/-- `m_scopeStack` and `m_attrStack`, ricxx_validate.cpp:85-97. -/
structure VSt where
  scopes : List Scope                -- m_scopeStack, top first
  attrs : List (Int × Int)           -- m_attrStack, top first
deriving DecidableEq, Repr

/-- ricxx_validate.cpp:125-135; `relaxed`: validating a fragment. -/
def VSt.init (relaxed : Bool) : VSt := ⟨[if relaxed then .any else .beginEnd], [(3, 3)]⟩

/-- `checkScope`, ricxx_validate.cpp:379-387 (`Scope_Any` has all bits). -/
def checkScope (s : VSt) (r : VReq) : Bool :=
  match allowed r with
  | none => true
  | some l => match s.scopes with
    | top :: _ => top = .any || l.contains top
    | [] => false

/-- ricxx_validate.cpp:99-107. -/
def pushAttrs (s : VSt) : VSt := { s with attrs := s.attrs.take 1 ++ s.attrs }
/-- `popAttributes`, ricxx_validate.cpp:103-107. -/
def popAttrs (s : VSt) : VSt := { s with attrs := if 1 < s.attrs.length then s.attrs.drop 1 else s.attrs }

/-- ricxx_validate.cpp:355-361. -/
def pushScope (s : VSt) (b : Blk) : VSt :=
  if s.scopes.head? = some .archive ∧ b ≠ .archive then s
  else { s with scopes := b.scope :: s.scopes }

/-- ricxx_validate.cpp:363-377; `none`: the assertion fails. -/
def popScope (s : VSt) (b : Blk) : Option VSt :=
  if s.scopes.length = 1 then some s
  else if s.scopes.head? = some .archive ∧ b ≠ .archive then some s
  else if s.scopes.head? = some b.scope then some { s with scopes := s.scopes.drop 1 }
  else none

/-- Passed on; rejected (379-387); failed `assert` (375): ricxx_validate.cpp. -/
inductive Verdict where
  | passed
  | rejected
  | assertFails
deriving DecidableEq, Repr

/-- One request: verdict and state afterwards. ricxx_validate.cpp:604-2037. -/
def step (s : VSt) (r : VReq) : Verdict × VSt :=
  if checkScope s r = false then (.rejected, s)
  else match r with
    | .begins b => (.passed, pushScope (if b = .transform then s else pushAttrs s) b)
    | .ends b =>
      let s1 := if b = .transform then s else popAttrs s
      match popScope s1 b with
      | some s2 => (.passed, s2)
      | none => (.assertFails, s1)
    | .plain _ ok => if ok then (.passed, s) else (.rejected, s)
    | .basis u v =>
      if 0 < u ∧ 0 < v then (.passed, { s with attrs := (u, v) :: s.attrs.drop 1 })
      else (.rejected, s)
    | .resourceBegin => (.passed, pushAttrs s)
    | .resourceEnd => (.passed, popAttrs s)

/-- All requests are passed on. ricxx_validate.cpp:604-2037. -/
def accepts (s : VSt) : List VReq → Option VSt
  | [] => some s
  | r :: rs => match step s r with
    | (.passed, s') => accepts s' rs
    | _ => none

end Verif.Filter.Validate
