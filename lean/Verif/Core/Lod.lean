import Verif.Core.Cull

/-!
# Levels of detail

Model of `Detail` and `DetailRange` (libs/core/api/ri.cpp:1442-1472), `CqRenderer::PostSurface` (libs/core/renderer.cpp:1312-1357)
and of the use of the importances when samples are taken. Numbers are elements of an ordered field.
-/

namespace Verif.Core.Lod

open Verif.Math.Matrix4 Verif.Core.Cull

variable {K : Type} [Field K] [LinearOrder K] [IsStrictOrderedRing K]

/-- The range of a level: `offlow`, `onlow`, `onhigh`, `offhigh`, the attribute `LODRanges`. -/
structure Range (K : Type) where
  offlow : K
  onlow : K
  onhigh : K
  offhigh : K

/-- The attributes for levels of detail: `LODBound`, `LODRanges` and `LevelOfDetailBounds`, libs/core/attributes.cpp:127-129. -/
structure Attr (K : Type) where
  bound : Fin 6 → K
  range : Range K
  imp : K × K

/-- The initial attributes, libs/core/attributes.cpp:127-129. -/
def initial : Attr K := ⟨fun _ => 0, ⟨0, 0, 0, 0⟩, (0, 1)⟩

/-- `Detail`, libs/core/api/ri.cpp:1442-1453. -/
def detail (b : Fin 6 → K) (a : Attr K) : Attr K := { a with bound := b }

/-- `DetailRange`, libs/core/api/ri.cpp:1459-1472. -/
def detailRange (r : Range K) (a : Attr K) : Attr K :=
  if r.offlow > r.onlow ∨ r.onhigh > r.offhigh then a else { a with range := r }

/-- The bound from six numbers, libs/core/bound.h:49-60. -/
def boundOf (b : Fin 6 → K) : Box K := ⟨![b 0, b 2, b 4], ![b 1, b 3, b 5]⟩

/-- `clamp`, include/aqsis/math/math.h:101-104. -/
def clamp (x mn mx : K) : K := if x < mn then mn else if x > mx then mx else x

/-- The least importance, libs/core/renderer.cpp:1335-1339. -/
def minImportance (r : Range K) (ruler : K) : K :=
  if r.onlow = r.offlow then (if ruler < r.onlow then 1 else 0)
  else clamp ((r.onlow - ruler) / (r.onlow - r.offlow)) 0 1

/-- The greatest importance, libs/core/renderer.cpp:1341-1345. -/
def maxImportance (r : Range K) (ruler : K) : K :=
  if r.onhigh = r.offhigh then (if ruler < r.onhigh then 1 else 0)
  else clamp ((r.offhigh - ruler) / (r.offhigh - r.onhigh)) 0 1

/-- The size on the screen, libs/core/renderer.cpp:1325-1327. -/
def ruler (rel : K) (b : Box K) : K := |(b.hi 0 - b.lo 0) * (b.hi 1 - b.lo 1)| * rel

/-- What `PostSurface` does: `culled`, or the attributes that the surface has afterwards, libs/core/renderer.cpp:1312-1357. `toRaster`
is the matrix from object to raster. The outer `none`: an assertion of the transformation fails. -/
def post (big : K) (toRaster : Mat K) (rel : K) (a : Attr K) : Option (Option (Attr K)) :=
  let d := fun i => (boundOf a.bound).hi i - (boundOf a.bound).lo i
  if dot d d > 0 then
    (transform big toRaster (boundOf a.bound)).map fun b =>
      let u := ruler rel b
      let mn := minImportance a.range u
      let mx := maxImportance a.range u
      if mn ≥ mx then none else some { a with imp := (mn, mx) }
  else some (some a)

/-- The test of a sample, libs/core/bucketprocessor.cpp:1099-1101, 1183-1190 (1226, 1405-1411 and 1440-1446 are alike). -/
def taken (imp : K × K) (lod : K) : Bool :=
  if imp.1 ≥ 0 then !(decide (imp.1 > lod) || decide (lod ≥ imp.2)) else true

/-- The test of `Points`, libs/core/api/ri.cpp:2196-2200: whether the points are made. -/
def pointsMade (a : Attr K) : Bool := !decide (a.bound 1 < 0)

/-! ## Shared attributes -/

/-- A surface has its transformation and the number of its attributes: surfaces that are made without a change of attributes between
them share them (`CqSurface::m_pAttributes`, libs/core/geometry/surface.h:130-133, 602). -/
structure Surf (K : Type) where
  toRaster : Mat K
  attr : Nat

/-- Posting surfaces one after the other, with the importances written to their attributes (libs/core/renderer.cpp:1352-1353); the
result has the attributes, and the surfaces that were not culled. -/
def postAll (big rel : K) :
    List (Surf K) → (Nat → Attr K) → Option ((Nat → Attr K) × List (Surf K))
  | [], h => some (h, [])
  | s :: ss, h =>
    (post big s.toRaster rel (h s.attr)).bind fun r =>
      match r with
      | none => postAll big rel ss h
      | some a => (postAll big rel ss fun i => if i = s.attr then a else h i).map fun p => (p.1, s :: p.2)

end Verif.Core.Lod
