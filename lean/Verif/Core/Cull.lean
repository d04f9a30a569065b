import Verif.Math.Matrix

/-!
# Bounds and culling

Model of `CqBound` (libs/core/bound.h, libs/core/bound.cpp), of clipping volumes (libs/core/clippingvolume.h), of the bounds of moving
and displaced surfaces and of `CqImageBuffer::CullSurface`. Numbers are elements of an ordered field; rounding is not modelled.
-/

namespace Verif.Core.Cull

open Verif.Math.Matrix4

variable {K : Type} [Field K] [LinearOrder K] [IsStrictOrderedRing K]

/-- Points and vectors. -/
abbrev Pt (K : Type) := Fin 3 → K

/-- `CqBound`, libs/core/bound.h:282-285. -/
structure Box (K : Type) where
  lo : Pt K
  hi : Pt K

/-- The box with which a search for a bound begins, libs/core/bound.h:62-70; `big` is `FLT_MAX`. -/
def start (big : K) : Box K := ⟨fun _ => big, fun _ => -big⟩

/-- The corners, libs/core/bound.cpp:78-86 (and 59-66). -/
def corners (b : Box K) : List (Pt K) :=
  [b.lo,
   ![b.hi 0, b.lo 1, b.lo 2],
   ![b.lo 0, b.hi 1, b.lo 2],
   ![b.lo 0, b.lo 1, b.hi 2],
   ![b.hi 0, b.hi 1, b.lo 2],
   ![b.lo 0, b.hi 1, b.hi 2],
   ![b.hi 0, b.lo 1, b.hi 2],
   b.hi]

/-- The comparisons with one corner, libs/core/bound.cpp:95-107. -/
def grow (b : Box K) (p : Pt K) : Box K :=
  ⟨fun i => if p i < b.lo i then p i else b.lo i, fun i => if p i > b.hi i then p i else b.hi i⟩

/-- `Transform`, libs/core/bound.cpp:75-109; `none`: an assertion of the transformation of a corner fails. -/
def transform (big : K) (m : Mat K) (b : Box K) : Option (Box K) :=
  ((corners b).mapM (apply3 m)).map fun ps => ps.foldl grow (start big)

/-- `Encapsulate` of a bound, libs/core/bound.cpp:117-126. -/
def encapsulate (a b : Box K) : Box K := ⟨fun i => min (a.lo i) (b.lo i), fun i => max (a.hi i) (b.hi i)⟩

/-- `Encapsulate` of a point, libs/core/bound.cpp:134-143. -/
def encapsulatePt (a : Box K) (p : Pt K) : Box K := ⟨fun i => min (a.lo i) (p i), fun i => max (a.hi i) (p i)⟩

/-- `Contains3D`, libs/core/bound.h:135-143. -/
def contains3D (b : Box K) (p : Pt K) : Bool :=
  (decide (p 0 ≥ b.lo 0) && decide (p 0 ≤ b.hi 0)) && (decide (p 1 ≥ b.lo 1) && decide (p 1 ≤ b.hi 1)) &&
    (decide (p 2 ≥ b.lo 2) && decide (p 2 ≤ b.hi 2))

/-- `Contains2D` of a bound, libs/core/bound.h:127-134. -/
def contains2D (a b : Box K) : Bool :=
  (decide (b.lo 0 ≥ a.lo 0) && decide (b.hi 0 ≤ a.hi 0)) && (decide (b.lo 1 ≥ a.lo 1) && decide (b.hi 1 ≤ a.hi 1))

/-- `Intersects`, libs/core/bound.h:153-160. -/
def intersects (b : Box K) (mn mx : K × K) : Bool :=
  !(decide (mn.1 > b.hi 0) || decide (mn.2 > b.hi 1) || decide (mx.1 < b.lo 0) || decide (mx.2 < b.lo 1))

/-! ## Planes -/

/-- `CqPlane`, libs/core/plane.h:35-76. -/
structure Plane (K : Type) where
  a : K
  b : K
  c : K
  d : K

/-- A plane through a point, libs/core/plane.h:38-44. -/
def Plane.mk' (p n : Pt K) : Plane K := ⟨n 0, n 1, n 2, -(dot n p)⟩

/-- `whichSide(p) == Space_Positive`, libs/core/plane.h:64-72. -/
def Plane.positive (pl : Plane K) (p : Pt K) : Bool := decide (pl.a * p 0 + pl.b * p 1 + pl.c * p 2 + pl.d > 0)

/-- `EqPlaneSide`, libs/core/bound.h:162-167. -/
inductive Side where
  | outside
  | both
  | inside
  deriving DecidableEq

/-- The corners in the order of `whichSideOf`, libs/core/bound.h:175, 181, 195-196, 209, 222-224, 237, 250-251, 264. -/
def sideCorners (b : Box K) : List (Pt K) :=
  [![b.lo 0, b.lo 1, b.lo 2],
   ![b.lo 0, b.lo 1, b.hi 2],
   ![b.lo 0, b.hi 1, b.lo 2],
   ![b.lo 0, b.hi 1, b.hi 2],
   ![b.hi 0, b.lo 1, b.lo 2],
   ![b.hi 0, b.lo 1, b.hi 2],
   ![b.hi 0, b.hi 1, b.lo 2],
   ![b.hi 0, b.hi 1, b.hi 2]]

/-- The tests of the corners with the flags `inside` and `outside`, libs/core/bound.h:176-277; at the first corner no test returns
since the flags are not set. -/
def sideLoop (pl : Plane K) : List (Pt K) → Bool → Bool → Side
  | [], inside, _ => if inside then .inside else .outside
  | p :: ps, inside, outside =>
    if pl.positive p then
      if outside then .both else sideLoop pl ps true outside
    else
      if inside then .both else sideLoop pl ps inside true

/-- `whichSideOf`, libs/core/bound.h:169-278. -/
def whichSideOf (b : Box K) (pl : Plane K) : Side := sideLoop pl (sideCorners b) false false

/-- The loop of `whereIs`, libs/core/clippingvolume.h:59-69. -/
def whereLoop (b : Box K) : List (Plane K) → Bool → Side
  | [], both => if both then .both else .inside
  | pl :: pls, both =>
    match whichSideOf b pl with
    | .outside => .outside
    | .both => whereLoop b pls true
    | .inside => whereLoop b pls both

/-- `CqClippingVolume::whereIs`, libs/core/clippingvolume.h:57-70. The call in `CullSurface` is disabled,
libs/core/imagebuffer.cpp:276-281. -/
def whereIs (b : Box K) (pls : List (Plane K)) : Side := whereLoop b pls false

/-! ## Motion -/

/-- The transformations of an object (object to world) and of the camera (world to camera) at each time,
`matObjectToWorld`, libs/core/transform.cpp:290-300. -/
structure Frame (K : Type) where
  obj : K → Mat K
  cam : K → Mat K

/-- `matSpaceToSpace("object", "camera", …)`, libs/core/renderer.cpp:848-852, 876-880, 886. -/
def objectToCamera (f : Frame K) (t : K) : Mat K := mul (f.cam t) (f.obj t)

/-- `matSpaceToSpace("camera", "object", …)`, libs/core/renderer.cpp:856-860, 868-872, 886; `none`: a matrix has no inverse. -/
def cameraToObject (f : Frame K) (t : K) : Option (Mat K) := do
  let a ← inverse (f.cam t)
  let b ← inverse (f.obj t)
  some (mul b a)

/-- A point of a surface in camera space: from object to world at the opening of the shutter (libs/core/api/ri.cpp:1858-1864;
libs/core/renderer.cpp:510-516), then to the camera at the time 0 (libs/core/renderer.cpp:1267-1271). -/
def stored (f : Frame K) (shutter : K) (p : Pt K) : Option (Pt K) := do
  let w ← apply3 (f.obj shutter) p
  apply3 (f.cam 0) w

/-- A point of a grid at a key, libs/core/micropolygon.cpp:652-653, 687, 692-697. -/
def gridAt (f : Frame K) (shutter k : K) (P : Pt K) : Option (Pt K) := do
  let m ← cameraToObject f shutter
  let q ← apply3 m P
  apply3 (objectToCamera f k) q

/-- The loop over the keys, libs/core/geometry/surface.cpp:133-141. -/
def adjustLoop (big : K) (f : Frame K) (b0 : Box K) : List K → Box K → Option (Box K)
  | [], acc => some acc
  | k :: ks, acc => (transform big (objectToCamera f k) b0).bind fun bt => adjustLoop big f b0 ks (encapsulate acc bt)

/-- `AdjustBoundForTransformationMotion`, libs/core/geometry/surface.cpp:109-143. The keys are those of the map of lines 117-122, in
order and without repetitions. -/
def adjust (big : K) (f : Frame K) (keys : List K) (b : Box K) : Option (Box K) :=
  if keys.length > 1 then do
    let m ← cameraToObject f 0
    let b0 ← transform big m b
    adjustLoop big f b0 keys b
  else some b

/-- The bound of a deforming surface from those of its keys, libs/core/geometry/surface.h:632-643. -/
def deforming (big : K) (bs : List (Box K)) : Box K := bs.foldl encapsulate (start big)

/-! ## Displacement -/

/-- The bound is expanded for displacement, libs/core/imagebuffer.cpp:373-390; `m` is the matrix for vectors from
`coordinatesystem` to the camera, `sqrt` the square root. -/
def displace (sqrt : K → K) (m : Mat K) (db : K) (b : Box K) : Option (Box K) :=
  if db ≠ 0 then
    (apply3 m ![db, 0, 0]).map fun v =>
      let e := sqrt (dot v v)
      ⟨fun i => b.lo i - e, fun i => b.hi i + e⟩
  else some b

/-! ## Culling -/

/-- What `CullSurface` takes from the options: clipping planes, `FLT_EPSILON`, `maxEyeSplits`, filter widths, crop window, the matrix
from camera to raster and the circle of confusion of a depth if depth of field is in use. -/
structure Opts (K : Type) where
  near : K
  far : K
  eps : K
  maxEyeSplits : Int
  xFilt : K
  yFilt : K
  xMin : K
  xMax : K
  yMin : K
  yMax : K
  toRaster : Mat K
  coc : Option (K → K × K)

/-- What happens to a surface: it is culled; it is kept without a raster bound, and may not be diced; it is kept with a bound. -/
inductive Res (K : Type) where
  | culled
  | undiceable
  | kept (b : Box K)

/-- The expansion for depth of field, libs/core/imagebuffer.cpp:313-323. -/
def dofExpand (coc : Option (K → K × K)) (minz maxz : K) (b : Box K) : Box K :=
  match coc with
  | none => b
  | some c =>
    let x := max (c minz).1 (c maxz).1
    let y := max (c minz).2 (c maxz).2
    ⟨![b.lo 0 - x, b.lo 1 - y, b.lo 2], ![b.hi 0 + x, b.hi 1 + y, b.hi 2]⟩

/-- The expansion for the filter, libs/core/imagebuffer.cpp:326-329. -/
def filterExpand (fx fy : K) (b : Box K) : Box K :=
  ⟨![b.lo 0 - fx / 2, b.lo 1 - fy / 2, b.lo 2], ![b.hi 0 + fx / 2, b.hi 1 + fy / 2, b.hi 2]⟩

/-- `CullSurface`, libs/core/imagebuffer.cpp:268-345; `none`: an assertion of the transformation fails. -/
def cull (big : K) (o : Opts K) (splitCount : Int) (b : Box K) : Option (Res K) :=
  if b.lo 2 ≥ o.far ∨ b.hi 2 ≤ o.near then some .culled
  else if b.lo 2 ≤ o.eps then
    if splitCount > o.maxEyeSplits then some .culled else some .undiceable
  else
    (transform big o.toRaster b).map fun r =>
      let c := filterExpand o.xFilt o.yFilt (dofExpand o.coc (b.lo 2) (b.hi 2) r)
      if c.lo 0 > o.xMax ∨ c.lo 1 > o.yMax ∨ c.hi 0 < o.xMin ∨ c.hi 1 < o.yMin then .culled
      else .kept ⟨![c.lo 0, c.lo 1, b.lo 2], ![c.hi 0, c.hi 1, b.hi 2]⟩

end Verif.Core.Cull
