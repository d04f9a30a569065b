import Verif.Math.Matrix

/-!
# The camera

Model of the options that describe the camera and of the matrices that are made from them: libs/core/options.cpp and
libs/core/api/ri.cpp. Numbers are elements of an ordered field; a division by zero is zero there. The tangent of half the field of
view is a parameter.
-/

namespace Verif.Core.Camera

open Verif.Math.Matrix4

variable {K : Type} [Field K] [LinearOrder K] [IsStrictOrderedRing K]

/-- `EqProjection`, include/aqsis/core/ioptions.h:63-68. -/
inductive Projection
  | none
  | orthographic
  | perspective
  deriving DecidableEq

/-- The options of the camera, libs/core/options.cpp:289-298. `winSet` and `farSet` are the bits of `CameraFlags`,
include/aqsis/core/ioptions.h:73-78; the option is read as 0 if it was never written (ri.cpp:586-589), and the model lets the bits
start at zero when the first of them is set. -/
structure Opts (K : Type) where
  resX : Int
  resY : Int
  par : K
  frameRatio : K
  left : K
  right : K
  top : K
  bottom : K
  near : K
  far : K
  proj : Projection
  winSet : Bool
  farSet : Bool

/-- The values at the beginning, libs/core/options.cpp:289-296; the limits of clipping (`FLT_EPSILON`, `FLT_MAX`) are parameters. -/
def initial (eps huge : K) : Opts K :=
  { resX := 640, resY := 480, par := 1, frameRatio := 4 / 3, left := -(4 / 3), right := 4 / 3, top := 1, bottom := -1,
    near := eps, far := huge, proj := .orthographic, winSet := false, farSet := false }

/-- The requests for the camera. -/
inductive Req (K : Type) where
  | format (x y : Int) (par : K)
  | frameAspectRatio (far : K)
  | screenWindow (left right bottom top : K)
  | clipping (near far : K)
  | projection (p : Projection)

/-- `Format`, `FrameAspectRatio`, `ScreenWindow`, `Clipping` and `Projection`, libs/core/api/ri.cpp:730-735, 741-747, 754-763,
811-815 and 782-801. (A projection with a name that is not known leaves the option as it is; it is not modelled. The field of view
is a parameter of the matrix.) -/
def request (o : Opts K) : Req K → Opts K
  | .format x y p => { o with resX := x, resY := y, par := if p < 0 then 1 else p }
  | .frameAspectRatio f => { o with frameRatio := f, farSet := true }
  | .screenWindow l r b t => { o with left := l, right := r, top := t, bottom := b, winSet := true }
  | .clipping n f => { o with near := n, far := f }
  | .projection p => { o with proj := p }

/-- The ratio of the frame at `WorldBegin`, libs/core/api/ri.cpp:590-597. -/
def deriveRatio (o : Opts K) : Opts K :=
  if o.farSet then o else { o with frameRatio := ((o.resX : K) * o.par) / (o.resY : K) }

/-- The screen window at `WorldBegin`, libs/core/api/ri.cpp:599-617. -/
def deriveWindow (o : Opts K) : Opts K :=
  if o.winSet then o
  else if 1 ≤ o.frameRatio then { o with left := -o.frameRatio, right := o.frameRatio, top := 1, bottom := -1 }
  else { o with left := -1, right := 1, top := 1 / o.frameRatio, bottom := -1 / o.frameRatio }

/-- The options of the camera at `WorldBegin`, libs/core/api/ri.cpp:585-617. -/
def worldBegin (o : Opts K) : Opts K := deriveWindow (deriveRatio o)

/-- The requests before `WorldBegin`, in order. libs/core/api/ri.cpp:577-617. -/
def camera (eps huge : K) (reqs : List (Req K)) : Opts K := worldBegin (reqs.foldl request (initial eps huge))

/-! ## Matrices -/

/-- `SetElement`, include/aqsis/math/matrix.h:608-611. -/
def setElement (a : Mat K) (i j : Fin 4) (v : K) : Mat K := ⟨fun x y => if x = i ∧ y = j then v else a.m x y, a.ident⟩

/-- The identity matrix with the flag reset, libs/core/options.cpp:70-71, 92-93, 122-123. -/
def blank : Mat K := ⟨(identity : Mat K).m, false⟩

/-- `matCameraToImage`, libs/core/options.cpp:59-111; `s` is the tangent of half the field of view. -/
def cameraToImage (o : Opts K) (s : K) : Mat K :=
  let n := o.near
  let f := o.far
  match o.proj with
  | .orthographic => setElement (setElement blank 2 2 (2 / (f - n))) 3 2 (-(f + n) / (f - n))
  | .perspective =>
    let a := f / (f - n)
    setElement (setElement (setElement (setElement (setElement (setElement blank 0 0 (1 / s)) 1 1 (1 / s)) 2 2 a) 3 2 (-n * a))
      2 3 1) 3 3 0
  | .none => identity

/-- `matImageToScreen`, libs/core/options.cpp:122-127. -/
def imageToScreen (o : Opts K) : Mat K :=
  let l := o.left
  let r := o.right
  let t := o.top
  let b := o.bottom
  setElement (setElement (setElement (setElement blank 0 0 (2 / (r - l))) 1 1 (2 / (t - b))) 3 0 (-(r + l) / (r - l)))
    3 1 (-(t + b) / (t - b))

/-- `matCameraToScreen`, libs/core/options.cpp:129-133; `pre` is the transform before `Projection`. -/
def cameraToScreen (o : Opts K) (s : K) (pre : Mat K) : Mat K :=
  mul (mul (imageToScreen o) pre) (cameraToImage o s)

/-- `FrameX`, libs/core/options.cpp:136-137. -/
def frameX (o : Opts K) : K := if 1 ≤ o.frameRatio then (o.resX : K) else ((o.resY : K) * o.frameRatio) / o.par

/-- `FrameY`, libs/core/options.cpp:138-139. -/
def frameY (o : Opts K) : K := if o.frameRatio < 1 then (o.resY : K) else ((o.resX : K) * o.par) / o.frameRatio

/-- `matScreenToNDC`, libs/core/options.cpp:144-151; `Translate` is include/aqsis/math/matrix.h:547-557. -/
def screenToNDC : Mat K :=
  mul (mul (scaleMat (1 / 2) (1 / 2) 1) (preMul identity (translateMat ![1, 1, 0]))) (scaleMat 1 (-1) 1)

/-- `matNDCToRaster`, libs/core/options.cpp:148, 152. -/
def ndcToRaster (o : Opts K) : Mat K := scaleMat (frameX o) (frameY o) 1

/-- The matrix of `SetmatRaster`, libs/core/options.cpp:154-158; `w` is the matrix from the world to the camera. -/
def worldToRaster (o : Opts K) (s : K) (pre w : Mat K) : Mat K :=
  mul (mul (mul (ndcToRaster o) screenToNDC) (cameraToScreen o s pre)) w

/-- The matrix from the camera to the raster: `matSpaceToSpace` is `matB * matA` with the inverse of the matrix of the camera as
`matA`, libs/core/renderer.cpp:856-860, 880-886; `none`: the matrix of the camera has no inverse. -/
def cameraToRaster (o : Opts K) (s : K) (pre w : Mat K) : Option (Mat K) :=
  (inverse w).map fun i => mul (worldToRaster o s pre w) i

/-! ## Matrices for vectors -/

/-- `oldkey[0]` and `oldresult[0]`, libs/core/renderer.cpp:66-67. -/
structure Cache (K : Type) where
  key : Mat K
  result : Mat K

/-- At the beginning both are the identity: include/aqsis/math/matrix.h:398-401, libs/core/renderer.cpp:66-67. -/
def Cache.start : Cache K := ⟨identity, identity⟩

/-- The end of `matVSpaceToSpace`, libs/core/renderer.cpp:944-960, for `a = matB * matA`. (The elements are compared as numbers; in
the program bit for bit, so that 0 and −0 differ and the matrix is made anew.) -/
def vectorMatrix (c : Cache K) (a : Mat K) : Mat K × Cache K :=
  if ((List.finRange 4).all fun i => (List.finRange 4).all fun j => decide (c.key.m i j = a.m i j)) then (c.result, c)
  else (vectorTransform a, ⟨a, vectorTransform a⟩)

/-- The scale of the circle of confusion, libs/core/options.cpp:162-171, from the matrix for vectors from the camera to the
raster; `none`: an assertion fails. -/
def dofScale (dofm : Mat K) : Option (K × K) :=
  match apply3 dofm ![1, 1, -1], apply3 dofm ![0, 0, -1] with
  | some e, some c => some (|e 0 - c 0|, |e 1 - c 1|)
  | _, _ => none

end Verif.Core.Camera
