import Mathlib.Analysis.SpecialFunctions.Trigonometric.Inverse
import Mathlib.Data.List.Range

/-!
# Cubes of small pictures around a point

Model of libs/pointrender/MicroBuf.cpp, of the projection of disks in libs/pointrender/microbuf_proj_func.cpp and of the sums
in libs/pointrender/OcclusionIntegrator.cpp. Numbers are exact; angles of cones are given by cosine and sine as in the code.
-/

namespace Verif.Point

/-- Vectors. -/
abbrev Vec := Fin 3 → ℝ

/-- `dot`, libs/pointrender/MicroBuf.h:392-394. -/
def dot (a b : Vec) : ℝ := a 0 * b 0 + a 1 * b 1 + a 2 * b 2

/-- `normalized` of Imath: a vector of length zero stays zero; used in libs/pointrender/MicroBuf.cpp:208-226. -/
noncomputable def normalized (v : Vec) : Vec := fun k => v k / Real.sqrt (dot v v)

/-- `enum Face`, libs/pointrender/MicroBuf.h:135-144. -/
inductive Face
  | xp | yp | zp | xn | yn | zn
  deriving DecidableEq, Repr

/-- The number of a face, libs/pointrender/MicroBuf.h:135-144. -/
def Face.num : Face → Nat
  | .xp => 0
  | .yp => 1
  | .zp => 2
  | .xn => 3
  | .yn => 4
  | .zn => 5

/-- The faces in order, libs/pointrender/MicroBuf.h:135-144. -/
def Face.all : List Face := [.xp, .yp, .zp, .xn, .yn, .zn]

open Face

/-- `direction` before it is normalised, libs/pointrender/MicroBuf.cpp:208-226. -/
def rawDirection (f : Face) (u v : ℝ) : Vec :=
  match f with
  | xp => ![1, v, -u]
  | yp => ![u, 1, -v]
  | zp => ![u, v, 1]
  | xn => ![-1, v, u]
  | yn => ![u, -1, v]
  | zn => ![-u, v, -1]

/-- `direction`, libs/pointrender/MicroBuf.cpp:208-226. -/
noncomputable def direction (f : Face) (u v : ℝ) : Vec := normalized (rawDirection f u v)

/-- `canonicalFaceCoords`, libs/pointrender/MicroBuf.cpp:176-194. -/
def canonicalFaceCoords (f : Face) (p : Vec) : Vec :=
  match f with
  | xp => ![-p 2, p 1, p 0]
  | xn => ![-p 2, -p 1, p 0]
  | yp => ![p 0, -p 2, p 1]
  | yn => ![-p 0, -p 2, p 1]
  | zp => ![p 0, p 1, p 2]
  | zn => ![p 0, -p 1, p 2]

/-- `faceCoords`, libs/pointrender/MicroBuf.cpp:149-155; `none`: the assertion fails. -/
noncomputable def faceCoords (f : Face) (p : Vec) : Option (ℝ × ℝ) :=
  let q := canonicalFaceCoords f p
  if q 2 = 0 then none
  else
    let zinv := 1 / q 2
    some (q 0 * zinv, q 1 * zinv)

open Classical in
/-- `faceIndex`, libs/pointrender/MicroBuf.cpp:123-133. -/
noncomputable def faceIndex (p : Vec) : Face :=
  if |p 0| ≥ |p 1| ∧ |p 0| ≥ |p 2| then (if p 0 > 0 then xp else xn)
  else if |p 1| ≥ |p 0| ∧ |p 1| ≥ |p 2| then (if p 1 > 0 then yp else yn)
  else if p 2 > 0 then zp else zn

/-- `neighbourU`, libs/pointrender/MicroBuf.cpp:135-140; `false` is side 0. -/
def neighbourU (f : Face) (side : Bool) : Face :=
  match f, side with
  | xp, false => zp
  | xp, true => zn
  | yp, false => xn
  | yp, true => xp
  | zp, false => xn
  | zp, true => xp
  | xn, false => zn
  | xn, true => zp
  | yn, false => xn
  | yn, true => xp
  | zn, false => xp
  | zn, true => xn

/-- `neighbourV`, libs/pointrender/MicroBuf.cpp:142-147. -/
def neighbourV (f : Face) (side : Bool) : Face :=
  match f, side with
  | xp, false => yn
  | xp, true => yp
  | yp, false => zp
  | yp, true => zn
  | zp, false => yn
  | zp, true => yp
  | xn, false => yn
  | xn, true => yp
  | yn, false => zn
  | yn, true => zp
  | zn, false => yn
  | zn, true => yp

/-- `dotFaceNormal`, libs/pointrender/MicroBuf.cpp:157-160. -/
def dotFaceNormal (f : Face) (p : Vec) : ℝ :=
  match f with
  | xp => p 0
  | yp => p 1
  | zp => p 2
  | xn => -p 0
  | yn => -p 1
  | zn => -p 2

/-- `faceNormal`, libs/pointrender/MicroBuf.cpp:162-166. -/
def faceNormal (f : Face) : Vec :=
  match f with
  | xp => ![1, 0, 0]
  | yp => ![0, 1, 0]
  | zp => ![0, 0, 1]
  | xn => ![-1, 0, 0]
  | yn => ![0, -1, 0]
  | zn => ![0, 0, -1]

/-- The place of a direction in the store, libs/pointrender/MicroBuf.cpp:68, 169. -/
def slot (res : Nat) (f : Face) (u v : Nat) : Nat := (f.num * res + v) * res + u

/-- The middle of a pixel, libs/pointrender/MicroBuf.cpp:66-67, 76-77. -/
noncomputable def centre (res i : Nat) : ℝ := (0.5 + i) / res * 2 - 1

/-- `rayDirection`, libs/pointrender/MicroBuf.cpp:60-71, 168-170. -/
noncomputable def rayDirection (res : Nat) (f : Face) (iu iv : Nat) : Vec := direction f (centre res iu) (centre res iv)

/-- `pixelSize`, libs/pointrender/MicroBuf.cpp:73-84, 172-174. -/
noncomputable def pixelSize (res iu iv : Nat) : ℝ :=
  let u := centre res iu
  let v := centre res iv
  let d2 := u * u + v * v + 1 * 1
  let cosFac := dotFaceNormal zp (rayDirection res zp iu iv)
  let area := (2 / (res : ℝ)) * (2 / (res : ℝ))
  area * cosFac / d2

/-! ## Culling -/

open Classical in
/-- `copysign`, used in libs/pointrender/microbuf_proj_func.cpp:117; the sign of a zero does not matter there, as the first
argument is then a zero. -/
noncomputable def copysign (x s : ℝ) : ℝ := if s < 0 then -|x| else |x|

open Classical in
/-- `sphereOutsideCone`, libs/pointrender/microbuf_proj_func.cpp:96-118. -/
noncomputable def sphereOutsideCone (p : Vec) (plen2 r : ℝ) (n : Vec) (c s : ℝ) : Bool :=
  let x := plen2 - r * r
  if x < 0 then false
  else if c < 0 ∧ x < plen2 * c * c then false
  else
    let lhs := x * c * c
    let rhs := dot p n + r * s
    decide (copysign lhs c > copysign (rhs * rhs) rhs)

/-- `solveQuadratic`, libs/pointrender/microbuf_proj_func.cpp:142-152. -/
noncomputable def solveQuadratic (a b c : ℝ) : ℝ × ℝ :=
  let det := max 0 (b * b - 4 * a * c)
  let firstTerm := -b / (2 * a)
  let secondTerm := Real.sqrt det / (2 * a)
  (firstTerm - secondTerm, firstTerm + secondTerm)

/-! ## Disks -/

/-- The coefficients `a` to `f`. -/
structure Quad where
  a : ℝ
  b : ℝ
  c : ℝ
  d : ℝ
  e : ℝ
  f : ℝ

/-- The coefficients of the ellipse in raster coordinates, from the disk in coordinates of the face,
libs/pointrender/microbuf_proj_func.cpp:248-272. -/
noncomputable def ellipse (res : Nat) (pp nn : Vec) (dot_pn plen2 r : ℝ) : Quad :=
  let A := dot_pn * dot_pn
  let B := -2 * dot_pn
  let C := plen2 - r * r
  let a0 := A + B * nn 0 * pp 0 + C * nn 0 * nn 0
  let b0 := B * (nn 0 * pp 1 + nn 1 * pp 0) + 2 * C * nn 0 * nn 1
  let c0 := A + B * nn 1 * pp 1 + C * nn 1 * nn 1
  let d0 := B * (nn 0 * pp 2 + nn 2 * pp 0) + 2 * C * nn 0 * nn 2
  let e0 := B * (nn 1 * pp 2 + nn 2 * pp 1) + 2 * C * nn 1 * nn 2
  let f0 := A + B * nn 2 * pp 2 + C * nn 2 * nn 2
  let scale : ℝ := 2 / res
  let scale2 := scale * scale
  let off := 0.5 * scale - 1
  ⟨scale2 * a0, scale2 * b0, scale2 * c0, ((2 * a0 + b0) * off + d0) * scale, ((2 * c0 + b0) * off + e0) * scale,
    (a0 + b0 + c0) * off * off + (d0 + e0) * off + f0⟩

/-- The function `q`, libs/pointrender/microbuf_proj_func.cpp:301. -/
def Quad.at (q : Quad) (u v : ℝ) : ℝ := q.a * (u * u) + q.b * (u * v) + q.c * (v * v) + q.d * u + q.e * v + q.f

open Classical in
/-- Whether the loops take a pixel of a face on which the disk is an ellipse,
libs/pointrender/microbuf_proj_func.cpp:274-302. -/
noncomputable def Quad.takes (q : Quad) (res : Nat) (iu iv : Nat) : Bool :=
  let det := 4 * q.a * q.c - q.b * q.b
  if det ≤ 0 then false
  else
    let u := solveQuadratic det (4 * q.d * q.c - 2 * q.b * q.e) (4 * q.c * q.f - q.e * q.e)
    let v := solveQuadratic det (4 * q.a * q.e - 2 * q.b * q.d) (4 * q.a * q.f - q.d * q.d)
    decide (max 0 ⌈u.1⌉ ≤ (iu : Int) ∧ (iu : Int) < min (res : Int) ⌈u.2⌉ ∧
      max 0 ⌈v.1⌉ ≤ (iv : Int) ∧ (iv : Int) < min (res : Int) ⌈v.2⌉ ∧ q.at iu iv < 0)

/-- Which faces the loop of `renderDiskExact` goes over, libs/pointrender/microbuf_proj_func.cpp:184: from `Face_begin` up to
`Face_begin`. -/
def exactFaces : List Face := Face.all.filter fun f => decide (f.num < Face.xp.num)

open Classical in
/-- The pixels to which `renderDiskExact` adds a sample, libs/pointrender/microbuf_proj_func.cpp:173-311. The code for each face
is given by `onFace`. -/
noncomputable def renderDiskExact (p : Vec) (onFace : Face → List (Nat × Nat)) : List (Face × Nat × Nat) :=
  if dot p p = 0 then []
  else exactFaces.flatMap fun f => (onFace f).map fun x => (f, x.1, x.2)

open Classical in
/-- The code of `renderDiskExact` for a face, libs/pointrender/microbuf_proj_func.cpp:189-309. -/
noncomputable def exactOnFace (res : Nat) (p n : Vec) (r : ℝ) (f : Face) : List (Nat × Nat) :=
  let pixels := (List.range res).flatMap fun iv => (List.range res).map fun iu => (iu, iv)
  let cosFace := 1 / Real.sqrt 3
  let sinFace := Real.sqrt (2 / 3)
  let pF := dotFaceNormal f p
  let nF := dotFaceNormal f n
  if sphereOutsideCone p (dot p p) r (faceNormal f) cosFace sinFace then []
  else if pF < 0 ∧ |nF| > cosFace then []
  else if (1 - nF * nF) * r * r ≥ pF * pF then
    pixels.filter fun x =>
      let V := rayDirection res f x.1 x.2
      let t := dot p n / dot V n
      decide (dot V n ≠ 0 ∧ t > 0 ∧ dot (fun k => t * V k - p k) (fun k => t * V k - p k) < r * r)
  else if pF < 0 then []
  else
    let q := ellipse res (canonicalFaceCoords f p) (canonicalFaceCoords f n) (dot p n) (dot p p) r
    pixels.filter fun x => q.takes res x.1 x.2

/-! ## Squares -/

/-- `int(x)`. Used in libs/pointrender/microbuf_proj_func.cpp:448-451. -/
noncomputable def toInt (x : ℝ) : Int := if 0 ≤ x then ⌊x⌋ else ⌈x⌉

/-- `Imath::clamp`. Used in libs/pointrender/microbuf_proj_func.cpp:448-451. -/
def clamp (a l h : Int) : Int := if a < l then l else if a > h then h else a

/-- The pixels a side of a square touches, libs/pointrender/microbuf_proj_func.cpp:448-451. -/
noncomputable def raster (b e : ℝ) (res : Nat) : Int × Int := (clamp (toInt b) 0 res, clamp (toInt e + 1) 0 res)

/-- `urange`, libs/pointrender/microbuf_proj_func.cpp:459-462. -/
noncomputable def cover (b e : ℝ) (i : Int) : ℝ := min ((i : ℝ) + 1) e - max (i : ℝ) b

/-- What is added to the pixels of a line together, libs/pointrender/microbuf_proj_func.cpp:453-465. -/
noncomputable def lineSum (b e : ℝ) (res : Nat) : ℝ :=
  let r := raster b e res
  ((List.range (r.2 - r.1).toNat).map fun k : Nat => cover b e (r.1 + (k : Int))).sum

/-! ## Occlusion -/

/-- A pixel: the product of its direction with the normal, its size and what was added to it. -/
structure Pix where
  cosine : ℝ
  size : ℝ
  value : ℝ

open Classical in
/-- The body of the loop, libs/pointrender/OcclusionIntegrator.cpp:98-104. -/
noncomputable def occBody (c : ℝ) (s : ℝ × ℝ) (x : Pix) : ℝ × ℝ :=
  let d := x.cosine - c
  if d > 0 then
    let d := d * x.size
    (s.1 + d * min 1 x.value, s.2 + d)
  else s

open Classical in
/-- `occlusion` over the pixels in order, libs/pointrender/OcclusionIntegrator.cpp:88-110. -/
noncomputable def occlusion (c : ℝ) (pixels : List Pix) : ℝ :=
  let s := pixels.foldl (occBody c) (0, 0)
  if s.2 ≠ 0 then s.1 / s.2 else s.1

end Verif.Point
