/-
Sizes of the interpolation classes of patch meshes and curves.

Source: include/aqsis/riutil/ricxxutil.h:591-717 (sum, patchMeshIClassCounts,
curvesIClassCounts), used by libs/riutil/ricxx_validate.cpp:1453 and 1812 and by
the RIB writer.

`int` is 32 bits: every arithmetic result goes through `chk`, and a result out of
range (signed overflow) or a division by zero is the outcome `none`.
-/
namespace Verif.Riutil.Counts

/-- Result of one `int` operation; `none` is signed overflow (undefined).
Arithmetic of ricxxutil.h:591-717. -/
def chk (x : Int) : Option Int :=
  if -2147483648 ≤ x ∧ x ≤ 2147483647 then some x else none

/-- C++ `a/b` on `int`: truncating, undefined for `b = 0`. ricxxutil.h:657-658, 692-694. -/
def cdiv (a b : Int) : Option Int :=
  if b = 0 then none else chk (a.tdiv b)

/-- `SqInterpClassCounts` (include/aqsis/riutil/interpclasscounts.h). The
face classes are the constant 1 for both primitives (ricxxutil.h:671-672, 713-714). -/
structure Counts where
  uniform : Int
  varying : Int
  vertex : Int
  facevarying : Int
  facevertex : Int
deriving DecidableEq, Repr

/-- Patches along one direction of a bicubic mesh, ricxxutil.h:657-658:
`periodic ? n/step : (n-4)/step + 1`. -/
def cubicPatches (periodic : Bool) (n step : Int) : Option Int :=
  if periodic then cdiv n step
  else do
    let d ← chk (n - 4)
    let e ← cdiv d step
    chk (e + 1)

/-- Quadrilaterals along one direction of a bilinear mesh, ricxxutil.h:649-650. -/
def linearPatches (periodic : Bool) (n : Int) : Option Int :=
  if periodic then some n else chk (n - 1)

/-- `patchMeshIClassCounts`, ricxxutil.h:640-674. The string comparisons are
replaced by their results: `bilinear` for `type`, `up`/`vp` for the wrap modes. -/
def patchMesh (bilinear : Bool) (nu : Int) (up : Bool) (nv : Int) (vp : Bool)
    (ustep vstep : Int) (basisKnown : Bool) : Option Counts := do
  let (uniform, varying) ←
    (if bilinear then do
      let a ← linearPatches up nu
      let b ← linearPatches vp nv
      let u ← chk (a * b)
      let v ← chk (nu * nv)
      some (u, v)
    else if basisKnown then do
      let a ← cubicPatches up nu ustep
      let b ← cubicPatches vp nv vstep
      let u ← chk (a * b)
      let a' ← chk ((if up then 0 else 1) + a)
      let b' ← chk ((if vp then 0 else 1) + b)
      let v ← chk (a' * b')
      some (u, v)
    else some (-1, -1))
  let w ← chk (nu * nv)
  some { uniform := uniform, varying := varying, vertex := w, facevarying := 1, facevertex := 1 }

/-- `sum`, ricxxutil.h:591-597, from the partial sum `s`. -/
def sumFrom (s : Int) : List Int → Option Int
  | [] => some s
  | a :: l => (chk (s + a)).bind fun s' => sumFrom s' l

/-- The `segmentCount` loops, ricxxutil.h:692-694 and 699-701. -/
def segFrom (periodic : Bool) (step : Int) (s : Int) : List Int → Option Int
  | [] => some s
  | n :: l => (cubicPatches periodic n step).bind fun c =>
      (chk (s + c)).bind fun s' => segFrom periodic step s' l

/-- `curvesIClassCounts`, ricxxutil.h:676-717. -/
def curves (cubic : Bool) (nverts : List Int) (periodic : Bool) (step : Int)
    (basisKnown : Bool) : Option Counts := do
  let u ← chk nverts.length
  let w ← sumFrom 0 nverts
  let v ←
    if cubic then
      if basisKnown then
        if periodic then segFrom true step 0 nverts
        else do
          let s ← segFrom false step 0 nverts
          chk (s + nverts.length)
      else some (-1)
    else some w
  some { uniform := u, varying := v, vertex := w, facevarying := 1, facevertex := 1 }

end Verif.Riutil.Counts
