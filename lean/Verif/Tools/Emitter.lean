import Mathlib.Analysis.SpecialFunctions.Pow.Real

/-!
# Model of the emitter of hairs on a mesh

`EmitterMesh`, `/repo/tools/procedurals/hairgen/emitter.cpp` and `emitter.h`.

Simplifications: numbers of type float are real; `int` does not overflow.
-/

namespace Verif.Tools.Emitter

/-- Outcomes: a value, a failed assertion, or undefined behaviour. -/
inductive Res (α : Type) where
  | ok (a : α)
  | abort
  | ub

/-- Sequencing of outcomes. -/
def Res.bind {α β : Type} : Res α → (α → Res β) → Res β
  | .ok a, f => f a
  | .abort, _ => .abort
  | .ub, _ => .ub

/-- `Vec3`, tools/procedurals/hairgen/util.h:43. -/
@[ext] structure V where
  x : ℝ
  y : ℝ
  z : ℝ

/-- `operator-` of vectors, include/aqsis/math/vector3d.h:554-557. -/
def V.sub (a b : V) : V := ⟨a.x - b.x, a.y - b.y, a.z - b.z⟩

/-- `operator%` of vectors, the cross product, include/aqsis/math/vector3d.h:609-614. -/
def V.cross (a b : V) : V := ⟨a.y * b.z - a.z * b.y, a.z * b.x - a.x * b.z, a.x * b.y - a.y * b.x⟩

/-- `Magnitude`, include/aqsis/math/vector3d.h:345-353. -/
noncomputable def V.mag (a : V) : ℝ := Real.sqrt (a.x * a.x + a.y * a.y + a.z * a.z)

/-- `triangleArea`, tools/procedurals/hairgen/emitter.cpp:204-210. -/
noncomputable def triangleArea (p0 p1 p2 : V) : ℝ := ((p0.sub p1).cross (p1.sub p2)).mag / 2

/-- `faceArea`, tools/procedurals/hairgen/emitter.cpp:213-219, for the positions of the vertices of
the face: one triangle for each three vertices in a row. -/
noncomputable def faceArea : List V → ℝ
  | a :: b :: c :: rest => triangleArea a b c + faceArea (b :: c :: rest)
  | _ => 0

/-- `MeshFace`, tools/procedurals/hairgen/emitter.h:109-127. -/
structure Face where
  /-- `v`, of the length `numVerts` -/
  v : List Nat
  faceVaryingIndex : Nat
  weight : ℝ

/-- Positions of vertices; none past the end. -/
def lookup (P : List V) : List Nat → Option (List V)
  | [] => some []
  | i :: is =>
    match P[i]?, lookup P is with
    | some p, some ps => some (p :: ps)
    | _, _ => none

/-- The loop of `createFaceList`, tools/procedurals/hairgen/emitter.cpp:244-258: the faces so far, the
total weight, the start of the face and the number of vertices. `asserts` is whether assertions are
compiled in. -/
noncomputable def faceLoop (asserts : Bool) (P : List V) (verts : List Nat) :
    List Nat → List Face → ℝ → Nat → Nat → Res (List Face × ℝ)
  | [], faces, tot, _, _ => .ok (faces, tot)
  | n :: ns, faces, tot, faceStart, totVerts =>
    if n ≠ 3 ∧ n ≠ 4 then
      if asserts then .abort else faceLoop asserts P verts ns faces tot faceStart totVerts
    else if verts.length < faceStart + n then .ub
    else
      let v := (verts.drop faceStart).take n
      match lookup P v with
      | none => .ub
      | some ps =>
        let w := faceArea ps
        faceLoop asserts P verts ns (faces ++ [⟨v, totVerts, w⟩]) (tot + w) (faceStart + n) (totVerts + n)

/-- `createFaceList`, tools/procedurals/hairgen/emitter.cpp:234-263; line 262 goes through as many
faces as there are in `nverts`. A total weight of zero has infinite or undefined numbers for weights;
they are 0 here. -/
noncomputable def createFaceList (asserts : Bool) (P : List V) (nverts verts : List Nat) : Res (List Face) :=
  (faceLoop asserts P verts nverts [] 0 0 0).bind fun r =>
    if r.1.length < nverts.length then .ub
    else .ok (r.1.map fun f => { f with weight := f.weight * (1 / r.2) })

/-- Number of particles of a face, tools/procedurals/hairgen/emitter.cpp:71-74, for a random number. -/
noncomputable def numParticles (weight : ℝ) (tot : Nat) (rand : ℝ) : ℤ :=
  let n := ⌊weight * tot⌋
  if weight * tot - n > rand then n + 1 else n

/-- `u` and `v`, tools/procedurals/hairgen/emitter.cpp:120-125, for the offset and the quasi-random
number. -/
noncomputable def wrapped (offset q : ℝ) : ℝ := if offset + q > 1 then offset + q - 1 else offset + q

/-- The weights of the vertices, tools/procedurals/hairgen/emitter.cpp:126-145. -/
noncomputable def weights (numVerts : Nat) (u v : ℝ) : List ℝ :=
  if numVerts = 3 then
    let u' := if u + v > 1 then 1 - u else u
    let v' := if u + v > 1 then 1 - v else v
    [1 - u' - v', u', v', 0]
  else [(1 - u) * (1 - v), (1 - u) * v, u * v, u * (1 - v)]

/-- Classes of variables on a mesh. -/
inductive Cls where
  | constant | uniform | varying | vertex | facevarying | facevertex
  deriving DecidableEq

/-- Where the values of a class for vertex `i` of the face start, in units of the stride,
tools/procedurals/hairgen/emitter.cpp:159-176; none for classes without interpolation. -/
def sourceIndex (c : Cls) (f : Face) (i : Nat) : Option Nat :=
  match c with
  | .varying | .vertex => f.v[i]?
  | .facevarying | .facevertex => if i < f.v.length then some (f.faceVaryingIndex + i) else none
  | _ => none

/-- One component of an interpolated value, tools/procedurals/hairgen/emitter.cpp:182-190: the sum over
the vertices from `i` on. -/
noncomputable def interpolate (c : Cls) (f : Face) (stride k : Nat) (value : List ℝ) :
    Nat → List ℝ → ℝ → Res ℝ
  | _, [], acc => .ok acc
  | i, w :: ws, acc =>
    if i < f.v.length then
      match sourceIndex c f i with
      | none => .ub
      | some s =>
        match value[stride * s + k]? with
        | none => .ub
        | some x => interpolate c f stride k value (i + 1) ws (acc + x * w)
    else .ok acc

end Verif.Tools.Emitter
