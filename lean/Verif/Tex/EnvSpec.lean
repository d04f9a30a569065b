import Verif.Tex.Env
import Verif.Tex.EwaSpec

/-!
What the theorems on regions and environment maps speak of.
-/

namespace Verif.Tex.Env.Spec
open Verif.Tex.Ewa

/-- The inner product. -/
def dot3 (u v : V3) : ℝ := u.x * v.x + u.y * v.y + u.z * v.z

/-- The point reached from `u` after `h` times `v`. -/
def along3 (u v : V3) (h : ℝ) : V3 := ⟨u.x + h * v.x, u.y + h * v.y, u.z + h * v.z⟩

/-- `q` is `p` moved by whole numbers. -/
def MovedBy (p q : V2) (m n : ℤ) : Prop := q.x = p.x - m ∧ q.y = p.y - n

/-- A face of the cube: the direction it is seen in, those to its right and its top, and its place in
the texture. -/
structure Face where
  n : V3
  right : V3
  up : V3
  col : ℝ
  row : ℝ

/-- The faces as the RenderMan interface lays them out (`RiMakeCubeFaceEnvironment`), at the places
of libs/tex/filtering/cubeenvironmentsampler.h:61-73. -/
def faces : List Face :=
  [⟨⟨1, 0, 0⟩, ⟨0, 0, -1⟩, ⟨0, 1, 0⟩, 0, 0⟩, ⟨⟨-1, 0, 0⟩, ⟨0, 0, 1⟩, ⟨0, 1, 0⟩, 0, 1⟩,
   ⟨⟨0, 1, 0⟩, ⟨1, 0, 0⟩, ⟨0, 0, -1⟩, 1, 0⟩, ⟨⟨0, -1, 0⟩, ⟨1, 0, 0⟩, ⟨0, 0, 1⟩, 1, 1⟩,
   ⟨⟨0, 0, 1⟩, ⟨1, 0, 0⟩, ⟨0, 1, 0⟩, 2, 0⟩, ⟨⟨0, 0, -1⟩, ⟨-1, 0, 0⟩, ⟨0, 1, 0⟩, 2, 1⟩]

/-- Direction `R` meets face `f`: nothing of it is longer than what is along the axis of the face. -/
def Meets (f : Face) (R : V3) : Prop :=
  0 < dot3 f.n R ∧ |R.x| ≤ dot3 f.n R ∧ |R.y| ≤ dot3 f.n R ∧ |R.z| ≤ dot3 f.n R

/-- The place on the texture at which direction `R` is seen on face `f`, for a field of view of
cotangent `k`. -/
noncomputable def seen (k : ℝ) (f : Face) (R : V3) : V2 :=
  ⟨(f.col + (1 + k * (dot3 f.right R / dot3 f.n R)) / 2) / 3,
    (f.row + (1 - k * (dot3 f.up R / dot3 f.n R)) / 2) / 2⟩

/-- The direction of a place of a map of longitudes and latitudes. -/
noncomputable def direction (p : V2) : V3 :=
  ⟨Real.sin (Real.pi * p.y) * Real.cos (2 * Real.pi * (p.x - 1 / 2)),
    Real.sin (Real.pi * p.y) * Real.sin (2 * Real.pi * (p.x - 1 / 2)), Real.cos (Real.pi * p.y)⟩

/-- The vector of length 1 in the same direction. -/
noncomputable def unit (R : V3) : V3 :=
  ⟨R.x / √(dot3 R R), R.y / √(dot3 R R), R.z / √(dot3 R R)⟩

/-- Two curves through the same point of space in the same way. -/
def SameMotion (f g : ℝ → V3) : Prop :=
  ∃ d : V3, HasDerivAt (fun h => (f h).x) d.x 0 ∧ HasDerivAt (fun h => (g h).x) d.x 0 ∧
    HasDerivAt (fun h => (f h).y) d.y 0 ∧ HasDerivAt (fun h => (g h).y) d.y 0 ∧
    HasDerivAt (fun h => (f h).z) d.z 0 ∧ HasDerivAt (fun h => (g h).z) d.z 0

end Verif.Tex.Env.Spec
