import Verif.Geom.Bicubic

/-!
# Points with a weight

`CqVector4D`, include/aqsis/math/vector4d.h, with the operators that patches and curves are split and diced with. The three coordinates
are treated alike: a point is one of them with the weight. Divisions by a weight of zero, which give infinities, are left out: the
theorems ask for weights other than zero.
-/

namespace Verif.Geom.Bicubic

variable {K : Type} [Field K] [LinearOrder K] [IsStrictOrderedRing K]

/-- One coordinate and the weight of a `CqVector4D`, include/aqsis/math/vector4d.h:281-284. -/
structure HP (K : Type) where
  x : K
  h : K
  deriving DecidableEq, Repr

/-- `operator+=`, include/aqsis/math/vector4d.h:337-346. -/
def HP.add (a b : HP K) : HP K := ⟨a.x + b.x * (a.h / b.h), a.h⟩

/-- `operator-=`, include/aqsis/math/vector4d.h:354-363. -/
def HP.sub (a b : HP K) : HP K := ⟨a.x - b.x * (a.h / b.h), a.h⟩

/-- `operator*=` with a number, include/aqsis/math/vector4d.h:419-436. -/
def HP.scale (a : HP K) (c : K) : HP K := ⟨a.x * c, a.h⟩

/-- `operator/=` with a number, include/aqsis/math/vector4d.h:444-449. -/
def HP.quot (a : HP K) (c : K) : HP K := ⟨a.x, a.h * c⟩

/-- `vectorCast<CqVector3D>`, include/aqsis/math/vectorcast.h:123-135. -/
def HP.proj (a : HP K) : K := project a.x a.h

/-- What forward differences do with points, libs/core/forwarddiff.h:73-91. -/
def hOps : Ops K (HP K) := ⟨HP.add, HP.scale, id⟩

/-- One row or column of `bicubicPatchNatSubdiv` for points, libs/core/geometry/patch.cpp:101-110, 117-126. -/
def halveH (p : Fin 4 → HP K) : (Fin 4 → HP K) × (Fin 4 → HP K) :=
  let a1 := ((p 0).add (p 1)).quot 2
  let a2 := (a1.quot 2).add (((p 1).add (p 2)).quot 4)
  let b2 := ((p 2).add (p 3)).quot 2
  let b1 := (b2.quot 2).add (((p 1).add (p 2)).quot 4)
  let m := (a2.add b1).quot 2
  (![p 0, a1, a2, m], ![m, b1, b2, p 3])

/-- `bicubicPatchNatSubdiv` for points, libs/core/geometry/patch.cpp:87-129, 149-151. -/
def natSubdivH (u : Bool) (p : Net (HP K)) : Net (HP K) × Net (HP K) :=
  if u then (fun iv => (halveH (p iv)).1, fun iv => (halveH (p iv)).2)
  else (fun iv iu => (halveH fun k => p k iu).1 iv, fun iv iu => (halveH fun k => p k iu).2 iv)

/-- `Bound` of a patch, libs/core/geometry/patch.cpp:172-197. -/
def boundH (big : K) (p : Net (HP K)) : K × K := patchBound big (fun i j => (p i j).x) (fun i j => (p i j).h)

end Verif.Geom.Bicubic
