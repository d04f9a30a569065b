import Mathlib.Data.Rat.Floor
import Mathlib.Algebra.Order.Floor.Ring

/-!
# Gradient noise

libs/math/noise1234.cpp and libs/math/noise.cpp: the functions behind `noise` and `pnoise` of the
shading language, in one to four dimensions.

Simplifications: floats are numbers of an ordered field with a floor (rational or real numbers);
coordinates are small enough to be converted to `TqInt` (the conversion is undefined otherwise).  The
bodies of `noise` and `pnoise` of the same dimension differ in the indices of the corners only and are
written once here.
-/

namespace Verif.Math.Noise

/-- `CqNoise1234::perm`, libs/math/noise1234.cpp:70-96. -/
def table : List Nat := [
  151, 160, 137, 91, 90, 15, 131, 13, 201, 95, 96, 53, 194, 233, 7, 225,
  140, 36, 103, 30, 69, 142, 8, 99, 37, 240, 21, 10, 23, 190, 6, 148,
  247, 120, 234, 75, 0, 26, 197, 62, 94, 252, 219, 203, 117, 35, 11, 32,
  57, 177, 33, 88, 237, 149, 56, 87, 174, 20, 125, 136, 171, 168, 68, 175,
  74, 165, 71, 134, 139, 48, 27, 166, 77, 146, 158, 231, 83, 111, 229, 122,
  60, 211, 133, 230, 220, 105, 92, 41, 55, 46, 245, 40, 244, 102, 143, 54,
  65, 25, 63, 161, 1, 216, 80, 73, 209, 76, 132, 187, 208, 89, 18, 169,
  200, 196, 135, 130, 116, 188, 159, 86, 164, 100, 109, 198, 173, 186, 3, 64,
  52, 217, 226, 250, 124, 123, 5, 202, 38, 147, 118, 126, 255, 82, 85, 212,
  207, 206, 59, 227, 47, 16, 58, 17, 182, 189, 28, 42, 223, 183, 170, 213,
  119, 248, 152, 2, 44, 154, 163, 70, 221, 153, 101, 155, 167, 43, 172, 9,
  129, 22, 39, 253, 19, 98, 108, 110, 79, 113, 224, 232, 178, 185, 112, 104,
  218, 246, 97, 228, 251, 34, 242, 193, 238, 210, 144, 12, 191, 179, 162, 241,
  81, 51, 145, 235, 249, 14, 239, 107, 49, 192, 214, 31, 181, 199, 106, 157,
  184, 84, 204, 176, 115, 121, 50, 45, 127, 4, 150, 254, 138, 236, 205, 93,
  222, 114, 67, 29, 24, 72, 243, 141, 128, 195, 78, 66, 215, 61, 156, 180,
  151, 160, 137, 91, 90, 15, 131, 13, 201, 95, 96, 53, 194, 233, 7, 225,
  140, 36, 103, 30, 69, 142, 8, 99, 37, 240, 21, 10, 23, 190, 6, 148,
  247, 120, 234, 75, 0, 26, 197, 62, 94, 252, 219, 203, 117, 35, 11, 32,
  57, 177, 33, 88, 237, 149, 56, 87, 174, 20, 125, 136, 171, 168, 68, 175,
  74, 165, 71, 134, 139, 48, 27, 166, 77, 146, 158, 231, 83, 111, 229, 122,
  60, 211, 133, 230, 220, 105, 92, 41, 55, 46, 245, 40, 244, 102, 143, 54,
  65, 25, 63, 161, 1, 216, 80, 73, 209, 76, 132, 187, 208, 89, 18, 169,
  200, 196, 135, 130, 116, 188, 159, 86, 164, 100, 109, 198, 173, 186, 3, 64,
  52, 217, 226, 250, 124, 123, 5, 202, 38, 147, 118, 126, 255, 82, 85, 212,
  207, 206, 59, 227, 47, 16, 58, 17, 182, 189, 28, 42, 223, 183, 170, 213,
  119, 248, 152, 2, 44, 154, 163, 70, 221, 153, 101, 155, 167, 43, 172, 9,
  129, 22, 39, 253, 19, 98, 108, 110, 79, 113, 224, 232, 178, 185, 112, 104,
  218, 246, 97, 228, 251, 34, 242, 193, 238, 210, 144, 12, 191, 179, 162, 241,
  81, 51, 145, 235, 249, 14, 239, 107, 49, 192, 214, 31, 181, 199, 106, 157,
  184, 84, 204, 176, 115, 121, 50, 45, 127, 4, 150, 254, 138, 236, 205, 93,
  222, 114, 67, 29, 24, 72, 243, 141, 128, 195, 78, 66, 215, 61, 156, 180]

/-- A look-up in the table. -/
def perm (i : Nat) : Nat := table.getD i 0

variable {K : Type} [Field K] [LinearOrder K] [FloorRing K]

/-- The conversion to `TqInt` cuts off what is behind the point. -/
def trunc (x : K) : ℤ := if x > 0 then ⌊x⌋ else -⌊-x⌋

/-- `FASTFLOOR`, libs/math/noise1234.cpp:46. -/
def fastFloor (x : K) : ℤ := if x > 0 then trunc x else trunc x - 1

/-- `FADE`, libs/math/noise1234.cpp:44. -/
def fade (t : K) : K := t * t * t * (t * (t * 6 - 15) + 10)

/-- `NLERP`, libs/math/noise1234.cpp:47. -/
def nlerp (t a b : K) : K := a + t * (b - a)

/-- `grad` in one dimension, libs/math/noise1234.cpp:118-125. -/
def grad1 (hash : Nat) (x : K) : K :=
  let h := hash % 16
  let g : K := 1 + ((h % 8 : Nat) : K)
  (if h.testBit 3 then -g else g) * x

/-- `grad` in two dimensions, libs/math/noise1234.cpp:127-133. -/
def grad2 (hash : Nat) (x y : K) : K :=
  let h := hash % 8
  let u := if h < 4 then x else y
  let v := if h < 4 then y else x
  (if h.testBit 0 then -u else u) + (if h.testBit 1 then -2 * v else 2 * v)

/-- `grad` in three dimensions, libs/math/noise1234.cpp:135-141. -/
def grad3 (hash : Nat) (x y z : K) : K :=
  let h := hash % 16
  let u := if h < 8 then x else y
  let v := if h < 4 then y else if h = 12 ∨ h = 14 then x else z
  (if h.testBit 0 then -u else u) + (if h.testBit 1 then -v else v)

/-- `grad` in four dimensions, libs/math/noise1234.cpp:143-150. -/
def grad4 (hash : Nat) (x y z t : K) : K :=
  let h := hash % 32
  let u := if h < 24 then x else y
  let v := if h < 16 then y else z
  let w := if h < 8 then z else t
  (if h.testBit 0 then -u else u) + (if h.testBit 1 then -v else v) + (if h.testBit 2 then -w else w)

/-- What is computed for one axis: the two indices, the two distances and the weight. -/
structure Axis (K : Type) where
  i0 : Nat
  i1 : Nat
  f0 : K
  f1 : K
  s : K

/-- An axis of `noise`, libs/math/noise1234.cpp:161-167.  In two's complement `& 0xff` is the
remainder modulo 256. -/
def axis (x : K) : Axis K :=
  let ix0 := fastFloor x
  let fx0 := x - ix0
  ⟨(ix0 % 256).toNat, ((ix0 + 1) % 256).toNat, fx0, fx0 - 1, fade fx0⟩

/-- An axis of `pnoise`, libs/math/noise1234.cpp:183-190.  The remainder of C has the sign of the
dividend. -/
def paxis (x : K) (px : ℤ) : Axis K :=
  let ix0 := fastFloor x
  let fx0 := x - ix0
  let p := if px < 1 then 1 else px
  ⟨((ix0.tmod p) % 256).toNat, (((ix0 + 1).tmod p) % 256).toNat, fx0, fx0 - 1, fade fx0⟩

/-- One dimension, libs/math/noise1234.cpp:169-171 and 192-194. -/
def body1 (a : Axis K) : K :=
  let n0 := grad1 (perm a.i0) a.f0
  let n1 := grad1 (perm a.i1) a.f1
  188 / 1000 * nlerp a.s n0 n1

/-- Two dimensions, libs/math/noise1234.cpp:221-229 and 257-265. -/
def body2 (a b : Axis K) : K :=
  let nx0 := grad2 (perm (a.i0 + perm b.i0)) a.f0 b.f0
  let nx1 := grad2 (perm (a.i0 + perm b.i1)) a.f0 b.f1
  let n0 := nlerp b.s nx0 nx1
  let nx0 := grad2 (perm (a.i1 + perm b.i0)) a.f1 b.f0
  let nx1 := grad2 (perm (a.i1 + perm b.i1)) a.f1 b.f1
  let n1 := nlerp b.s nx0 nx1
  507 / 1000 * nlerp a.s n0 n1

/-- Three dimensions, libs/math/noise1234.cpp:299-319 and 355-375. -/
def body3 (a b c : Axis K) : K :=
  let nxy0 := grad3 (perm (a.i0 + perm (b.i0 + perm c.i0))) a.f0 b.f0 c.f0
  let nxy1 := grad3 (perm (a.i0 + perm (b.i0 + perm c.i1))) a.f0 b.f0 c.f1
  let nx0 := nlerp c.s nxy0 nxy1
  let nxy0 := grad3 (perm (a.i0 + perm (b.i1 + perm c.i0))) a.f0 b.f1 c.f0
  let nxy1 := grad3 (perm (a.i0 + perm (b.i1 + perm c.i1))) a.f0 b.f1 c.f1
  let nx1 := nlerp c.s nxy0 nxy1
  let n0 := nlerp b.s nx0 nx1
  let nxy0 := grad3 (perm (a.i1 + perm (b.i0 + perm c.i0))) a.f1 b.f0 c.f0
  let nxy1 := grad3 (perm (a.i1 + perm (b.i0 + perm c.i1))) a.f1 b.f0 c.f1
  let nx0 := nlerp c.s nxy0 nxy1
  let nxy0 := grad3 (perm (a.i1 + perm (b.i1 + perm c.i0))) a.f1 b.f1 c.f0
  let nxy1 := grad3 (perm (a.i1 + perm (b.i1 + perm c.i1))) a.f1 b.f1 c.f1
  let nx1 := nlerp c.s nxy0 nxy1
  let n1 := nlerp b.s nx0 nx1
  936 / 1000 * nlerp a.s n0 n1

/-- Four dimensions, libs/math/noise1234.cpp:416-460 and 505-549. -/
def body4 (a b c d : Axis K) : K :=
  let nxyz0 := grad4 (perm (a.i0 + perm (b.i0 + perm (c.i0 + perm d.i0)))) a.f0 b.f0 c.f0 d.f0
  let nxyz1 := grad4 (perm (a.i0 + perm (b.i0 + perm (c.i0 + perm d.i1)))) a.f0 b.f0 c.f0 d.f1
  let nxy0 := nlerp d.s nxyz0 nxyz1
  let nxyz0 := grad4 (perm (a.i0 + perm (b.i0 + perm (c.i1 + perm d.i0)))) a.f0 b.f0 c.f1 d.f0
  let nxyz1 := grad4 (perm (a.i0 + perm (b.i0 + perm (c.i1 + perm d.i1)))) a.f0 b.f0 c.f1 d.f1
  let nxy1 := nlerp d.s nxyz0 nxyz1
  let nx0 := nlerp c.s nxy0 nxy1
  let nxyz0 := grad4 (perm (a.i0 + perm (b.i1 + perm (c.i0 + perm d.i0)))) a.f0 b.f1 c.f0 d.f0
  let nxyz1 := grad4 (perm (a.i0 + perm (b.i1 + perm (c.i0 + perm d.i1)))) a.f0 b.f1 c.f0 d.f1
  let nxy0 := nlerp d.s nxyz0 nxyz1
  let nxyz0 := grad4 (perm (a.i0 + perm (b.i1 + perm (c.i1 + perm d.i0)))) a.f0 b.f1 c.f1 d.f0
  let nxyz1 := grad4 (perm (a.i0 + perm (b.i1 + perm (c.i1 + perm d.i1)))) a.f0 b.f1 c.f1 d.f1
  let nxy1 := nlerp d.s nxyz0 nxyz1
  let nx1 := nlerp c.s nxy0 nxy1
  let n0 := nlerp b.s nx0 nx1
  let nxyz0 := grad4 (perm (a.i1 + perm (b.i0 + perm (c.i0 + perm d.i0)))) a.f1 b.f0 c.f0 d.f0
  let nxyz1 := grad4 (perm (a.i1 + perm (b.i0 + perm (c.i0 + perm d.i1)))) a.f1 b.f0 c.f0 d.f1
  let nxy0 := nlerp d.s nxyz0 nxyz1
  let nxyz0 := grad4 (perm (a.i1 + perm (b.i0 + perm (c.i1 + perm d.i0)))) a.f1 b.f0 c.f1 d.f0
  let nxyz1 := grad4 (perm (a.i1 + perm (b.i0 + perm (c.i1 + perm d.i1)))) a.f1 b.f0 c.f1 d.f1
  let nxy1 := nlerp d.s nxyz0 nxyz1
  let nx0 := nlerp c.s nxy0 nxy1
  let nxyz0 := grad4 (perm (a.i1 + perm (b.i1 + perm (c.i0 + perm d.i0)))) a.f1 b.f1 c.f0 d.f0
  let nxyz1 := grad4 (perm (a.i1 + perm (b.i1 + perm (c.i0 + perm d.i1)))) a.f1 b.f1 c.f0 d.f1
  let nxy0 := nlerp d.s nxyz0 nxyz1
  let nxyz0 := grad4 (perm (a.i1 + perm (b.i1 + perm (c.i1 + perm d.i0)))) a.f1 b.f1 c.f1 d.f0
  let nxyz1 := grad4 (perm (a.i1 + perm (b.i1 + perm (c.i1 + perm d.i1)))) a.f1 b.f1 c.f1 d.f1
  let nxy1 := nlerp d.s nxyz0 nxyz1
  let nx1 := nlerp c.s nxy0 nxy1
  let n1 := nlerp b.s nx0 nx1
  87 / 100 * nlerp a.s n0 n1

/-- `CqNoise1234::noise`, libs/math/noise1234.cpp:155-172. -/
def noise1 (x : K) : K := body1 (axis x)

/-- `CqNoise1234::noise`, libs/math/noise1234.cpp:201-230. -/
def noise2 (x y : K) : K := body2 (axis x) (axis y)

/-- `CqNoise1234::noise`, libs/math/noise1234.cpp:272-320. -/
def noise3 (x y z : K) : K := body3 (axis x) (axis y) (axis z)

/-- `CqNoise1234::noise`, libs/math/noise1234.cpp:383-461. -/
def noise4 (x y z w : K) : K := body4 (axis x) (axis y) (axis z) (axis w)

/-- `CqNoise1234::pnoise`, libs/math/noise1234.cpp:177-195. -/
def pnoise1 (x : K) (px : ℤ) : K := body1 (paxis x px)

/-- `CqNoise1234::pnoise`, libs/math/noise1234.cpp:235-266. -/
def pnoise2 (x y : K) (px py : ℤ) : K := body2 (paxis x px) (paxis y py)

/-- `CqNoise1234::pnoise`, libs/math/noise1234.cpp:325-376. -/
def pnoise3 (x y z : K) (px py pz : ℤ) : K := body3 (paxis x px) (paxis y py) (paxis z pz)

/-- `CqNoise1234::pnoise`, libs/math/noise1234.cpp:467-550. -/
def pnoise4 (x y z w : K) (px py pz pw : ℤ) : K :=
  body4 (paxis x px) (paxis y py) (paxis z pz) (paxis w pw)

/-- Values of the shading language, as in `CqNoise::FGNoise1`, libs/math/noise.cpp:66-69. -/
def unsigned (n : K) : K := 1 / 2 * (1 + n)

/-- The period of `pnoise`, as in `CqNoise::FGPNoise1`, libs/math/noise.cpp:77-78. -/
def period (pf : K) : ℤ := fastFloor (pf + 1 / 2)

end Verif.Math.Noise
