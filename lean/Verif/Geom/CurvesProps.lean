import Verif.Geom.CurvesLemmas

/-!
C97: curves are split into their pieces
-/

namespace Verif.Geom.Curves

open Verif.Math.Matrix4 (Mat Sound)
open Verif.Geom.Bicubic
open Spec

variable {K : Type} [Field K] [LinearOrder K] [IsStrictOrderedRing K]

/-- **C97** Linear curves of at least one vertex each are split into the pieces between successive vertices, and from the last to the
first if they are periodic; varying values go with the vertices, uniform ones with the curve, and `v` from zero to one along each curve. -/
theorem C97_linear_partial (periodic : Bool) (ns : List ℕ) (h : ∀ n ∈ ns, 1 ≤ n) :
    linGroup periodic (ns.map Int.ofNat) 0 0 = linPiecesOf periodic ns := by
  have := linGroup_eq periodic ns h 0 0
  simp only [Nat.cast_zero] at this
  rw [this]
  unfold linPiecesOf linPiece
  simp

example : linGroup true [3, 2] 0 0 = [⟨0, 1, 0, 0, 1 / 3⟩, ⟨1, 2, 0, 1 / 3, 2 / 3⟩, ⟨2, 0, 0, 2 / 3, 1⟩, ⟨3, 4, 1, 0, 1 / 2⟩,
    ⟨4, 3, 1, 1 / 2, 1⟩] := by decide +kernel

/-- **C97, disagreement.** After a curve without vertices that is not periodic the vertices of the other curves are shifted by one, since
`vertexI` is stepped although there was no vertex (libs/core/geometry/linearcurves.cpp:584-587). -/
theorem C97_linear_violated : linGroup false [0, 2] 0 0 = [⟨1, 2, 1, 0, 1⟩] ∧ linPiecesOf false [0, 2] = [⟨0, 1, 1, 0, 1⟩] := by
  constructor <;> decide +kernel

/-- **C97** Cubic curves (of at least four vertices each unless they are periodic) are split into pieces with four vertices of their own
each, varying values at the joints, uniform ones of the curve, and `v` from zero to one along each curve; the number of vertices after the
change of the basis and of varying values are those that the pieces use. -/
theorem C97_cubic_partial (step : ℕ) (periodic : Bool) (ns : List ℕ) (h : ∀ n ∈ ns, periodic = false → 4 ≤ n) :
    cubGroup step periodic (ns.map Int.ofNat) 0 0 0 = cubPiecesOf step periodic ns ∧
    nVertsBezier step periodic (ns.map Int.ofNat) = offset (fun n => 4 * cubPieces step periodic n) ns ns.length ∧
    cVarying step periodic (ns.map Int.ofNat) = offset (cubVarying step periodic) ns ns.length := by
  refine ⟨?_, ?_, ?_⟩
  · have := cubGroup_eq step periodic ns h 0 0 0
    simp only [Nat.cast_zero] at this
    rw [this]
    unfold cubPiecesOf cubPiece
    simp
  · have key : ∀ (ns : List ℕ) (_ : ∀ n ∈ ns, periodic = false → 4 ≤ n) (a : ℤ),
        (ns.map Int.ofNat).foldl (fun s n => s + 4 * segmentsPerCurve n step periodic) a =
          a + offset (fun n => 4 * cubPieces step periodic n) ns ns.length := by
      intro ns
      induction ns with
      | nil => intro _ a; simp [offset]
      | cons n ns ih =>
        intro h a
        rw [List.map_cons, List.foldl_cons, ih (fun m hm => h m (by simp [hm])), List.length_cons, offset_succ]
        have := segments_eq n step periodic (h n (by simp))
        simp only [Int.ofNat_eq_natCast]
        rw [this]; push_cast; ring
    unfold nVertsBezier
    rw [key ns h]; simp
  · have key : ∀ (ns : List ℕ) (_ : ∀ n ∈ ns, periodic = false → 4 ≤ n) (a : ℤ),
        (ns.map Int.ofNat).foldl (fun s n => s + (if periodic then n.tdiv step else ((n - 4).tdiv step + 1 + 1))) a =
          a + offset (cubVarying step periodic) ns ns.length := by
      intro ns
      induction ns with
      | nil => intro _ a; simp [offset]
      | cons n ns ih =>
        intro h a
        rw [List.map_cons, List.foldl_cons, ih (fun m hm => h m (by simp [hm])), List.length_cons, offset_succ]
        have := segments_eq n step periodic (h n (by simp))
        have e : (if periodic then (Int.ofNat n).tdiv step else ((Int.ofNat n - 4).tdiv step + 1 + 1)) = (cubVarying step periodic n : ℕ) := by
          unfold segmentsPerCurve at this
          unfold cubVarying
          cases periodic
          · simp only [Bool.false_eq_true, if_false] at this ⊢
            simp only [Int.ofNat_eq_natCast]
            rw [this]; push_cast; rfl
          · simpa using this
        rw [e]; push_cast; ring
    unfold cVarying
    have := key ns h 0
    cases periodic <;> simpa using this

/-- **C97** No piece of a curve that is not periodic goes over its end, if the curve has at least four vertices; and the last vertices are
in a piece if their number fits the steps. -/
theorem C97_cubic_fits (step n i : ℕ) (hn : 4 ≤ n) (hi : i < cubPieces step false n) :
    i * step + 3 < n ∧ (step ∣ n - 4 → (cubPieces step false n - 1) * step + 4 = n) := by
  unfold cubPieces at hi ⊢
  simp only [Bool.false_eq_true, if_false] at hi ⊢
  constructor
  · have h1 : i ≤ (n - 4) / step := by omega
    have h2 := Nat.mul_le_mul_right step h1
    have h3 := Nat.div_mul_le_self (n - 4) step
    omega
  · intro hd
    have := Nat.div_mul_cancel hd
    simp only [Nat.add_sub_cancel]
    omega

example : cubGroup 3 false [7, 4] 0 0 0 = [⟨0, 1, 2, 3, 0, 1, 0, 0, 1 / 2⟩, ⟨4, 5, 6, 7, 1, 2, 0, 1 / 2, 1⟩, ⟨8, 9, 10, 11, 3, 4, 1, 0, 1⟩] := by
  decide +kernel

/-- **C97, disagreement.** A cubic curve that is not periodic with too few vertices, three in steps of three, is made one piece that takes
its first vertex as its last: the quotient of a negative number is rounded towards zero (libs/core/geometry/cubiccurves.cpp:603 and 706). -/
theorem C97_cubic_violated : segmentsPerCurve 3 3 false = 1 ∧ segmentsPerCurve 1 3 false = 0 ∧
    (∀ p : Int → ℚ, convGroup ⟨1, false⟩ p 3 false [3] 0 = [p 0, p 1, p 2, p 0]) := by
  refine ⟨by decide, by decide, fun p => ?_⟩
  have e : (segmentsPerCurve 3 3 false).toNat = 1 := by decide
  unfold convGroup
  rw [e]
  simp [convCurve, row, convGroup]

/-- **C97** The vertices of a piece, after the change of the basis, are the control points of the Bézier curve that is the curve of the
basis for the four vertices that belong to the piece, with the first ones after the last. -/
theorem C97_basis (basis : Mat K) (hb : Sound basis) (p : Int → K) (step : ℕ) (periodic : Bool) (ns : List ℕ) (hs : 1 ≤ step)
    (h : ∀ n ∈ ns, periodic = false → 4 ≤ n) :
    ∃ T, basisTrans basis = some T ∧ ∀ c i, c < ns.length → i < cubPieces step periodic (ns.getD c 0) →
      ∃ q : Fin 4 → K,
        (∀ r : Fin 4, (convGroup T p step periodic (ns.map Int.ofNat) 0)[offset (fun n => 4 * cubPieces step periodic n) ns c + 4 * i + r.val]? =
          some (q r)) ∧
        ∀ t, bez q t = ∑ j : Fin 4, blend basis.m t j * p ((offset id ns c + (i * step + j.val) % ns.getD c 0 : ℕ) : ℤ) := by
  obtain ⟨b, e, sb, _, hbb⟩ := bezier_inverse (K := K)
  refine ⟨Verif.Math.Matrix4.mul basis b, by unfold basisTrans; rw [e]; rfl, fun c i hc hi => ?_⟩
  have hg := fun r => convGroup_get (Verif.Math.Matrix4.mul basis b) p step periodic hs ns h 0 c i r hc hi
  simp only [Nat.cast_zero, Nat.zero_add] at hg
  refine ⟨_, hg, fun t => ?_⟩
  have c1 := (Verif.Math.Matrix4.C60_product basis b hb sb).1
  have hm : (bezierBasis : Mat K).m * (Verif.Math.Matrix4.mul basis b).m = basis.m := by
    rw [c1, ← Matrix.mul_assoc, hbb, Matrix.one_mul]
  generalize (Verif.Math.Matrix4.mul basis b).m = T at hm
  rw [← hm]
  have key : ∀ P : Fin 4 → K, bez (fun r => ∑ j, T r j * P j) t = ∑ j, blend ((bezierBasis : Mat K).m * T) t j * P j := by
    intro P
    have e : blend ((bezierBasis : Mat K).m * T) t = fun j => (1 - t) ^ 3 * T 0 j + 3 * t * (1 - t) ^ 2 * T 1 j +
        3 * t ^ 2 * (1 - t) * T 2 j + t ^ 3 * T 3 j := by
      funext j
      simp only [blend, Matrix.mul_apply, Fin.sum_univ_four]
      show t ^ 3 * (-1 * T 0 j + 3 * T 1 j + -3 * T 2 j + 1 * T 3 j) + t ^ 2 * (3 * T 0 j + -6 * T 1 j + 3 * T 2 j + 0 * T 3 j) +
        t * (-3 * T 0 j + 3 * T 1 j + 0 * T 2 j + 0 * T 3 j) + (1 * T 0 j + 0 * T 1 j + 0 * T 2 j + 0 * T 3 j) = _
      ring
    rw [e]
    simp only [bez, Fin.sum_univ_four]
    ring
  exact key _

example : ∃ p : Int → ℚ, (convGroup (⟨1, false⟩ : Mat ℚ) p 1 true [4] 0).length = 16 ∧
    (convGroup (⟨1, false⟩ : Mat ℚ) p 1 true [4] 0)[15]? = some 2 := ⟨fun i => i, by decide +kernel, by decide +kernel⟩

/-- **C97** The weights of points have no part in the change of the basis: it is done with the points that they stand for. -/
theorem C97_basis_points (T : Mat K) (p0 p1 p2 p3 : HP K) (h0 : p0.h ≠ 0) (h1 : p1.h ≠ 0) (h2 : p2.h ≠ 0) (h3 : p3.h ≠ 0) (i : Fin 4) :
    (rowH T p0 p1 p2 p3 i).proj = row T p0.proj p1.proj p2.proj p3.proj i ∧ (rowH T p0 p1 p2 p3 i).h = p0.h := by
  have hp : ∀ a : HP K, a.h ≠ 0 → a.proj = a.x / a.h := by
    intro a ha
    unfold HP.proj project
    split_ifs with h
    · field_simp
    · push Not at h; rw [h]; simp
  refine ⟨?_, rfl⟩
  rw [hp _ (show (rowH T p0 p1 p2 p3 i).h ≠ 0 from h0), hp _ h0, hp _ h1, hp _ h2, hp _ h3]
  simp only [rowH, HP.add, HP.scale, row]
  field_simp

example : (rowH (⟨fun _ _ => 1 / 4, false⟩ : Mat ℚ) ⟨2, 2⟩ ⟨3, 1⟩ ⟨8, 2⟩ ⟨0, 1⟩ 0).proj = 2 := by decide +kernel

/-- **C97** The halves of a piece are the halves of its curve, for a single number at each vertex; varying numbers and linear curves
likewise. -/
theorem C97_halves_partial (p : ℕ → K) (t : K) :
    bez (fun i : Fin 4 => (subdivided false true id p).1 i) t = bez (fun i : Fin 4 => p i) (t / 2) ∧
    bez (fun i : Fin 4 => (subdivided false true id p).2 i) t = bez (fun i : Fin 4 => p i) ((1 + t) / 2) ∧
    (1 - t) * (subdivided false false id p).1 0 + t * (subdivided false false id p).1 1 = (1 - t / 2) * p 0 + t / 2 * p 1 ∧
    (1 - t) * (subdivided false false id p).2 0 + t * (subdivided false false id p).2 1 =
      (1 - (1 + t) / 2) * p 0 + (1 + t) / 2 * p 1 := by
  refine ⟨?_, ?_, ?_, ?_⟩
  · have e : (fun i : Fin 4 => (subdivided false true id p).1 i) = (halve id fun i : Fin 4 => p i).1 := by
      funext i; simp [subdivided, cubHalves]
    rw [e]; exact halve_left _ _
  · have e : (fun i : Fin 4 => (subdivided false true id p).2 i) = (halve id fun i : Fin 4 => p i).2 := by
      funext i; simp [subdivided, cubHalves]
    rw [e]; exact halve_right _ _
  · simp [subdivided, linHalves]; ring
  · simp [subdivided, linHalves]; ring

/-- **C97, disagreement.** Of an array at each vertex only the first numbers that are stored are split, as if they were those of the
vertices: with two numbers at each, the second of the halves is not half of anything (libs/core/geometry/cubiccurves.cpp:101-110 and
linearcurves.cpp:80-82); matrices are not split at all, and integers are rounded. -/
theorem C97_halves_violated :
    (∃ p : ℕ → ℚ, (∀ k, p (2 * k) = 0) ∧ (∀ k, p (2 * k + 1) = 1) ∧ (subdivided false true id p).1 2 ≠ 0 ∧
      (subdivided false false id p).1 1 ≠ 1) ∧
    (∀ (cubic : Bool) (p : ℕ → ℚ), subdivided true cubic id p = (p, p)) ∧
    (∃ p : ℕ → ℚ, p 0 = 0 ∧ p 1 = 1 ∧ (subdivided false false trunc p).1 1 = 0) := by
  refine ⟨⟨fun i => if i % 2 = 0 then 0 else 1, fun k => by simp, fun k => by simp [Nat.add_mod], ?_, ?_⟩, fun _ _ => rfl,
    ⟨fun i => i, rfl, by simp, ?_⟩⟩
  · decide +kernel
  · decide +kernel
  · decide +kernel

/-- **C97** The halves of a linear piece of points with weights: the middle is the middle of the points that they stand for. -/
theorem C97_halves_points (a b : HP K) (ha : a.h ≠ 0) (hb : b.h ≠ 0) :
    (linHalvesH a b).1.1 = a ∧ (linHalvesH a b).2.2 = b ∧ (linHalvesH a b).1.2 = (linHalvesH a b).2.1 ∧
    (linHalvesH a b).1.2.proj = (a.proj + b.proj) / 2 := by
  refine ⟨rfl, rfl, rfl, ?_⟩
  have hp : ∀ a : HP K, a.h ≠ 0 → a.proj = a.x / a.h := by
    intro a ha
    unfold HP.proj project
    split_ifs with h
    · field_simp
    · push Not at h; rw [h]; simp
  rw [hp _ (show (linHalvesH a b).1.2.h ≠ 0 from ha), hp _ ha, hp _ hb]
  simp only [linHalvesH, HP.add, HP.scale]
  field_simp

example : (linHalvesH (⟨2, 2⟩ : HP ℚ) ⟨3, 1⟩).1.2.proj = 2 := by decide +kernel

end Verif.Geom.Curves
