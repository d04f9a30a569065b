import Verif.Geom.RibbonLemmas

/-!
C98: ribbons of curves
-/

namespace Verif.Geom.Curves

open Verif.Math.Matrix4 (Mat Sound)
open Verif.Geom.Bicubic
open Spec

/-- **C98** Inside a piece the tangent is a third of the derivative of the curve. -/
theorem C98_tangent (P : Fin 4 → V3) (u : ℝ) (h0 : u ≠ 0) (h1 : u ≠ 1) (j : Fin 3) :
    HasDerivAt (fun t => bez (fun k => P k j) t) (3 * tangent P u j) u := by
  unfold tangent
  rw [if_neg h0, if_neg h1]
  exact bez_deriv _ u

/-- **C98** At the ends of a piece it is the derivative as well if that is not tiny beside the curve; and it is not zero unless all the
control points are the same. -/
theorem C98_tangent_ends (P : Fin 4 → V3) :
    ((∀ k : Fin 4, 1 / 1000000 * inner (fun j => P k j - P 0 j) (fun j => P k j - P 0 j) <
        inner (fun j => P 1 j - P 0 j) (fun j => P 1 j - P 0 j)) →
      ∀ j, HasDerivAt (fun t => bez (fun k => P k j) t) (3 * tangent P 0 j) 0) ∧
    ((∀ k : Fin 4, 1 / 1000000 * inner (fun j => P 3 j - P k j) (fun j => P 3 j - P k j) <
        inner (fun j => P 3 j - P 2 j) (fun j => P 3 j - P 2 j)) →
      ∀ j, HasDerivAt (fun t => bez (fun k => P k j) t) (3 * tangent P 1 j) 1) ∧
    (P 1 = P 0 → (∀ k : Fin 4, 1 / 1000000 * inner (fun j => P k j - P 0 j) (fun j => P k j - P 0 j) <
        inner (fun j => P 2 j - P 0 j) (fun j => P 2 j - P 0 j)) → tangent P 0 = fun j => P 2 j - P 0 j) ∧
    (P 2 = P 3 → (∀ k : Fin 4, 1 / 1000000 * inner (fun j => P 3 j - P k j) (fun j => P 3 j - P k j) <
        inner (fun j => P 3 j - P 1 j) (fun j => P 3 j - P 1 j)) → tangent P 1 = fun j => P 3 j - P 1 j) ∧
    (tangent P 0 = 0 ↔ ∀ k, P k = P 0) ∧ (tangent P 1 = 0 ↔ ∀ k, P k = P 3) := by
  have deriv : ∀ (j : Fin 3) (u : ℝ), HasDerivAt (fun t => bez (fun k => P k j) t)
      (3 * ((-(u * u) + 2 * u - 1) * P 0 j + (3 * (u * u) - 4 * u + 1) * P 1 j + (-3 * (u * u) + 2 * u) * P 2 j + u * u * P 3 j)) u := by
    intro j u
    exact bez_deriv _ u
  have small : ∀ a b c x : V3, 1 / 1000000 * dot a a < dot x x → 1 / 1000000 * dot b b < dot x x → 1 / 1000000 * dot c c < dot x x →
      1 / 1000000 * max (max (dot a a) (dot b b)) (dot c c) < dot x x := by
    intro a b c x h1 h2 h3
    rcases max_choice (max (dot a a) (dot b b)) (dot c c) with e | e <;> rw [e]
    · rcases max_choice (dot a a) (dot b b) with e | e <;> rw [e] <;> assumption
    · assumption
  have first : ∀ a b c : V3, 1 / 1000000 * max (max (dot a a) (dot b b)) (dot c c) < dot a a → chooseTangent a b c = a := by
    intro a b c h; unfold chooseTangent; exact if_pos h
  have second : ∀ a b c : V3, a = 0 → 1 / 1000000 * max (max (dot a a) (dot b b)) (dot c c) < dot b b → chooseTangent a b c = b := by
    intro a b c h0 h
    unfold chooseTangent
    have : ¬ dot a a > 1 / 1000000 * max (max (dot a a) (dot b b)) (dot c c) := by
      have e : dot a a = 0 := (dot_self_zero a).mpr h0
      have h3 := le_max_left (max (dot a a) (dot b b)) (dot c c)
      have h4 := le_max_left (dot a a) (dot b b)
      intro hh
      rw [e] at hh h4
      rw [e] at h3
      linarith
    rw [if_neg this, if_pos h]
  have none' : ∀ a b c : V3, chooseTangent a b c = 0 ↔ a = 0 ∧ b = 0 ∧ c = 0 := by
    intro a b c
    have ha := dot_self_nonneg a
    have hb := dot_self_nonneg b
    have hc := dot_self_nonneg c
    constructor
    · intro h
      unfold chooseTangent at h
      have h1 := le_max_left (max (dot a a) (dot b b)) (dot c c)
      have h2 := le_max_left (dot a a) (dot b b)
      by_cases c1 : dot a a > 1 / 1000000 * max (max (dot a a) (dot b b)) (dot c c)
      · rw [if_pos c1] at h
        rw [(dot_self_zero a).mpr h] at c1 h2
        rw [(dot_self_zero a).mpr h] at h1
        linarith
      · rw [if_neg c1] at h
        by_cases c2 : dot b b > 1 / 1000000 * max (max (dot a a) (dot b b)) (dot c c)
        · rw [if_pos c2] at h
          have e := (dot_self_zero b).mpr h
          linarith
        · rw [if_neg c2] at h
          have e := (dot_self_zero c).mpr h
          have m : max (max (dot a a) (dot b b)) (dot c c) = 0 := by
            have hm0 : 0 ≤ max (max (dot a a) (dot b b)) (dot c c) := le_trans (le_trans ha h2) h1
            have hcase : max (max (dot a a) (dot b b)) (dot c c) = dot a a ∨ max (max (dot a a) (dot b b)) (dot c c) = dot b b ∨
                max (max (dot a a) (dot b b)) (dot c c) = dot c c := by
              rcases max_choice (max (dot a a) (dot b b)) (dot c c) with e1 | e1
              · rcases max_choice (dot a a) (dot b b) with e2 | e2
                · left; exact e1.trans e2
                · right; left; exact e1.trans e2
              · right; right; exact e1
            rcases hcase with e1 | e1 | e1 <;> linarith
          have h3 := le_max_right (dot a a) (dot b b)
          rw [m] at h1
          exact ⟨(dot_self_zero a).mp (by linarith), (dot_self_zero b).mp (by linarith), h⟩
    · rintro ⟨rfl, rfl, rfl⟩
      unfold chooseTangent
      simp
  have z : ∀ a b : V3, ((fun j => a j - b j) = (0 : V3)) ↔ a = b := by
    intro a b
    constructor
    · intro h; funext j; have := congrFun h j; simp only [Pi.zero_apply] at this; linarith
    · rintro rfl; funext j; simp
  have t0 : tangent P 0 = chooseTangent (fun j => P 1 j - P 0 j) (fun j => P 2 j - P 0 j) (fun j => P 3 j - P 0 j) := by
    unfold tangent; rw [if_pos rfl]
  have t1 : tangent P 1 = chooseTangent (fun j => P 3 j - P 2 j) (fun j => P 3 j - P 1 j) (fun j => P 3 j - P 0 j) := by
    unfold tangent; rw [if_neg (by norm_num), if_pos rfl]
  simp only [inner_eq]
  refine ⟨fun h j => ?_, fun h j => ?_, fun he h => ?_, fun he h => ?_, ?_, ?_⟩
  · rw [t0, first _ _ _ (small _ _ _ _ (h 1) (h 2) (h 3))]
    refine (deriv j 0).congr_deriv ?_
    ring
  · rw [t1, first _ _ _ (small _ _ _ _ (h 2) (h 1) (h 0))]
    refine (deriv j 1).congr_deriv ?_
    ring
  · rw [t0, second _ _ _ ((z _ _).mpr he) (small _ _ _ _ (h 1) (h 2) (h 3))]
  · rw [t1, second _ _ _ ((z _ _).mpr he.symm) (small _ _ _ _ (h 2) (h 1) (h 0))]
  · rw [t0, none', z, z, z]
    constructor
    · rintro ⟨a, b, c⟩ k; fin_cases k
      · rfl
      · exact a
      · exact b
      · exact c
    · intro h; exact ⟨h 1, h 2, h 3⟩
  · rw [t1, none', z, z, z]
    constructor
    · rintro ⟨a, b, c⟩ k; fin_cases k
      · exact c.symm
      · exact b.symm
      · exact a.symm
      · rfl
    · intro h; exact ⟨(h 2).symm, (h 1).symm, (h 0).symm⟩

example : tangent ![![0, 0, 0], ![1, 0, 0], ![2, 0, 0], ![3, 0, 0]] 0 ≠ 0 ∧ tangent (fun _ => ![1, 0, 0]) 0 = 0 :=
  ⟨fun h => by
    have := congrFun ((C98_tangent_ends _).2.2.2.2.1.mp h 1) 0
    simp at this, (C98_tangent_ends _).2.2.2.2.1.mpr fun _ => rfl⟩

/-- **C98** The patch of a cubic piece is a ribbon along its curve: straight across, with the curve in the middle, and on either side by
offsets that change along the curve as a Bézier curve; these are at right angles to the normal and the curve and half as long as the ribbon
is wide at the ends and about a third and two thirds of the way. -/
theorem C98_ribbon (P : Fin 4 → V3) (n0 n3 : V3) (w0 w3 : ℝ) : ∃ O : Fin 4 → V3,
    (∀ j u v, surf (fun k l => ribbon P n0 n3 w0 w3 k l j) u v = bez (fun k => P k j) v + (1 - 2 * u) * bez (fun k => O k j) v) ∧
    ∀ k, Across (third n0 n3 k) (tangent P (param k)) (thirdW w0 w3 k) (O k) :=
  ribbon_exists P n0 n3 w0 w3

example : Across ![0, 0, 1] ![1, 0, 0] 2 ![0, 1, 0] := by
  have e : cross ![0, 0, 1] ![1, 0, 0] = ![0, 1, 0] := by funext j; fin_cases j <;> simp [cross]
  refine across_of _ _ _ 1 _ (by rw [e]; simp) fun _ => ?_
  rw [e]; simp [len, dot]

/-- **C98** The bound of a cubic piece, and that of a group with its points and widths among others, contain the ribbon. -/
theorem C98_bound (big : ℝ) (P : Fin 4 → V3) (n0 n3 : V3) (w0 w3 : ℝ) (h0 : 0 ≤ w0) (h3 : 0 ≤ w3) (j : Fin 3)
    (u v : ℝ) (hu : 0 ≤ u ∧ u ≤ 1) (hv : 0 ≤ v ∧ v ≤ 1) :
    ((curveBound big [P 0 j, P 1 j, P 2 j, P 3 j] [w0, w3] 2).1 ≤ surf (fun k l => ribbon P n0 n3 w0 w3 k l j) u v ∧
      surf (fun k l => ribbon P n0 n3 w0 w3 k l j) u v ≤ (curveBound big [P 0 j, P 1 j, P 2 j, P 3 j] [w0, w3] 2).2) ∧
    ∀ xs widths : List ℝ, (∀ k, P k j ∈ xs) → w0 ∈ widths → w3 ∈ widths →
      (groupBound big xs widths).1 ≤ surf (fun k l => ribbon P n0 n3 w0 w3 k l j) u v ∧
      surf (fun k l => ribbon P n0 n3 w0 w3 k l j) u v ≤ (groupBound big xs widths).2 := by
  constructor
  · have hm : ∀ k : Fin 4, P k j ∈ [P 0 j, P 1 j, P 2 j, P 3 j] := by intro k; fin_cases k <;> simp
    have hb := fun k => foldl_bound [P 0 j, P 1 j, P 2 j, P 3 j] (big, -big) _ (hm k)
    have hw := (foldl_wide (([w0, w3].take 2).take 4) 0).2
    exact ribbon_inside P n0 n3 w0 w3 _ _ _ h0 h3 (hw w0 (by simp)) (hw w3 (by simp)) j (fun k => (hb k).1) (fun k => (hb k).2) u v hu hv
  · intro xs widths hx h0' h3'
    exact ribbon_inside P n0 n3 w0 w3 _ _ _ h0 h3 ((foldl_max widths 0).2 w0 h0') ((foldl_max widths 0).2 w3 h3') j
      (fun k => (foldl_min xs big).2 _ (hx k)) (fun k => (foldl_max xs (-big)).2 _ (hx k)) u v hu hv

/-- **C98** The patch of a linear piece is a ribbon as well, if its direction is not that of a normal. -/
theorem C98_linear_partial (p0 p1 n0 n1 : V3) (w0 w1 : ℝ) (h0 : cross n0 (fun j => p1 j - p0 j) ≠ 0)
    (h1 : cross n1 (fun j => p1 j - p0 j) ≠ 0) :
    ∃ q o0 o1, linRibbon p0 p1 n0 n1 w0 w1 = some q ∧ Across n0 (fun j => p1 j - p0 j) w0 o0 ∧ Across n1 (fun j => p1 j - p0 j) w1 o1 ∧
      ∀ u v j, (1 - v) * ((1 - u) * q 0 j + u * q 1 j) + v * ((1 - u) * q 2 j + u * q 3 j) =
        ((1 - v) * p0 j + v * p1 j) + (1 - 2 * u) * ((1 - v) * o0 j + v * o1 j) := by
  cases e0 : across (fun j => p1 j - p0 j) n0 w0 with
  | none => exact absurd ((across_none _ _ _).mp e0) h0
  | some o0 =>
    cases e1 : across (fun j => p1 j - p0 j) n1 w1 with
    | none => exact absurd ((across_none _ _ _).mp e1) h1
    | some o1 =>
      refine ⟨_, o0, o1, by unfold linRibbon; beta_reduce; simp only []; rw [e0, e1]; rfl, (across_some _ _ _ _ e0).2, (across_some _ _ _ _ e1).2, fun u v j => ?_⟩
      simp only [Matrix.cons_val]
      ring

example : ∃ q, linRibbon ![0, 0, 1] ![1, 0, 1] ![0, 0, 1] ![0, 1, 1] 1 2 = some q := by
  obtain ⟨q, _, _, h, _⟩ := C98_linear_partial ![0, 0, 1] ![1, 0, 1] ![0, 0, 1] ![0, 1, 1] 1 2
    (fun h => by have := congrFun h 1; simp [cross] at this) (fun h => by have := congrFun h 1; simp [cross] at this)
  exact ⟨q, h⟩

/-- **C98, disagreement.** A linear piece along its normal, such as one straight away from the viewer without normals of its own, is
divided by a length of zero: its corners are not numbers (libs/core/geometry/linearcurves.cpp:259-262); cubic pieces are safe, since `Unit`
leaves a vector of length zero as it is. -/
theorem C98_linear_violated (w0 w1 : ℝ) : ∃ n, getNormal none true true 0 = some n ∧ linRibbon ![0, 0, 1] ![0, 0, 2] n n w0 w1 = none := by
  refine ⟨_, rfl, ?_⟩
  unfold linRibbon
  have : across (fun j => (![0, 0, 2] : V3) j - (![0, 0, 1] : V3) j) ![0, 0, -1] w0 = none := by
    rw [across_none]
    funext j; fin_cases j <;> simp [cross]
  rw [if_pos rfl]
  simp only [this, Option.bind_none]

/-- **C98** Without normals the ribbon is turned to the viewer, by the orientation. -/
theorem C98_normals_partial (leftHanded orientation : Bool) (i : ℕ) :
    getNormal none leftHanded orientation i = some (if orientation = leftHanded then ![0, 0, -1] else ![0, 0, 1]) ∧
    ∀ a b : V3, getNormal (some [a, b]) leftHanded orientation 0 = some a ∧ getNormal (some [a, b]) leftHanded orientation 1 = some b :=
  ⟨rfl, fun _ _ => ⟨rfl, rfl⟩⟩

/-- **C98, disagreement.** Both ends of a cubic piece take the normals of index zero and one: with normals at the four vertices the end has
that of the second one, and with one normal for the curve there is no such value (libs/core/geometry/cubiccurves.cpp:410-411). -/
theorem C98_normals_violated (a b c d : V3) (leftHanded orientation : Bool) :
    getNormal (some [a, b, c, d]) leftHanded orientation 1 = some b ∧ getNormal (some [a]) leftHanded orientation 1 = none := ⟨rfl, rfl⟩

/-- **C98** The corners of patches and their values: `u` across, `v` and variables along the curve; vertex variables are those of the
curve all across. -/
theorem C98_corners (v0 v1 : ℚ) :
    (∀ b : Fin 4, cornerU b = (b.val % 2 : ℕ) ∧ cornerV v0 v1 b = (if b.val / 2 = 0 then v0 else v1) ∧ (cornerEnd b).val = b.val / 2) ∧
    ∀ (f : Fin 4 → ℝ) (u v : ℝ), surf (fun k l => f (netVertex ⟨4 * k.val + l.val, by omega⟩)) u v = bez f v := by
  constructor
  · intro b
    fin_cases b <;> simp [cornerU, cornerV, cornerEnd]
  · intro f u v
    have e : ∀ k l : Fin 4, netVertex ⟨4 * k.val + l.val, by omega⟩ = k := by decide
    simp only [e]
    unfold surf bez
    ring

/-- **C98** Widths are scaled by the factor that a transformation scales by, if it scales all directions alike: `A` is the inverse
transposed of the transformation `M`. -/
theorem C98_scale (M A : Fin 3 → Fin 3 → ℝ) (s : ℝ) (hs : 0 < s)
    (hM : ∀ i j, ∑ k, M i k * M j k = if i = j then s ^ 2 else 0) (hA : ∀ i j, ∑ k, A i k * M j k = if i = j then 1 else 0) :
    widthScale (A 0) (A 1) = s := by
  -- the rows of `M` are a basis in which both sides agree
  have key : ∀ i, len (A i) = 1 / s := by
    intro i
    have hrow : ∀ j, A i j = 1 / s ^ 2 * M i j := by
      let Mm : Matrix (Fin 3) (Fin 3) ℝ := Matrix.of M
      let Am : Matrix (Fin 3) (Fin 3) ℝ := Matrix.of A
      have h1 : Am * Mm.transpose = 1 := by
        ext a b
        rw [Matrix.mul_apply, Matrix.one_apply]
        exact hA a b
      have h2 : (((1 / s ^ 2) • Mm) : Matrix (Fin 3) (Fin 3) ℝ) * Mm.transpose = 1 := by
        ext a b
        rw [Matrix.smul_mul, Matrix.smul_apply, Matrix.mul_apply, Matrix.one_apply]
        show (1 / s ^ 2) • (∑ k, M a k * M b k) = _
        rw [hM a b]
        split_ifs
        · rw [smul_eq_mul]; field_simp
        · simp
      have h3 : Mm.transpose * Am = 1 := mul_eq_one_comm.mp h1
      have h4 : Am = (1 / s ^ 2) • Mm := by
        calc Am = (((1 / s ^ 2) • Mm) * Mm.transpose) * Am := by rw [h2, Matrix.one_mul]
          _ = ((1 / s ^ 2) • Mm) * (Mm.transpose * Am) := Matrix.mul_assoc _ _ _
          _ = _ := by rw [h3, Matrix.mul_one]
      intro j
      have := congrFun (congrFun h4 i) j
      rw [Matrix.smul_apply, smul_eq_mul] at this
      exact this
    have e : A i = fun j => 1 / s ^ 2 * M i j := funext hrow
    rw [e, len_smul _ (by positivity)]
    have hd : dot (M i) (M i) = s * s := by
      have := hM i i
      rw [if_pos rfl, Fin.sum_univ_three] at this
      unfold dot; rw [this]; ring
    unfold len
    rw [hd, Real.sqrt_mul_self hs.le]
    field_simp
  unfold widthScale
  rw [key, key]
  field_simp
  norm_num

example : ∃ A : Fin 3 → Fin 3 → ℝ, widthScale (A 0) (A 1) = 2 :=
  ⟨fun i j => if i = j then 1 / 2 else 0, by
    refine C98_scale (fun i j => if i = j then 2 else 0) (fun i j => if i = j then 1 / 2 else 0) 2 (by norm_num) ?_ ?_ <;> intro i j <;> fin_cases i <;> fin_cases j <;>
      simp <;> norm_num⟩

end Verif.Geom.Curves
