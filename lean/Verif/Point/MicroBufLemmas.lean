import Verif.Point.MicroBuf

/-!
Lemmas about Cubes of small pictures around a point
-/

namespace Verif.Point

open Face

namespace Spec

/-- The length of a vector. -/
noncomputable def len (v : Vec) : ℝ := Real.sqrt (v 0 * v 0 + v 1 * v 1 + v 2 * v 2)

/-- The scalar product. -/
def inner (a b : Vec) : ℝ := a 0 * b 0 + a 1 * b 1 + a 2 * b 2

/-- A ray from the origin crosses the plane of a disk within the disk. -/
def Hit (p n : Vec) (r : ℝ) (V : Vec) : Prop :=
  inner V n ≠ 0 ∧ ∃ t : ℝ, 0 < t ∧ inner (fun k => t * V k - p k) n = 0 ∧
    inner (fun k => t * V k - p k) (fun k => t * V k - p k) < r * r

/-- The largest of the coordinates without sign. -/
noncomputable def largest (p : Vec) : ℝ := max |p 0| (max |p 1| |p 2|)

end Spec

open Spec

/-! ## Faces -/

theorem raw_pos (f : Face) (u v : ℝ) : 0 < dot (rawDirection f u v) (rawDirection f u v) := by
  cases f <;> simp [dot, rawDirection] <;> nlinarith [mul_self_nonneg u, mul_self_nonneg v]

theorem raw_one (f : Face) (u v : ℝ) : dotFaceNormal f (rawDirection f u v) = 1 := by
  cases f <;> simp [dotFaceNormal, rawDirection]

theorem faceCoords_scale (f : Face) (p : Vec) (l : ℝ) (hl : l ≠ 0) : faceCoords f (fun k => p k / l) = faceCoords f p := by
  unfold faceCoords
  have e : ∀ k, canonicalFaceCoords f (fun k => p k / l) k = canonicalFaceCoords f p k / l := by
    intro k
    cases f <;> fin_cases k <;> simp [canonicalFaceCoords, neg_div]
  simp only [e]
  by_cases h : canonicalFaceCoords f p 2 = 0
  · simp [h]
  · rw [if_neg h, if_neg (div_ne_zero h hl)]
    congr 2 <;> field_simp

/-! ## Cones -/

theorem signed_sq {c x rhs : ℝ} (hx : 0 ≤ x) (h : copysign (x * c * c) c > copysign (rhs * rhs) rhs) :
    rhs < Real.sqrt x * c := by
  have sx := Real.sqrt_nonneg x
  have e : (Real.sqrt x * c) * (Real.sqrt x * c) = x * c * c := by
    have := Real.mul_self_sqrt hx
    calc (Real.sqrt x * c) * (Real.sqrt x * c) = (Real.sqrt x * Real.sqrt x) * c * c := by ring
      _ = _ := by rw [this]
  have n1 : 0 ≤ x * c * c := by rw [← e]; exact mul_self_nonneg _
  unfold copysign at h
  rw [abs_of_nonneg n1, abs_of_nonneg (mul_self_nonneg rhs)] at h
  by_cases hc : c < 0 <;> by_cases hr : rhs < 0
  · rw [if_pos hc, if_pos hr] at h
    have l0 : Real.sqrt x * c ≤ 0 := mul_nonpos_of_nonneg_of_nonpos sx hc.le
    nlinarith
  · rw [if_pos hc, if_neg hr] at h
    nlinarith [mul_self_nonneg rhs]
  · have l0 : 0 ≤ Real.sqrt x * c := mul_nonneg sx (not_lt.mp hc)
    linarith
  · rw [if_neg hc, if_neg hr] at h
    have l0 : 0 ≤ Real.sqrt x * c := mul_nonneg sx (not_lt.mp hc)
    nlinarith

theorem signed_sq_conv {c x rhs : ℝ} (hx : 0 ≤ x) (h : rhs < Real.sqrt x * c) :
    copysign (x * c * c) c > copysign (rhs * rhs) rhs := by
  have sx := Real.sqrt_nonneg x
  have e : (Real.sqrt x * c) * (Real.sqrt x * c) = x * c * c := by
    have := Real.mul_self_sqrt hx
    calc (Real.sqrt x * c) * (Real.sqrt x * c) = (Real.sqrt x * Real.sqrt x) * c * c := by ring
      _ = _ := by rw [this]
  have n1 : 0 ≤ x * c * c := by rw [← e]; exact mul_self_nonneg _
  unfold copysign
  rw [abs_of_nonneg n1, abs_of_nonneg (mul_self_nonneg rhs)]
  by_cases hc : c < 0 <;> by_cases hr : rhs < 0
  · rw [if_pos hc, if_pos hr]
    have l0 : Real.sqrt x * c ≤ 0 := mul_nonpos_of_nonneg_of_nonpos sx hc.le
    nlinarith
  · have l0 : Real.sqrt x * c ≤ 0 := mul_nonpos_of_nonneg_of_nonpos sx hc.le
    linarith
  · rw [if_neg hc, if_pos hr]
    have : 0 < rhs * rhs := by nlinarith
    linarith
  · rw [if_neg hc, if_neg hr]
    nlinarith

theorem gram (p n d : Vec) (hn : inner n n = 1) (hd : inner d d = 1) :
    (inner p n - inner p d * inner n d) ^ 2 ≤ (inner p p - inner p d ^ 2) * (1 - inner n d ^ 2) := by
  have h : inner p p * inner n n * inner d d + 2 * inner p n * inner n d * inner p d - inner p p * inner n d ^ 2
      - inner n n * inner p d ^ 2 - inner d d * inner p n ^ 2
      = (p 0 * (n 1 * d 2 - n 2 * d 1) - p 1 * (n 0 * d 2 - n 2 * d 0) + p 2 * (n 0 * d 1 - n 1 * d 0)) ^ 2 := by
    unfold inner; ring
  rw [hn, hd] at h
  have := sq_nonneg (p 0 * (n 1 * d 2 - n 2 * d 1) - p 1 * (n 0 * d 2 - n 2 * d 0) + p 2 * (n 0 * d 1 - n 1 * d 0))
  nlinarith

theorem inner_self_nonneg (p : Vec) : 0 ≤ inner p p := by
  unfold inner
  nlinarith [mul_self_nonneg (p 0), mul_self_nonneg (p 1), mul_self_nonneg (p 2)]

theorem inner_eq_zero {p : Vec} (h : 0 = inner p p) : p = 0 := by
  unfold inner at h
  have n0 := mul_self_nonneg (p 0)
  have n1 := mul_self_nonneg (p 1)
  have n2 := mul_self_nonneg (p 2)
  funext k
  fin_cases k
  · show p 0 = 0
    exact mul_self_eq_zero.mp (by linarith)
  · show p 1 = 0
    exact mul_self_eq_zero.mp (by linarith)
  · show p 2 = 0
    exact mul_self_eq_zero.mp (by linarith)

/-- If `c x - s r` is above the product of a point with the axis then a direction within the cone misses the sphere. -/
theorem cone_bound (p n d : Vec) (r c s : ℝ) (hn : inner n n = 1) (hd : inner d d = 1) (hr : 0 ≤ r) (hs : 0 ≤ s)
    (hcs : c * c + s * s = 1) (hx : 0 ≤ inner p p - r * r) (hP : 0 < inner p p)
    (hsum : 0 ≤ c ∨ inner p p * c * c ≤ inner p p - r * r)
    (ha : Real.sqrt (inner p p - r * r) ≤ inner p d) (hb : c ≤ inner n d) :
    Real.sqrt (inner p p - r * r) * c - r * s ≤ inner p n := by
  have g := gram p n d hn hd
  set P2 := inner p p
  set x := P2 - r * r
  set a := inner p d
  set b := inner n d
  have hP1 : 0 < Real.sqrt P2 := Real.sqrt_pos.mpr hP
  set P := Real.sqrt P2
  have hPP : P * P = P2 := Real.mul_self_sqrt hP.le
  have sx := Real.sqrt_nonneg x
  have sxx : Real.sqrt x * Real.sqrt x = x := Real.mul_self_sqrt hx
  have hb1 : b ^ 2 ≤ 1 := by
    show inner n d ^ 2 ≤ 1
    have q := sq_nonneg (n 1 * d 2 - n 2 * d 1)
    have q1 := sq_nonneg (n 0 * d 2 - n 2 * d 0)
    have q2 := sq_nonneg (n 0 * d 1 - n 1 * d 0)
    have l : inner n n * inner d d - inner n d ^ 2
        = (n 1 * d 2 - n 2 * d 1) ^ 2 + (n 0 * d 2 - n 2 * d 0) ^ 2 + (n 0 * d 1 - n 1 * d 0) ^ 2 := by
      unfold inner; ring
    rw [hn, hd] at l
    linarith
  have ha2 : a ^ 2 ≤ P2 := by
    have l : inner p p * inner d d - inner p d ^ 2
        = (p 1 * d 2 - p 2 * d 1) ^ 2 + (p 0 * d 2 - p 2 * d 0) ^ 2 + (p 0 * d 1 - p 1 * d 0) ^ 2 := by
      unfold inner; ring
    rw [hd] at l
    have q := sq_nonneg (p 1 * d 2 - p 2 * d 1)
    have q1 := sq_nonneg (p 0 * d 2 - p 2 * d 0)
    have q2 := sq_nonneg (p 0 * d 1 - p 1 * d 0)
    show inner p d ^ 2 ≤ inner p p
    linarith
  have hc1 : c ≤ 1 := by nlinarith
  have hc0 : -1 ≤ c := by nlinarith
  have hbl : -1 ≤ b := by linarith
  have hbu : b ≤ 1 := by nlinarith
  -- the angles
  have haP : a / P ≤ 1 := by rw [div_le_one hP1]; nlinarith
  have haP0 : 0 ≤ a / P := div_nonneg (by linarith) hP1.le
  have hxP0 : 0 ≤ Real.sqrt x / P := by positivity
  have hxa : Real.sqrt x / P ≤ a / P := div_le_div_of_nonneg_right ha hP1.le
  have h1 : Real.arccos (a / P) ≤ Real.arccos (Real.sqrt x / P) := Real.arccos_le_arccos hxa
  have h2 : Real.arccos b ≤ Real.arccos c := Real.arccos_le_arccos hb
  have h3 : Real.arccos (Real.sqrt x / P) + Real.arccos c ≤ Real.pi := by
    rcases hsum with h | h
    · have := Real.arccos_le_pi_div_two.mpr hxP0
      have := Real.arccos_le_pi_div_two.mpr h
      linarith
    · have : -c ≤ Real.sqrt x / P := by
        rw [le_div_iff₀ hP1]
        by_contra hcon
        have hcon := not_le.mp hcon
        nlinarith
      have := Real.arccos_le_arccos this
      rw [Real.arccos_neg] at this
      linarith
  have h4 : Real.cos (Real.arccos (Real.sqrt x / P) + Real.arccos c) ≤ Real.cos (Real.arccos (a / P) + Real.arccos b) :=
    Real.cos_le_cos_of_nonneg_of_le_pi (add_nonneg (Real.arccos_nonneg _) (Real.arccos_nonneg _)) h3 (by linarith)
  rw [Real.cos_add, Real.cos_add, Real.cos_arccos (by linarith) (by linarith), Real.cos_arccos (by linarith) (by linarith),
    Real.cos_arccos (by linarith) (by linarith), Real.cos_arccos (by linarith) (by linarith),
    Real.sin_arccos, Real.sin_arccos, Real.sin_arccos, Real.sin_arccos] at h4
  have e1 : Real.sqrt (1 - (Real.sqrt x / P) ^ 2) = r / P := by
    rw [show 1 - (Real.sqrt x / P) ^ 2 = (r / P) ^ 2 by
      have : P ≠ 0 := hP1.ne'
      field_simp
      rw [show Real.sqrt x ^ 2 = x by rw [sq]; exact sxx, show P ^ 2 = P2 by rw [sq]; exact hPP]
      ring]
    exact Real.sqrt_sq (by positivity)
  have e2 : Real.sqrt (1 - c ^ 2) = s := by
    rw [show 1 - c ^ 2 = s ^ 2 by linarith]
    exact Real.sqrt_sq hs
  rw [e1, e2] at h4
  have e3 : Real.sqrt (1 - (a / P) ^ 2) * P = Real.sqrt (P2 - a ^ 2) := by
    rw [show P2 - a ^ 2 = (1 - (a / P) ^ 2) * (P * P) by
      have : P ≠ 0 := hP1.ne'
      field_simp
      rw [show P ^ 2 = P2 by rw [sq]; exact hPP]]
    rw [Real.sqrt_mul (by nlinarith), Real.sqrt_mul_self hP1.le]
  have h5 : Real.sqrt x * c - r * s ≤ a * b - Real.sqrt (P2 - a ^ 2) * Real.sqrt (1 - b ^ 2) := by
    have := mul_le_mul_of_nonneg_right h4 hP1.le
    rw [← e3]
    have l : (Real.sqrt x / P * c - r / P * s) * P = Real.sqrt x * c - r * s := by
      have : P ≠ 0 := hP1.ne'
      field_simp
    have l2 : (a / P * b - Real.sqrt (1 - (a / P) ^ 2) * Real.sqrt (1 - b ^ 2)) * P
        = a * b - Real.sqrt (1 - (a / P) ^ 2) * P * Real.sqrt (1 - b ^ 2) := by
      have : P ≠ 0 := hP1.ne'
      field_simp
    linarith
  have h6 : a * b - inner p n ≤ Real.sqrt (P2 - a ^ 2) * Real.sqrt (1 - b ^ 2) := by
    rw [← Real.sqrt_mul (by linarith)]
    apply Real.le_sqrt_of_sq_le
    calc (a * b - inner p n) ^ 2 = (inner p n - a * b) ^ 2 := by ring
      _ ≤ _ := g
  linarith

/-! ## Quadratic equations -/

theorem quad_between (a b c x : ℝ) (ha : 0 < a) (h : a * x * x + b * x + c < 0) :
    (solveQuadratic a b c).1 < x ∧ x < (solveQuadratic a b c).2 := by
  have hd : (2 * a * x + b) ^ 2 < b * b - 4 * a * c := by nlinarith
  have hp : 0 ≤ b * b - 4 * a * c := by nlinarith [sq_nonneg (2 * a * x + b)]
  have := abs_lt.mp ((Real.lt_sqrt (abs_nonneg _)).mpr (by rw [sq_abs]; exact hd))
  unfold solveQuadratic
  simp only [max_eq_right hp]
  constructor
  · rw [div_sub_div_same, div_lt_iff₀ (by linarith)]
    linarith
  · rw [← add_div, lt_div_iff₀ (by linarith)]
    linarith

/-! ## Disks -/

/-- The form whose sign tells whether a ray hits. -/
noncomputable def form (p n : Vec) (r : ℝ) (V : Vec) : ℝ :=
  inner p n * inner p n * inner V V + -2 * inner p n * (inner V n * inner p V)
    + (inner p p - r * r) * (inner V n * inner V n)

theorem quad_at (res : Nat) (f : Face) (p n : Vec) (r : ℝ) (iu iv : Nat) :
    (ellipse res (canonicalFaceCoords f p) (canonicalFaceCoords f n) (dot p n) (dot p p) r).at iu iv
      = form p n r (rawDirection f (centre res iu) (centre res iv)) := by
  have hc : ∀ i : Nat, centre res i = i * (2 / (res : ℝ)) + (0.5 * (2 / (res : ℝ)) - 1) := by
    intro i; unfold centre; ring
  rw [hc, hc]
  unfold Quad.at ellipse form
  generalize (2 / (res : ℝ)) = sc
  have e1 : dot p n = inner p n := rfl
  have e2 : dot p p = inner p p := rfl
  rw [e1, e2]
  generalize inner p n = pn
  generalize inner p p - r * r = C
  cases f <;> simp only [canonicalFaceCoords, rawDirection, inner, Matrix.cons_val_zero, Matrix.cons_val_one, Matrix.cons_val] <;> ring

/-- A vector along a face. -/
def along (f : Face) (x y : ℝ) : Vec := fun k => rawDirection f x y k - rawDirection f 0 0 k

theorem quad_form (res : Nat) (f : Face) (p n : Vec) (r x y : ℝ) :
    let q := ellipse res (canonicalFaceCoords f p) (canonicalFaceCoords f n) (dot p n) (dot p p) r
    q.a * x * x + q.b * x * y + q.c * y * y = (2 / (res : ℝ)) * (2 / (res : ℝ)) * form p n r (along f x y) := by
  intro q
  have e1 : dot p n = inner p n := rfl
  have e2 : dot p p = inner p p := rfl
  show (ellipse _ _ _ _ _ _).a * x * x + (ellipse _ _ _ _ _ _).b * x * y + (ellipse _ _ _ _ _ _).c * y * y = _
  unfold ellipse form along
  rw [e1, e2]
  generalize inner p n = pn
  generalize inner p p - r * r = C
  cases f <;> simp only [canonicalFaceCoords, rawDirection, inner, Matrix.cons_val_zero, Matrix.cons_val_one, Matrix.cons_val] <;> ring

theorem along_zero (f : Face) (x y : ℝ) : dotFaceNormal f (along f x y) = 0 := by
  cases f <;> simp [along, dotFaceNormal, rawDirection]

theorem along_self (f : Face) (x y : ℝ) : inner (along f x y) (along f x y) = x * x + y * y := by
  cases f <;> simp [along, inner, rawDirection] <;> ring

theorem perp_aux (w0 w1 w2 n0 n1 n2 : ℝ) (hw : w0 * n0 + w1 * n1 + w2 * n2 = 0) (hn : n0 * n0 + n1 * n1 + n2 * n2 = 1) :
    w2 * w2 ≤ (w0 * w0 + w1 * w1 + w2 * w2) * (1 - n2 * n2) := by
  have h1 : w2 * n2 = -(w0 * n0 + w1 * n1) := by linarith
  have h2 : (w2 * n2) * (w2 * n2) = (w0 * n0 + w1 * n1) * (w0 * n0 + w1 * n1) := by rw [h1]; ring
  have h3 : 1 - n2 * n2 = n0 * n0 + n1 * n1 := by linarith
  have h4 : w2 * w2 = w2 * w2 * (n0 * n0 + n1 * n1) + (w2 * n2) * (w2 * n2) := by
    have : w2 * w2 * 1 = w2 * w2 * (n0 * n0 + n1 * n1 + n2 * n2) := by rw [hn]
    linarith
  rw [h3]
  nlinarith [sq_nonneg (w0 * n1 - w1 * n0)]

theorem perp (f : Face) (w n : Vec) (hw : inner w n = 0) (hn : inner n n = 1) :
    dotFaceNormal f w * dotFaceNormal f w ≤ inner w w * (1 - dotFaceNormal f n * dotFaceNormal f n) := by
  unfold inner at *
  cases f <;> simp only [dotFaceNormal]
  · have := perp_aux (w 1) (w 2) (w 0) (n 1) (n 2) (n 0) (by linarith) (by linarith); linarith
  · have := perp_aux (w 0) (w 2) (w 1) (n 0) (n 2) (n 1) (by linarith) (by linarith); linarith
  · have := perp_aux (w 0) (w 1) (w 2) (n 0) (n 1) (n 2) (by linarith) (by linarith); linarith
  · have := perp_aux (w 1) (w 2) (w 0) (n 1) (n 2) (n 0) (by linarith) (by linarith); linarith
  · have := perp_aux (w 0) (w 2) (w 1) (n 0) (n 2) (n 1) (by linarith) (by linarith); linarith
  · have := perp_aux (w 0) (w 1) (w 2) (n 0) (n 1) (n 2) (by linarith) (by linarith); linarith

theorem normal_le (f : Face) (n : Vec) (hn : inner n n = 1) : 0 ≤ 1 - dotFaceNormal f n * dotFaceNormal f n := by
  unfold inner at hn
  have n0 := mul_self_nonneg (n 0)
  have n1 := mul_self_nonneg (n 1)
  have n2 := mul_self_nonneg (n 2)
  cases f <;> simp only [dotFaceNormal] <;> linarith

theorem form_hit (p n : Vec) (r : ℝ) (V : Vec) (hV : inner V n ≠ 0) :
    inner (fun k => inner p n / inner V n * V k - p k) n = 0 ∧
    form p n r V = inner V n * inner V n *
      (inner (fun k => inner p n / inner V n * V k - p k) (fun k => inner p n / inner V n * V k - p k) - r * r) := by
  have e1 : inner (fun k => inner p n / inner V n * V k - p k) n = inner p n / inner V n * inner V n - inner p n := by
    unfold inner; ring
  have e2 : inner (fun k => inner p n / inner V n * V k - p k) (fun k => inner p n / inner V n * V k - p k)
      = inner p n / inner V n * (inner p n / inner V n) * inner V V - 2 * (inner p n / inner V n) * inner p V + inner p p := by
    generalize inner p n / inner V n = t
    unfold inner; ring
  constructor
  · rw [e1, div_mul_cancel₀ _ hV, sub_self]
  · rw [e2]
    unfold form
    generalize inner V n = a at *
    field_simp
    ring

theorem hit_unique (p n V : Vec) (t : ℝ) (hV : inner V n ≠ 0) (h : inner (fun k => t * V k - p k) n = 0) :
    t = inner p n / inner V n := by
  have e1 : inner (fun k => t * V k - p k) n = t * inner V n - inner p n := by unfold inner; ring
  rw [e1] at h
  rw [eq_div_iff hV]
  linarith

theorem hit_iff (p n : Vec) (r : ℝ) (V : Vec) :
    Hit p n r V ↔ inner V n ≠ 0 ∧ 0 < inner p n / inner V n ∧ form p n r V < 0 := by
  constructor
  · rintro ⟨hV, t, h0, h1, h2⟩
    obtain rfl := hit_unique p n V t hV h1
    refine ⟨hV, h0, ?_⟩
    rw [(form_hit p n r V hV).2]
    have : 0 < inner V n * inner V n := mul_self_pos.mpr hV
    exact mul_neg_of_pos_of_neg this (by linarith)
  · rintro ⟨hV, h0, h1⟩
    obtain ⟨f1, f2⟩ := form_hit p n r V hV
    refine ⟨hV, _, h0, f1, ?_⟩
    rw [f2] at h1
    have : 0 < inner V n * inner V n := mul_self_pos.mpr hV
    nlinarith

theorem hit_scale (p n : Vec) (r : ℝ) (V : Vec) (l : ℝ) (hl : 0 < l) : Hit p n r (fun k => V k / l) ↔ Hit p n r V := by
  have e1 : inner (fun k => V k / l) n = inner V n / l := by unfold inner; field_simp
  have e2 : form p n r (fun k => V k / l) = form p n r V / (l * l) := by
    unfold form inner; field_simp
  rw [hit_iff, hit_iff, e1, e2]
  constructor
  · rintro ⟨h1, h2, h3⟩
    have h1' : inner V n ≠ 0 := fun h => h1 (by rw [h, zero_div])
    refine ⟨h1', ?_, ?_⟩
    · rw [div_div_eq_mul_div, mul_div_right_comm] at h2
      exact pos_of_mul_pos_left h2 hl.le
    · rwa [div_lt_iff₀ (by positivity), zero_mul] at h3
  · rintro ⟨h1, h2, h3⟩
    refine ⟨div_ne_zero h1 hl.ne', ?_, ?_⟩
    · rw [div_div_eq_mul_div, mul_div_right_comm]
      positivity
    · exact div_neg_of_neg_of_pos h3 (by positivity)

theorem form_pos (f : Face) (p n : Vec) (r : ℝ) (V : Vec) (hn : inner n n = 1) (hpn : inner p n ≠ 0) (hV : V ≠ 0)
    (hF : dotFaceNormal f V = 0)
    (hs : (1 - dotFaceNormal f n * dotFaceNormal f n) * r * r < dotFaceNormal f p * dotFaceNormal f p) :
    0 < form p n r V := by
  have vv : 0 < inner V V := lt_of_le_of_ne (inner_self_nonneg V) fun h => hV (inner_eq_zero h)
  by_cases h : inner V n = 0
  · unfold form
    rw [h]
    have : 0 < inner p n * inner p n * inner V V := mul_pos (mul_self_pos.mpr hpn) vv
    linarith
  · obtain ⟨f1, f2⟩ := form_hit p n r V h
    rw [f2]
    have hp := perp f _ n f1 hn
    have hw : dotFaceNormal f (fun k => inner p n / inner V n * V k - p k) = - dotFaceNormal f p := by
      have : dotFaceNormal f (fun k => inner p n / inner V n * V k - p k)
          = inner p n / inner V n * dotFaceNormal f V - dotFaceNormal f p := by
        cases f <;> simp only [dotFaceNormal] <;> ring
      rw [this, hF]
      ring
    rw [hw] at hp
    have h0 := normal_le f n hn
    have : r * r < inner (fun k => inner p n / inner V n * V k - p k) (fun k => inner p n / inner V n * V k - p k) := by
      by_contra hc
      have := mul_le_mul_of_nonneg_right (not_lt.mp hc) h0
      nlinarith
    have h2 : 0 < inner V n * inner V n := mul_self_pos.mpr h
    exact mul_pos h2 (by linarith)

/-- The sign of the place along a ray through a face where it hits a disk that is all on one side. -/
theorem front (f : Face) (p n : Vec) (r : ℝ) (W : Vec) (hn : inner n n = 1) (hW : dotFaceNormal f W = 1)
    (hs : (1 - dotFaceNormal f n * dotFaceNormal f n) * r * r < dotFaceNormal f p * dotFaceNormal f p)
    (hWn : inner W n ≠ 0) (hf : form p n r W < 0) : 0 < inner p n / inner W n * dotFaceNormal f p := by
  obtain ⟨f1, f2⟩ := form_hit p n r W hWn
  rw [f2] at hf
  have h2 : 0 < inner W n * inner W n := mul_self_pos.mpr hWn
  have hp := perp f _ n f1 hn
  have hw : dotFaceNormal f (fun k => inner p n / inner W n * W k - p k) = inner p n / inner W n - dotFaceNormal f p := by
    have : dotFaceNormal f (fun k => inner p n / inner W n * W k - p k)
        = inner p n / inner W n * dotFaceNormal f W - dotFaceNormal f p := by
      cases f <;> simp only [dotFaceNormal] <;> ring
    rw [this, hW, mul_one]
  rw [hw] at hp
  have h0 := normal_le f n hn
  generalize inner p n / inner W n = t at *
  generalize dotFaceNormal f p = a at *
  have hlt : inner (fun k => t * W k - p k) (fun k => t * W k - p k) ≤ r * r := by nlinarith
  have := mul_le_mul_of_nonneg_right hlt h0
  nlinarith [sq_nonneg t]

theorem takes_iff (res : Nat) (f : Face) (p n : Vec) (r : ℝ) (iu iv : Nat) (hu : iu < res) (hv : iv < res)
    (hn : inner n n = 1)
    (hs : (1 - dotFaceNormal f n * dotFaceNormal f n) * r * r < dotFaceNormal f p * dotFaceNormal f p) :
    (ellipse res (canonicalFaceCoords f p) (canonicalFaceCoords f n) (dot p n) (dot p p) r).takes res iu iv = true ↔
      form p n r (rawDirection f (centre res iu) (centre res iv)) < 0 := by
  have hq := quad_at res f p n r iu iv
  have hform := quad_form res f p n r
  have hr : (0 : ℝ) < res := by exact_mod_cast (by omega : 0 < res)
  rw [← hq]
  generalize hQ : ellipse res (canonicalFaceCoords f p) (canonicalFaceCoords f n) (dot p n) (dot p p) r = q at *
  simp only at hform
  unfold Quad.takes
  by_cases hneg : q.at iu iv < 0
  · simp only [hneg, and_true, iff_true]
    have hpn : inner p n ≠ 0 := by
      intro h
      rw [hq] at hneg
      unfold form at hneg
      rw [h] at hneg
      have h1 := perp f (fun k => p k) n h hn
      have h0 := normal_le f n hn
      have : r * r ≤ inner p p := by
        by_contra hc
        have := mul_le_mul_of_nonneg_right (not_le.mp hc).le h0
        have h1' : dotFaceNormal f p * dotFaceNormal f p ≤ inner p p * (1 - dotFaceNormal f n * dotFaceNormal f n) := h1
        nlinarith
      have := mul_nonneg (sub_nonneg.mpr this) (mul_self_nonneg (inner (rawDirection f (centre res iu) (centre res iv)) n))
      linarith
    have pos : ∀ x y : ℝ, x * x + y * y ≠ 0 → 0 < q.a * x * x + q.b * x * y + q.c * y * y := by
      intro x y hxy
      rw [hform]
      have : along f x y ≠ 0 := fun h => by
        have := along_self f x y
        rw [h] at this
        apply hxy
        rw [← this]
        simp [inner]
      have := form_pos f p n r _ hn hpn this (along_zero f x y) hs
      positivity
    have ha : 0 < q.a := by have := pos 1 0 (by norm_num); linarith
    have hc : 0 < q.c := by have := pos 0 1 (by norm_num); linarith
    have hdet : 0 < 4 * q.a * q.c - q.b * q.b := by
      have := pos (-q.b) (2 * q.a) (by nlinarith [mul_self_nonneg q.b])
      have e : q.a * -q.b * -q.b + q.b * -q.b * (2 * q.a) + q.c * (2 * q.a) * (2 * q.a) = q.a * (4 * q.a * q.c - q.b * q.b) := by ring
      rw [e] at this
      exact pos_of_mul_pos_right this ha.le
    rw [if_neg (not_le.mpr hdet)]
    unfold Quad.at at hneg
    have ub := quad_between (4 * q.a * q.c - q.b * q.b) (4 * q.d * q.c - 2 * q.b * q.e) (4 * q.c * q.f - q.e * q.e) iu hdet (by
      have : 4 * q.c * (q.a * ((iu : ℝ) * iu) + q.b * ((iu : ℝ) * iv) + q.c * ((iv : ℝ) * iv) + q.d * iu + q.e * iv + q.f) < 0 :=
        mul_neg_of_pos_of_neg (by linarith) hneg
      nlinarith [sq_nonneg (2 * q.c * (iv : ℝ) + q.b * iu + q.e)])
    have vb := quad_between (4 * q.a * q.c - q.b * q.b) (4 * q.a * q.e - 2 * q.b * q.d) (4 * q.a * q.f - q.d * q.d) iv hdet (by
      have : 4 * q.a * (q.a * ((iu : ℝ) * iu) + q.b * ((iu : ℝ) * iv) + q.c * ((iv : ℝ) * iv) + q.d * iu + q.e * iv + q.f) < 0 :=
        mul_neg_of_pos_of_neg (by linarith) hneg
      nlinarith [sq_nonneg (2 * q.a * (iu : ℝ) + q.b * iv + q.d)])
    rw [decide_eq_true_eq]
    refine ⟨max_le (by omega) (Int.ceil_le.mpr (by exact_mod_cast ub.1.le)), lt_min (by exact_mod_cast hu) (Int.lt_ceil.mpr (by exact_mod_cast ub.2)),
      max_le (by omega) (Int.ceil_le.mpr (by exact_mod_cast vb.1.le)), lt_min (by exact_mod_cast hv) (Int.lt_ceil.mpr (by exact_mod_cast vb.2))⟩
  · simp only [hneg, and_false, decide_false, iff_false]
    split_ifs <;> simp

theorem mem_pixels (res iu iv : Nat) :
    (iu, iv) ∈ (List.range res).flatMap (fun iv => (List.range res).map fun iu => (iu, iv)) ↔ iu < res ∧ iv < res := by
  simp [and_comm]

theorem raw_le (f : Face) (u v : ℝ) (hu : |u| < 1) (hv : |v| < 1) :
    inner (rawDirection f u v) (rawDirection f u v) ≤ 3 ∧ inner (rawDirection f u v) (faceNormal f) = 1 := by
  have h1 : u * u ≤ 1 := by nlinarith [abs_lt.mp hu]
  have h2 : v * v ≤ 1 := by nlinarith [abs_lt.mp hv]
  constructor
  · cases f <;> simp [inner, rawDirection] <;> linarith
  · cases f <;> simp [inner, rawDirection, faceNormal]

theorem third (a b c : ℝ) : (![a, b, c] : Vec) 2 = c := rfl

theorem ray_one : rayDirection 1 Face.zp 0 0 = ![0, 0, 1] := by
  funext k
  fin_cases k <;> norm_num [rayDirection, direction, normalized, rawDirection, centre, dot, third]

/-! ## Squares -/

theorem raster_eq (b e : ℝ) (res : Nat) (he : 0 ≤ e) (hb : b ≤ res) :
    raster b e res = (⌊max b 0⌋, min (⌊e⌋ + 1) (res : Int)) := by
  unfold raster
  have e0 : (0 : Int) ≤ ⌊e⌋ := Int.floor_nonneg.mpr he
  have h2 : toInt e = ⌊e⌋ := by unfold toInt; rw [if_pos he]
  rw [h2]
  have h3 : clamp (⌊e⌋ + 1) 0 res = min (⌊e⌋ + 1) (res : Int) := by
    unfold clamp
    rw [if_neg (by omega)]
    split_ifs <;> omega
  rw [h3]
  congr 1
  by_cases h : 0 ≤ b
  · have hf : ⌊b⌋ ≤ (res : Int) := by
      have := Int.floor_le_floor hb
      simpa using this
    have h0 : (0 : Int) ≤ ⌊b⌋ := Int.floor_nonneg.mpr h
    unfold toInt clamp
    rw [if_pos h, max_eq_left h, if_neg (by omega), if_neg (by omega)]
  · rw [max_eq_right (not_le.mp h).le, Int.floor_zero]
    unfold toInt clamp
    rw [if_neg h]
    have : ⌈b⌉ ≤ 0 := Int.ceil_le.mpr (by push_cast; exact (not_le.mp h).le)
    split_ifs <;> omega

theorem cover_step (b e i : ℝ) (hi : i ≤ e) (hb : b ≤ i + 1) (hbe : b ≤ e) :
    min (i + 1) e - max i b = max b (min (i + 1) e) - max b (min i e) := by
  rw [max_eq_right (le_min hb hbe), min_eq_left hi, max_comm]

theorem cover_sum (b e : ℝ) (hbe : b ≤ e) (s : Int) (m : Nat) (hs : b ≤ s + 1) (hm : ∀ k : Nat, k < m → ((s : ℝ) + k) ≤ e) :
    ((List.range m).map fun k : Nat => cover b e (s + (k : Int))).sum
      = max b (min ((s : ℝ) + m) e) - max b (min (s : ℝ) e) := by
  induction m with
  | zero => simp
  | succ m ih =>
    rw [List.range_succ, List.map_append, List.sum_append, ih fun k hk => hm k (by omega)]
    simp only [List.map_cons, List.map_nil, List.sum_cons, List.sum_nil, add_zero]
    unfold cover
    push_cast
    rw [cover_step b e _ (hm m (by omega)) (by
      have : (0 : ℝ) ≤ m := Nat.cast_nonneg m
      linarith) hbe, add_assoc (s : ℝ)]
    ring

/-! ## Occlusion -/

theorem occ_fold (c : ℝ) (l : List Pix) (s : ℝ × ℝ) :
    l.foldl (occBody c) s = (s.1 + (l.map fun x => max 0 (x.cosine - c) * x.size * min 1 x.value).sum,
      s.2 + (l.map fun x => max 0 (x.cosine - c) * x.size).sum) := by
  induction l generalizing s with
  | nil => simp
  | cons x l ih =>
    rw [List.foldl_cons, ih]
    simp only [List.map_cons, List.sum_cons]
    unfold occBody
    by_cases h : x.cosine - c > 0
    · simp only [h, if_true]
      rw [max_eq_right h.le]
      ext <;> ring
    · simp only [h, if_false]
      rw [max_eq_left (not_lt.mp h)]
      ext <;> ring

theorem sum_nonneg_map (l : List Pix) (g : Pix → ℝ) (h : ∀ x ∈ l, 0 ≤ g x) : 0 ≤ (l.map g).sum := by
  apply List.sum_nonneg
  intro y hy
  obtain ⟨x, hx, rfl⟩ := List.mem_map.mp hy
  exact h x hx

theorem sum_le_map (l : List Pix) (g g' : Pix → ℝ) (h : ∀ x ∈ l, g x ≤ g' x) : (l.map g).sum ≤ (l.map g').sum := by
  induction l with
  | nil => simp
  | cons x l ih =>
    simp only [List.map_cons, List.sum_cons]
    exact add_le_add (h x (by simp)) (ih fun y hy => h y (by simp [hy]))

end Verif.Point
