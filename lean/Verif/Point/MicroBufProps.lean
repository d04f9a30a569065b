import Verif.Point.MicroBufLemmas

/-!
C104: Cubes of small pictures around a point
-/

namespace Verif.Point

open Spec Face

/-- The coordinates on a face of the direction of a place on the face are that place. -/
theorem C104_coords_direction (f : Face) (u v : ℝ) : faceCoords f (direction f u v) = some (u, v) := by
  unfold direction normalized
  rw [faceCoords_scale _ _ _ (Real.sqrt_pos.mpr (raw_pos f u v)).ne']
  cases f <;> simp [faceCoords, canonicalFaceCoords, rawDirection]

/-- The direction of the coordinates of a vector in front of a face is that of the vector. -/
theorem C104_direction_coords (f : Face) (p : Vec) (h : 0 < dotFaceNormal f p) :
    ∃ u v, faceCoords f p = some (u, v) ∧ ∀ k, direction f u v k = p k / len p := by
  have hz : canonicalFaceCoords f p 2 ≠ 0 := by
    cases f <;> simp [canonicalFaceCoords, dotFaceNormal] at h ⊢ <;> linarith
  refine ⟨_, _, by unfold faceCoords; rw [if_neg hz], ?_⟩
  generalize hu : canonicalFaceCoords f p 0 * (1 / canonicalFaceCoords f p 2) = u
  generalize hv : canonicalFaceCoords f p 1 * (1 / canonicalFaceCoords f p 2) = v
  have hd : ∀ k, rawDirection f u v k = p k / dotFaceNormal f p := by
    intro k
    subst hu; subst hv
    cases f <;> fin_cases k <;> simp [canonicalFaceCoords, dotFaceNormal, rawDirection] at h hz ⊢ <;> field_simp
  have hs : dot (rawDirection f u v) (rawDirection f u v) = dot p p / (dotFaceNormal f p * dotFaceNormal f p) := by
    unfold dot
    rw [hd, hd, hd]
    field_simp
  intro k
  unfold direction normalized
  rw [hs, Real.sqrt_div' _ (mul_self_nonneg _), Real.sqrt_mul_self h.le, hd]
  have : Real.sqrt (dot p p) = len p := rfl
  rw [this]
  by_cases hl : len p = 0
  · simp [hl]
  · field_simp

/-- The face of a vector is the one it goes through: the coordinate across is the largest, and the coordinates on the face are
between -1 and 1. -/
theorem C104_face (p : Vec) (hp : p ≠ 0) :
    dotFaceNormal (faceIndex p) p = largest p ∧ 0 < largest p ∧
      ∃ u v, faceCoords (faceIndex p) p = some (u, v) ∧ |u| ≤ 1 ∧ |v| ≤ 1 := by
  have hpos : 0 < largest p := by
    by_contra h
    apply hp
    have h0 := abs_nonneg (p 0)
    have h1 := abs_nonneg (p 1)
    have h2 := abs_nonneg (p 2)
    have m0 := le_max_left |p 0| (max |p 1| |p 2|)
    have m1 := (le_max_left |p 1| |p 2|).trans (le_max_right |p 0| _)
    have m2 := (le_max_right |p 1| |p 2|).trans (le_max_right |p 0| _)
    unfold largest at h
    funext k
    fin_cases k
    · show p 0 = 0
      exact abs_eq_zero.mp (by linarith)
    · show p 1 = 0
      exact abs_eq_zero.mp (by linarith)
    · show p 2 = 0
      exact abs_eq_zero.mp (by linarith)
  have key : dotFaceNormal (faceIndex p) p = largest p := by
    unfold faceIndex largest
    split_ifs with h1 h2 h3 h4 h5
    · rw [max_eq_left (max_le h1.1 h1.2)]
      exact (abs_of_pos h2).symm
    · rw [max_eq_left (max_le h1.1 h1.2)]
      exact (abs_of_nonpos (not_lt.mp h2)).symm
    · rw [max_eq_right (h3.1.trans (le_max_left _ _)), max_eq_left h3.2]
      exact (abs_of_pos h4).symm
    · rw [max_eq_right (h3.1.trans (le_max_left _ _)), max_eq_left h3.2]
      exact (abs_of_nonpos (not_lt.mp h4)).symm
    all_goals
      have hz : |p 0| ≤ |p 2| ∧ |p 1| ≤ |p 2| := by
        rcases le_total |p 0| |p 1| with a | a
        · have : ¬ |p 1| ≥ |p 2| := fun h => h3 ⟨a, h⟩
          constructor <;> linarith [not_le.mp this]
        · have : ¬ |p 0| ≥ |p 2| := fun h => h1 ⟨a, h⟩
          constructor <;> linarith [not_le.mp this]
      rw [max_eq_right (hz.1.trans (le_max_right _ _)), max_eq_right hz.2]
    · exact (abs_of_pos h5).symm
    · exact (abs_of_nonpos (not_lt.mp h5)).symm
  refine ⟨key, hpos, ?_⟩
  have hc : ∀ k, |canonicalFaceCoords (faceIndex p) p k| ≤ largest p := by
    intro k
    have m0 := le_max_left |p 0| (max |p 1| |p 2|)
    have m1 := (le_max_left |p 1| |p 2|).trans (le_max_right |p 0| _)
    have m2 := (le_max_right |p 1| |p 2|).trans (le_max_right |p 0| _)
    unfold largest
    cases faceIndex p <;> fin_cases k <;> simp only [canonicalFaceCoords] <;> simp
  have hz : |canonicalFaceCoords (faceIndex p) p 2| = largest p := by
    rw [← key]
    rw [← key] at hpos
    cases hf : faceIndex p <;> rw [hf] at hpos <;> simp [canonicalFaceCoords, dotFaceNormal] at hpos ⊢
    · exact hpos.le
    · exact hpos.le
    · exact hpos.le
    · exact hpos.le
    · exact hpos.le
    · exact hpos.le
  have hz0 : canonicalFaceCoords (faceIndex p) p 2 ≠ 0 := fun h => by rw [h, abs_zero] at hz; linarith
  refine ⟨_, _, by unfold faceCoords; rw [if_neg hz0], ?_, ?_⟩
  · rw [mul_one_div, abs_div, hz, div_le_one hpos]
    exact hc 0
  · rw [mul_one_div, abs_div, hz, div_le_one hpos]
    exact hc 1

example : faceIndex ![1, -3, 2] = yn := by
  unfold faceIndex
  simp
  norm_num

/-- The edges of a face are edges of its neighbours, and the table of normals is that of `dotFaceNormal`. -/
theorem C104_neighbours (f : Face) (t : ℝ) (p : Vec) :
    dotFaceNormal (neighbourU f false) (rawDirection f (-1) t) = 1 ∧ dotFaceNormal (neighbourU f true) (rawDirection f 1 t) = 1 ∧
    dotFaceNormal (neighbourV f false) (rawDirection f t (-1)) = 1 ∧ dotFaceNormal (neighbourV f true) (rawDirection f t 1) = 1 ∧
    dotFaceNormal f (rawDirection f t t) = 1 ∧ dotFaceNormal f p = inner p (faceNormal f) := by
  cases f <;> simp [dotFaceNormal, neighbourU, neighbourV, rawDirection, inner, faceNormal]

/-- Each pixel of each face has its own place in the store. -/
theorem C104_slots (res : Nat) (f f' : Face) (u v u' v' : Nat) (hu : u < res) (hv : v < res) (hu' : u' < res) (hv' : v' < res) :
    slot res f u v < 6 * res * res ∧ (slot res f u v = slot res f' u' v' → f = f' ∧ u = u' ∧ v = v') := by
  have hn : ∀ g : Face, g.num < 6 := by intro g; cases g <;> decide
  have hr : 0 < res := by omega
  unfold slot
  constructor
  · have h1 : f.num * res + v < 6 * res := by have := hn f; nlinarith
    nlinarith
  · intro h
    have h1 : u = u' := by
      have := congrArg (· % res) h
      simpa [Nat.mul_comm _ res, Nat.mul_add_mod, Nat.mod_eq_of_lt hu, Nat.mod_eq_of_lt hu'] using this
    have h2 : f.num * res + v = f'.num * res + v' := by
      have := congrArg (· / res) h
      simpa [Nat.mul_comm _ res, Nat.mul_add_div hr, Nat.div_eq_of_lt hu, Nat.div_eq_of_lt hu'] using this
    have h3 : v = v' := by
      have := congrArg (· % res) h2
      simpa [Nat.mul_comm _ res, Nat.mul_add_mod, Nat.mod_eq_of_lt hv, Nat.mod_eq_of_lt hv'] using this
    have h4 : f.num = f'.num := by
      have := congrArg (· / res) h2
      simpa [Nat.mul_comm _ res, Nat.mul_add_div hr, Nat.div_eq_of_lt hv, Nat.div_eq_of_lt hv'] using this
    refine ⟨?_, h1, h3⟩
    cases f <;> cases f' <;> simp [Face.num] at h4 ⊢

/-- The size of a pixel is its area over the third power of its distance; middles of pixels are inside the face. -/
theorem C104_pixelSize (res iu iv : Nat) (hu : iu < res) (hv : iv < res) :
    let d := len ![centre res iu, centre res iv, 1]
    pixelSize res iu iv = 4 / (res : ℝ) ^ 2 / d ^ 3 ∧ 0 < pixelSize res iu iv ∧ |centre res iu| < 1 ∧ |centre res iv| < 1 := by
  intro d
  have hr : (0 : ℝ) < res := by exact_mod_cast (by omega : 0 < res)
  have hc : ∀ i : Nat, i < res → |centre res i| < 1 := by
    intro i hi
    have h1 : (i : ℝ) + 1 ≤ res := by exact_mod_cast hi
    have h0 : (0 : ℝ) ≤ i := by positivity
    unfold centre
    rw [abs_lt]
    constructor
    · have : 0 < (0.5 + (i : ℝ)) / res := by positivity
      linarith
    · have : (0.5 + (i : ℝ)) / res < 1 := by rw [div_lt_one hr]; linarith
      linarith
  have hp : 0 < centre res iu * centre res iu + centre res iv * centre res iv + 1 * 1 := by
    nlinarith [mul_self_nonneg (centre res iu), mul_self_nonneg (centre res iv)]
  have hd : d = Real.sqrt (centre res iu * centre res iu + centre res iv * centre res iv + 1 * 1) := rfl
  have dp : 0 < d := by rw [hd]; exact Real.sqrt_pos.mpr hp
  have hdd : d * d = centre res iu * centre res iu + centre res iv * centre res iv + 1 * 1 := by
    rw [hd]; exact Real.mul_self_sqrt hp.le
  have e : pixelSize res iu iv = 4 / (res : ℝ) ^ 2 / d ^ 3 := by
    have c : dotFaceNormal zp (rayDirection res zp iu iv) = 1 / d := by
      show (1 : ℝ) / Real.sqrt _ = _
      rw [hd]
      rfl
    unfold pixelSize
    simp only [c]
    rw [← hdd]
    field_simp
    ring
  exact ⟨e, by rw [e]; positivity, hc _ hu, hc _ hv⟩

/-- No point of a sphere said to be outside a cone is in the cone. The sine of the angle of the cone is not negative. -/
theorem C104_cone (p n : Vec) (r c s : ℝ) (hn : inner n n = 1) (hr : 0 ≤ r) (hs : 0 ≤ s) (hcs : c * c + s * s = 1)
    (h : sphereOutsideCone p (dot p p) r n c s = true) (q : Vec) (hq : q ≠ 0)
    (hin : inner (fun k => q k - p k) (fun k => q k - p k) ≤ r * r) : inner q n < c * len q := by
  by_contra hcon
  rw [not_lt] at hcon
  have dd : ∀ v w : Vec, dot v w = inner v w := fun _ _ => rfl
  unfold sphereOutsideCone at h
  rw [dd p p] at h
  by_cases hx : inner p p - r * r < 0
  · simp [hx] at h
  · by_cases hc : c < 0 ∧ inner p p - r * r < inner p p * c * c
    · simp [hx, hc] at h
    · simp only [if_neg hx, if_neg hc, decide_eq_true_eq] at h
      rw [not_lt] at hx
      have key := signed_sq hx h
      rw [dd] at key
      have hl2 : 0 < inner q q := by
        rcases lt_or_eq_of_le (inner_self_nonneg q) with l | l
        · exact l
        · exact absurd (inner_eq_zero l) hq
      have hl : 0 < len q := Real.sqrt_pos.mpr hl2
      have hll : len q * len q = inner q q := Real.mul_self_sqrt hl2.le
      have hd : inner (fun k => q k / len q) (fun k => q k / len q) = 1 := by
        have : inner (fun k => q k / len q) (fun k => q k / len q) = inner q q / (len q * len q) := by
          unfold inner; field_simp
        rw [this, hll, div_self hl2.ne']
      have ea : inner p (fun k => q k / len q) = inner p q / len q := by unfold inner; field_simp
      have eb : inner n (fun k => q k / len q) = inner q n / len q := by unfold inner; field_simp
      have ein : inner (fun k => q k - p k) (fun k => q k - p k) = inner q q - 2 * inner p q + inner p p := by
        unfold inner; ring
      rw [ein] at hin
      have sxx := Real.mul_self_sqrt hx
      have sx := Real.sqrt_nonneg (inner p p - r * r)
      have ha : Real.sqrt (inner p p - r * r) ≤ inner p (fun k => q k / len q) := by
        rw [ea, le_div_iff₀ hl]
        nlinarith [sq_nonneg (len q - Real.sqrt (inner p p - r * r))]
      have hb : c ≤ inner n (fun k => q k / len q) := by
        rw [eb, le_div_iff₀ hl]
        exact hcon
      have hP : 0 < inner p p := by
        rcases lt_or_eq_of_le (inner_self_nonneg p) with l | l
        · exact l
        · exfalso
          have r0 : r * r = 0 := by nlinarith [mul_self_nonneg r]
          have p0 : inner p q = 0 := by
            rw [inner_eq_zero l]
            simp [inner]
          linarith
      have hsum : 0 ≤ c ∨ inner p p * c * c ≤ inner p p - r * r := by
        by_cases h0 : 0 ≤ c
        · exact Or.inl h0
        · right
          by_contra h1
          exact hc ⟨not_le.mp h0, not_le.mp h1⟩
      have := cone_bound p n (fun k => q k / len q) r c s hn hd hr hs hcs hx hP hsum ha hb
      linarith

/-- A point is said to be outside exactly if it is. -/
theorem C104_cone_point (p n : Vec) (c s : ℝ) (hc : c * c ≤ 1) :
    sphereOutsideCone p (dot p p) 0 n c s = true ↔ inner p n < c * len p := by
  have e : dot p p = inner p p := rfl
  have hp := inner_self_nonneg p
  unfold sphereOutsideCone
  rw [e]
  have h1 : ¬ inner p p - 0 * 0 < 0 := by linarith
  have h2 : ¬ (c < 0 ∧ inner p p - 0 * 0 < inner p p * c * c) := by
    rintro ⟨-, h⟩
    nlinarith
  simp only [if_neg h1, if_neg h2, decide_eq_true_eq]
  have h3 : dot p n + 0 * s = inner p n := by unfold dot inner; ring
  have h4 : inner p p - 0 * 0 = inner p p := by ring
  rw [h3, h4]
  have h5 : Real.sqrt (inner p p) * c = c * len p := by rw [mul_comm]; rfl
  rw [← h5]
  exact ⟨signed_sq hp, signed_sq_conv hp⟩

example : sphereOutsideCone ![0, 0, -2] (dot ![0, 0, -2] ![0, 0, -2]) 0 ![0, 0, 1] 0 1 = true := by
  rw [C104_cone_point _ _ _ _ (by norm_num)]
  simp [inner]

/-- The roots of a quadratic equation with real roots, the lower one first. -/
theorem C104_quadratic (a b c : ℝ) (ha : 0 < a) (hd : 0 ≤ b * b - 4 * a * c) :
    let r := solveQuadratic a b c
    r.1 ≤ r.2 ∧ (∀ x, a * x * x + b * x + c = 0 ↔ x = r.1 ∨ x = r.2) := by
  intro r
  have hr : r = (-b / (2 * a) - Real.sqrt (b * b - 4 * a * c) / (2 * a), -b / (2 * a) + Real.sqrt (b * b - 4 * a * c) / (2 * a)) := by
    show solveQuadratic a b c = _
    unfold solveQuadratic
    simp only [max_eq_right hd]
  rw [hr]
  have sp := Real.sqrt_nonneg (b * b - 4 * a * c)
  have ss := Real.mul_self_sqrt hd
  generalize Real.sqrt (b * b - 4 * a * c) = w at *
  refine ⟨?_, fun x => ?_⟩
  · have : 0 ≤ w / (2 * a) := by positivity
    show -b / (2 * a) - w / (2 * a) ≤ -b / (2 * a) + w / (2 * a)
    linarith
  · have e : a * x * x + b * x + c = a * ((x - (-b / (2 * a) - w / (2 * a))) * (x - (-b / (2 * a) + w / (2 * a)))) := by
      have : c = (b * b - w * w) / (4 * a) := by
        rw [ss]; field_simp; ring
      rw [this]
      field_simp
      ring
    rw [e]
    simp [ha.ne', sub_eq_zero]

example : solveQuadratic 1 (-3) 2 = (1, 2) := by
  unfold solveQuadratic
  norm_num

/-- The code for a face adds a sample to exactly the pixels whose rays hit the disk, unless the middle of the disk is behind the
face and the disk is turned to the face. -/
theorem C104_disk_partial (res : Nat) (p n : Vec) (r : ℝ) (f : Face) (iu iv : Nat) (hn : inner n n = 1) (hr : 0 ≤ r)
    (hcull : ¬ (dotFaceNormal f p < 0 ∧ |dotFaceNormal f n| > 1 / Real.sqrt 3)) :
    (iu, iv) ∈ exactOnFace res p n r f ↔ iu < res ∧ iv < res ∧ Hit p n r (rayDirection res f iu iv) := by
  have hscale : Hit p n r (rayDirection res f iu iv) ↔ Hit p n r (rawDirection f (centre res iu) (centre res iv)) :=
    hit_scale _ _ _ _ _ (Real.sqrt_pos.mpr (raw_pos _ _ _))
  unfold exactOnFace
  simp only
  by_cases hcone : sphereOutsideCone p (dot p p) r (faceNormal f) (1 / Real.sqrt 3) (Real.sqrt (2 / 3)) = true
  · rw [if_pos hcone]
    simp only [List.not_mem_nil, false_iff]
    rintro ⟨hu, hv, hh⟩
    rw [hscale] at hh
    obtain ⟨hV, t, t0, t1, t2⟩ := hh
    have hcu := (C104_pixelSize res iu iv hu hv).2.2
    obtain ⟨l1, l2⟩ := raw_le f _ _ hcu.1 hcu.2
    have hp := raw_pos f (centre res iu) (centre res iv)
    have ep : dot (rawDirection f (centre res iu) (centre res iv)) (rawDirection f (centre res iu) (centre res iv))
      = inner (rawDirection f (centre res iu) (centre res iv)) (rawDirection f (centre res iu) (centre res iv)) := rfl
    rw [ep] at hp
    generalize rawDirection f (centre res iu) (centre res iv) = W at *
    have s3 : 0 < Real.sqrt 3 := Real.sqrt_pos.mpr (by norm_num)
    have := C104_cone p (faceNormal f) r (1 / Real.sqrt 3) (Real.sqrt (2 / 3)) (by cases f <;> simp [inner, faceNormal]) hr
      (Real.sqrt_nonneg _) (by
        rw [Real.mul_self_sqrt (by norm_num)]
        have := Real.mul_self_sqrt (show (0 : ℝ) ≤ 3 by norm_num)
        rw [show (1 / Real.sqrt 3) * (1 / Real.sqrt 3) = 1 / (Real.sqrt 3 * Real.sqrt 3) by field_simp, this]
        norm_num) hcone (fun k => t * W k) (by
          intro h
          have : inner (fun k => t * W k) (fun k => t * W k) = t * t * inner W W := by unfold inner; ring
          rw [h] at this
          have z : inner (0 : Vec) 0 = 0 := by simp [inner]
          rw [z] at this
          have : 0 < t * t * inner W W := by positivity
          linarith) t2.le
    have e1 : inner (fun k => t * W k) (faceNormal f) = t := by
      have : inner (fun k => t * W k) (faceNormal f) = t * inner W (faceNormal f) := by unfold inner; ring
      rw [this, l2, mul_one]
    have e2 : len (fun k => t * W k) ≤ t * Real.sqrt 3 := by
      have : t * Real.sqrt 3 = Real.sqrt (t * t * 3) := by
        rw [Real.sqrt_mul (by positivity), Real.sqrt_mul_self t0.le]
      rw [this]
      apply Real.sqrt_le_sqrt
      have : t * W 0 * (t * W 0) + t * W 1 * (t * W 1) + t * W 2 * (t * W 2) = t * t * inner W W := by unfold inner; ring
      rw [this]
      exact mul_le_mul_of_nonneg_left l1 (by positivity)
    rw [e1] at this
    have l3 : 1 / Real.sqrt 3 * len (fun k => t * W k) ≤ t := by
      rw [one_div, inv_mul_le_iff₀ s3]
      linarith
    linarith
  · rw [if_neg hcone, if_neg hcull]
    by_cases hspan : (1 - dotFaceNormal f n * dotFaceNormal f n) * r * r ≥ dotFaceNormal f p * dotFaceNormal f p
    · rw [if_pos hspan, List.mem_filter, mem_pixels, decide_eq_true_eq, and_assoc]
      refine and_congr_right fun _ => and_congr_right fun _ => ?_
      have ed : ∀ a b : Vec, dot a b = inner a b := fun _ _ => rfl
      simp only [ed]
      constructor
      · rintro ⟨h1, h2, h3⟩
        exact ⟨h1, _, h2, (form_hit p n r _ h1).1, h3⟩
      · rintro ⟨h1, t, h2, h3, h4⟩
        obtain rfl := hit_unique p n _ t h1 h3
        exact ⟨h1, h2, h4⟩
    · rw [if_neg hspan]
      rw [ge_iff_le, not_le] at hspan
      have hWf := raw_one f (centre res iu) (centre res iv)
      by_cases hb : dotFaceNormal f p < 0
      · rw [if_pos hb]
        simp only [List.not_mem_nil, false_iff]
        rintro ⟨hu, hv, hh⟩
        rw [hscale, hit_iff] at hh
        have := front f p n r _ hn hWf hspan hh.1 hh.2.2
        nlinarith [hh.2.1]
      · rw [if_neg hb, List.mem_filter, mem_pixels, and_assoc]
        refine and_congr_right fun hu => and_congr_right fun hv => ?_
        rw [takes_iff res f p n r iu iv hu hv hn hspan, hscale, hit_iff]
        constructor
        · intro h
          have hWn : inner (rawDirection f (centre res iu) (centre res iv)) n ≠ 0 := by
            intro h0
            unfold form at h
            rw [h0] at h
            have := mul_nonneg (mul_self_nonneg (inner p n)) (inner_self_nonneg (rawDirection f (centre res iu) (centre res iv)))
            linarith
          have := front f p n r _ hn hWf hspan hWn h
          exact ⟨hWn, pos_of_mul_pos_left this (not_lt.mp hb), h⟩
        · exact fun h => h.2.2

/-- Non-vacuity: the ray along the normal of a face hits a disk in front. -/
example : (0, 0) ∈ exactOnFace 1 ![0, 0, 2] ![0, 0, -1] 1 Face.zp := by
  rw [C104_disk_partial _ _ _ _ _ _ _ (by norm_num [inner, third]) (by norm_num) (by norm_num [dotFaceNormal, third])]
  refine ⟨by norm_num, by norm_num, ?_⟩
  have : rayDirection 1 Face.zp 0 0 = ![0, 0, 1] := by
    funext k
    fin_cases k <;> norm_num [rayDirection, direction, normalized, rawDirection, centre, dot, third]
  rw [this]
  exact ⟨by norm_num [inner, third], 2, by norm_num, by norm_num [inner, third], by norm_num [inner, third]⟩

/-- The code throws away a large disk whose middle is behind the face, though it reaches in front of the face and is hit. -/
theorem C104_disk_violated : ∃ (p n : Vec) (r : ℝ), inner n n = 1 ∧ 0 ≤ r ∧
    Hit p n r (rayDirection 1 Face.zp 0 0) ∧ (0, 0) ∉ exactOnFace 1 p n r Face.zp := by
  refine ⟨![10, 0, -1], ![-3 / 5, 0, -4 / 5], 13, by norm_num [inner, third], by norm_num, ?_, ?_⟩
  · rw [ray_one]
    exact ⟨by norm_num [inner, third], 13 / 2, by norm_num, by norm_num [inner, third], by norm_num [inner, third]⟩
  · unfold exactOnFace
    simp only
    split_ifs with h1 h2
    · simp
    · simp
    all_goals
      exfalso
      apply h2
      refine ⟨by norm_num [dotFaceNormal, third], ?_⟩
      have h3 : (5 / 3 : ℝ) < Real.sqrt 3 := by
        rw [Real.lt_sqrt (by norm_num)]; norm_num
      have h4 : 1 / Real.sqrt 3 < 1 / (5 / 3) := one_div_lt_one_div_of_lt (by norm_num) h3
      have h5 : |dotFaceNormal Face.zp ![-3 / 5, 0, -4 / 5]| = 4 / 5 := by
        norm_num [dotFaceNormal, third, abs_of_neg, abs_of_pos]
      rw [h5]
      linarith

/-- The loop over the faces is empty, so a disk is never drawn, though there are disks that rays hit. -/
theorem C104_faces_violated :
    (∀ res p n r, renderDiskExact p (exactOnFace res p n r) = []) ∧
    ∃ (p n : Vec) (r : ℝ), inner n n = 1 ∧ 0 ≤ r ∧ Hit p n r (rayDirection 1 Face.zp 0 0) := by
  constructor
  · intro res p n r
    have : exactFaces = [] := by decide
    unfold renderDiskExact
    rw [this]
    simp
  · refine ⟨![0, 0, 2], ![0, 0, -1], 1, by norm_num [inner, third], by norm_num, ?_⟩
    rw [ray_one]
    exact ⟨by norm_num [inner, third], 2, by norm_num, by norm_num [inner, third], by norm_num [inner, third]⟩

/-- A side of a square that does not end before the face gives each pixel of a line the length of the part of the side that is in
the pixel, and together the length of the part that is on the face. -/
theorem C104_coverage_partial (b e : ℝ) (res : Nat) (hbe : b ≤ e) (he : 0 ≤ e) (hb : b ≤ res) :
    lineSum b e res = min e res - max b 0 ∧
    ∀ i : Int, 0 ≤ i → i < res →
      (if (raster b e res).1 ≤ i ∧ i < (raster b e res).2 then cover b e i else 0)
        = max 0 (min ((i : ℝ) + 1) e - max (i : ℝ) b) := by
  rw [raster_eq b e res he hb]
  have fb : (⌊max b 0⌋ : ℝ) ≤ max b 0 := Int.floor_le _
  have fb' : max b 0 < ⌊max b 0⌋ + 1 := Int.lt_floor_add_one _
  have fe : (⌊e⌋ : ℝ) ≤ e := Int.floor_le _
  have fe' : e < ⌊e⌋ + 1 := Int.lt_floor_add_one _
  have m1 : b ≤ max b 0 := le_max_left _ _
  have hme : max b 0 ≤ e := max_le hbe he
  have hmr : max b 0 ≤ (res : ℝ) := max_le hb (Nat.cast_nonneg _)
  have s0 : 0 ≤ ⌊max b 0⌋ := Int.floor_nonneg.mpr (le_max_right _ _)
  have s1 : ⌊max b 0⌋ ≤ ⌊e⌋ := Int.floor_le_floor hme
  have s2 : ⌊max b 0⌋ ≤ (res : Int) := by have := Int.floor_le_floor hmr; simpa using this
  constructor
  · unfold lineSum
    rw [raster_eq b e res he hb]
    simp only
    have hm : ((⌊max b 0⌋ : ℝ) + ((min (⌊e⌋ + 1) (res : Int) - ⌊max b 0⌋).toNat : ℝ)) = (min (⌊e⌋ + 1) (res : Int) : Int) := by
      have : ⌊max b 0⌋ + ((min (⌊e⌋ + 1) (res : Int) - ⌊max b 0⌋).toNat : Int) = min (⌊e⌋ + 1) (res : Int) := by omega
      exact_mod_cast this
    rw [cover_sum b e hbe _ _ (by linarith) (by
      intro k hk
      have : ⌊max b 0⌋ + (k : Int) ≤ ⌊e⌋ := by omega
      have : ((⌊max b 0⌋ : ℝ) + k) ≤ ⌊e⌋ := by exact_mod_cast this
      linarith), hm]
    have g1 : max b (min ((min (⌊e⌋ + 1) (res : Int) : Int) : ℝ) e) = min e res := by
      rcases le_total (⌊e⌋ + 1) (res : Int) with h | h
      · rw [min_eq_left h]
        have h' : ((⌊e⌋ : ℝ) + 1) ≤ res := by exact_mod_cast h
        push_cast
        rw [min_eq_right fe'.le, max_eq_right hbe, min_eq_left (by linarith)]
      · rw [min_eq_right h]
        rcases lt_or_eq_of_le h with h | h
        · have h' : (res : ℝ) ≤ ⌊e⌋ := by exact_mod_cast (by omega : (res : Int) ≤ ⌊e⌋)
          push_cast
          rw [min_eq_left (by linarith), max_eq_right hb, min_eq_right (by linarith)]
        · have h' : (res : ℝ) = ⌊e⌋ + 1 := by exact_mod_cast h
          push_cast
          rw [min_eq_right (by linarith), max_eq_right hbe, min_eq_left (by linarith)]
    have g2 : max b (min (⌊max b 0⌋ : ℝ) e) = max b 0 := by
      rw [min_eq_left (by linarith)]
      by_cases h : 0 ≤ b
      · rw [max_eq_left h]
        exact max_eq_left (Int.floor_le b)
      · rw [max_eq_right (not_le.mp h).le, Int.floor_zero, Int.cast_zero, max_eq_right (not_le.mp h).le]
    rw [g1, g2]
  · intro i i0 i1
    simp only
    have ir : (0 : ℝ) ≤ i := by exact_mod_cast i0
    split_ifs with h
    · unfold cover
      refine (max_eq_right ?_).symm
      have h1 : (⌊max b 0⌋ : ℝ) ≤ i := by exact_mod_cast h.1
      have h2 : (i : ℝ) ≤ ⌊e⌋ := by exact_mod_cast (by omega : i ≤ ⌊e⌋)
      rw [sub_nonneg]
      exact max_le (le_min (by linarith) (by linarith)) (le_min (by linarith) hbe)
    · rw [max_eq_left]
      rw [sub_nonpos]
      rw [not_and_or, not_le, not_lt] at h
      rcases h with h | h
      · have : ((i : ℝ) + 1) ≤ ⌊max b 0⌋ := by exact_mod_cast (by omega : i + 1 ≤ ⌊max b 0⌋)
        have hb0 : 0 ≤ b := by
          by_contra hc
          rw [max_eq_right (not_le.mp hc).le] at this
          simp at this
          linarith
        rw [max_eq_left hb0] at this fb
        exact (min_le_left _ _).trans ((by linarith : (i : ℝ) + 1 ≤ b).trans (le_max_right _ _))
      · have : ((⌊e⌋ : ℝ) + 1) ≤ i := by exact_mod_cast (by omega : ⌊e⌋ + 1 ≤ i)
        exact (min_le_right _ _).trans ((by linarith : e ≤ (i : ℝ)).trans (le_max_left _ _))

/-- Non-vacuity: a side over two pixels. -/
example : lineSum (1 / 2) (3 / 2) 4 = 1 := by
  rw [(C104_coverage_partial (1 / 2) (3 / 2) 4 (by norm_num) (by norm_num) (by norm_num)).1]
  norm_num

/-- A side that ends less than a pixel before the face takes away from the first pixel. -/
theorem C104_coverage_violated : lineSum (-1) (-1 / 2) 4 = -1 / 2 := by
  unfold lineSum
  have h1 : toInt (-1) = -1 := by unfold toInt; norm_num
  have h2 : toInt (-1 / 2) = 0 := by
    unfold toInt
    rw [if_neg (by norm_num), Int.ceil_eq_iff]
    norm_num
  have : raster (-1) (-1 / 2) 4 = (0, 1) := by
    unfold raster clamp
    rw [h1, h2]
    norm_num
  rw [this]
  norm_num [cover]

/-- The occlusion is the mean of what was added to the pixels, each at most one, with the cosines less that of the cone times the
sizes as weights. -/
theorem C104_occlusion (c : ℝ) (l : List Pix) (h : (l.map fun x => max 0 (x.cosine - c) * x.size).sum ≠ 0) :
    occlusion c l = (l.map fun x => max 0 (x.cosine - c) * x.size * min 1 x.value).sum
      / (l.map fun x => max 0 (x.cosine - c) * x.size).sum := by
  unfold occlusion
  rw [occ_fold]
  simp only [zero_add]
  rw [if_pos h]

/-- Non-vacuity: one pixel. -/
example : occlusion 0 [⟨1, 2, 1 / 2⟩] = 1 / 2 := by
  rw [C104_occlusion _ _ (by norm_num)]
  norm_num

/-- The occlusion is between nothing and one; it is one when all pixels in the cone are covered, and nothing when none is. -/
theorem C104_occlusion_bounds (c : ℝ) (l : List Pix) (hs : ∀ x ∈ l, 0 < x.size) (hv : ∀ x ∈ l, 0 ≤ x.value) :
    0 ≤ occlusion c l ∧ occlusion c l ≤ 1 ∧
    ((∃ x ∈ l, c < x.cosine) → (∀ x ∈ l, c < x.cosine → 1 ≤ x.value) → occlusion c l = 1) ∧
    ((∀ x ∈ l, c < x.cosine → x.value = 0) → occlusion c l = 0) := by
  have w0 : ∀ x ∈ l, 0 ≤ max 0 (x.cosine - c) * x.size := fun x hx => mul_nonneg (le_max_left _ _) (hs x hx).le
  have S0 := sum_nonneg_map l _ w0
  have N0 := sum_nonneg_map l (fun x => max 0 (x.cosine - c) * x.size * min 1 x.value)
    fun x hx => mul_nonneg (w0 x hx) (le_min zero_le_one (hv x hx))
  have NS := sum_le_map l (fun x => max 0 (x.cosine - c) * x.size * min 1 x.value) (fun x => max 0 (x.cosine - c) * x.size)
    fun x hx => mul_le_of_le_one_right (w0 x hx) (min_le_left _ _)
  have out : ∀ x : Pix, ¬ c < x.cosine → max 0 (x.cosine - c) = 0 := fun x hx => max_eq_left (by linarith)
  by_cases h : (l.map fun x => max 0 (x.cosine - c) * x.size).sum = 0
  · have N : (l.map fun x => max 0 (x.cosine - c) * x.size * min 1 x.value).sum = 0 := le_antisymm (NS.trans h.le) N0
    have e : occlusion c l = 0 := by
      unfold occlusion
      rw [occ_fold]
      simp only [zero_add]
      rw [if_neg (by simpa using h), N]
    rw [e]
    refine ⟨le_refl _, zero_le_one, ?_, fun _ => rfl⟩
    rintro ⟨x, hx, hc⟩ _
    exfalso
    have : max 0 (x.cosine - c) * x.size ≤ (l.map fun x => max 0 (x.cosine - c) * x.size).sum := by
      apply List.single_le_sum
      · intro y hy
        obtain ⟨z, hz, rfl⟩ := List.mem_map.mp hy
        exact w0 z hz
      · exact List.mem_map.mpr ⟨x, hx, rfl⟩
    rw [h, max_eq_right (by linarith)] at this
    have := mul_pos (sub_pos.mpr hc) (hs x hx)
    linarith
  · have Sp : 0 < (l.map fun x => max 0 (x.cosine - c) * x.size).sum := lt_of_le_of_ne S0 (Ne.symm h)
    rw [C104_occlusion c l h]
    refine ⟨div_nonneg N0 S0, (div_le_one Sp).mpr NS, ?_, ?_⟩
    · intro _ h1
      rw [div_eq_one_iff_eq h]
      congr 1
      apply List.map_congr_left
      intro x hx
      by_cases hc : c < x.cosine
      · rw [min_eq_left (h1 x hx hc), mul_one]
      · rw [out x hc]; ring
    · intro h1
      rw [div_eq_zero_iff]
      left
      apply List.sum_eq_zero
      intro y hy
      obtain ⟨x, hx, rfl⟩ := List.mem_map.mp hy
      by_cases hc : c < x.cosine
      · rw [h1 x hx hc]; simp
      · rw [out x hc]; ring

/-- Non-vacuity: a pixel that is covered twice. -/
example : occlusion 0 [⟨1, 2, 2⟩] = 1 :=
  (C104_occlusion_bounds 0 [⟨1, 2, 2⟩] (by simp) (by simp)).2.2.1 ⟨⟨1, 2, 2⟩, by simp, by norm_num⟩ (by simp)

end Verif.Point
