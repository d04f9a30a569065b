import Verif.Tex.EnvLemmas

/-!
C87: the regions textures and environment maps are filtered over.
-/

namespace Verif.Tex.Env
open Verif.Tex.Ewa Verif.Tex.Ewa.Spec Spec

/-! ### Quadrilaterals and parallelograms -/

/-- C87: a quadrilateral is scaled about its centre, which is the mean of its corners. -/
theorem C87_quad_width (q : Quad) (xw yw : ℝ) :
    (q.scaleWidth xw yw).center = q.center ∧
    q.center = ⟨(q.v1.x + q.v2.x + q.v3.x + q.v4.x) / 4, (q.v1.y + q.v2.y + q.v3.y + q.v4.y) / 4⟩ ∧
    ∀ v ∈ [Quad.v1, Quad.v2, Quad.v3, Quad.v4],
      (v (q.scaleWidth xw yw)).x - q.center.x = xw * ((v q).x - q.center.x) ∧
      (v (q.scaleWidth xw yw)).y - q.center.y = yw * ((v q).y - q.center.y) := by
  unfold Quad.scaleWidth
  by_cases h : xw ≠ 1 ∨ yw ≠ 1
  · rw [if_pos h]
    refine ⟨?_, ?_, ?_⟩
    · ext <;> simp only [Quad.center, mul2, add2] <;> ring
    · ext <;> simp only [Quad.center, mul2, add2] <;> ring
    · intro v hv
      simp only [List.mem_cons, List.not_mem_nil, or_false] at hv
      rcases hv with rfl | rfl | rfl | rfl <;> constructor <;> ring
  · rw [if_neg h]
    rw [not_or, not_not, not_not] at h
    obtain ⟨rfl, rfl⟩ := h
    refine ⟨rfl, ?_, ?_⟩
    · ext <;> simp only [Quad.center, mul2, add2] <;> ring
    · intro v _
      constructor <;> ring

/-- C87: the parallelogram of a quadrilateral that is one has its corners. -/
theorem C87_of_quad (q : Quad) (hx : q.v1.x + q.v4.x = q.v2.x + q.v3.x)
    (hy : q.v1.y + q.v4.y = q.v2.y + q.v3.y) :
    q.v1 = ⟨(ofQuad q).c.x - (ofQuad q).s1.x / 2 + (ofQuad q).s2.x / 2,
      (ofQuad q).c.y - (ofQuad q).s1.y / 2 + (ofQuad q).s2.y / 2⟩ ∧
    q.v2 = ⟨(ofQuad q).c.x + (ofQuad q).s1.x / 2 + (ofQuad q).s2.x / 2,
      (ofQuad q).c.y + (ofQuad q).s1.y / 2 + (ofQuad q).s2.y / 2⟩ ∧
    q.v3 = ⟨(ofQuad q).c.x - (ofQuad q).s1.x / 2 - (ofQuad q).s2.x / 2,
      (ofQuad q).c.y - (ofQuad q).s1.y / 2 - (ofQuad q).s2.y / 2⟩ ∧
    q.v4 = ⟨(ofQuad q).c.x + (ofQuad q).s1.x / 2 - (ofQuad q).s2.x / 2,
      (ofQuad q).c.y + (ofQuad q).s1.y / 2 - (ofQuad q).s2.y / 2⟩ := by
  have e1 : q.v4.x = q.v2.x + q.v3.x - q.v1.x := by linarith
  have e2 : q.v4.y = q.v2.y + q.v3.y - q.v1.y := by linarith
  refine ⟨?_, ?_, ?_, ?_⟩ <;> ext <;>
    simp only [ofQuad, Quad.center, mul2, add2, sub2, e1, e2] <;> ring

example : ∃ q : Quad, q.v1.x + q.v4.x = q.v2.x + q.v3.x ∧ q.v1.y + q.v4.y = q.v2.y + q.v3.y ∧
    q.v1 ≠ q.v4 := by
  refine ⟨⟨⟨0, 1⟩, ⟨1, 1⟩, ⟨0, 0⟩, ⟨1, 0⟩⟩, by norm_num, by norm_num, ?_⟩
  intro h
  have := congrArg V2.x h
  norm_num at this

/-- C87: a quadrilateral is moved by whole numbers, along the periodic axes only, so that its lower
left end is in the texture. -/
theorem C87_quad_periodic (q : Quad) (xp yp : Bool) :
    ∃ m n : ℤ, (∀ v ∈ [Quad.v1, Quad.v2, Quad.v3, Quad.v4], MovedBy (v q) (v (q.remapPeriodic xp yp)) m n) ∧
      (xp = false → m = 0) ∧ (yp = false → n = 0) ∧
      (xp = true → (∀ v ∈ [Quad.v1, Quad.v2, Quad.v3, Quad.v4], 0 ≤ (v (q.remapPeriodic xp yp)).x) ∧
        ∃ v ∈ [Quad.v1, Quad.v2, Quad.v3, Quad.v4], (v (q.remapPeriodic xp yp)).x < 1) ∧
      (yp = true → (∀ v ∈ [Quad.v1, Quad.v2, Quad.v3, Quad.v4], 0 ≤ (v (q.remapPeriodic xp yp)).y) ∧
        ∃ v ∈ [Quad.v1, Quad.v2, Quad.v3, Quad.v4], (v (q.remapPeriodic xp yp)).y < 1) := by
  set X := min (min (min q.v1.x q.v2.x) q.v3.x) q.v4.x with hX
  set Y := min (min (min q.v1.y q.v2.y) q.v3.y) q.v4.y with hY
  have bX : ∀ v ∈ [Quad.v1, Quad.v2, Quad.v3, Quad.v4], X ≤ (v q).x := by
    intro v hv
    simp only [List.mem_cons, List.not_mem_nil, or_false] at hv
    rcases hv with rfl | rfl | rfl | rfl <;> simp [hX]
  have bY : ∀ v ∈ [Quad.v1, Quad.v2, Quad.v3, Quad.v4], Y ≤ (v q).y := by
    intro v hv
    simp only [List.mem_cons, List.not_mem_nil, or_false] at hv
    rcases hv with rfl | rfl | rfl | rfl <;> simp [hY]
  have aX : ∃ v ∈ [Quad.v1, Quad.v2, Quad.v3, Quad.v4], (v q).x = X := by
    rcases min_choice (min (min q.v1.x q.v2.x) q.v3.x) q.v4.x with h | h
    · rcases min_choice (min q.v1.x q.v2.x) q.v3.x with h2 | h2
      · rcases min_choice q.v1.x q.v2.x with h3 | h3
        · exact ⟨Quad.v1, by simp, by rw [hX, h, h2, h3]⟩
        · exact ⟨Quad.v2, by simp, by rw [hX, h, h2, h3]⟩
      · exact ⟨Quad.v3, by simp, by rw [hX, h, h2]⟩
    · exact ⟨Quad.v4, by simp, by rw [hX, h]⟩
  have aY : ∃ v ∈ [Quad.v1, Quad.v2, Quad.v3, Quad.v4], (v q).y = Y := by
    rcases min_choice (min (min q.v1.y q.v2.y) q.v3.y) q.v4.y with h | h
    · rcases min_choice (min q.v1.y q.v2.y) q.v3.y with h2 | h2
      · rcases min_choice q.v1.y q.v2.y with h3 | h3
        · exact ⟨Quad.v1, by simp, by rw [hY, h, h2, h3]⟩
        · exact ⟨Quad.v2, by simp, by rw [hY, h, h2, h3]⟩
      · exact ⟨Quad.v3, by simp, by rw [hY, h, h2]⟩
    · exact ⟨Quad.v4, by simp, by rw [hY, h]⟩
  have key : ∀ v ∈ [Quad.v1, Quad.v2, Quad.v3, Quad.v4],
      MovedBy (v q) (v (q.remapPeriodic xp yp)) (if xp then ⌊X⌋ else 0) (if yp then ⌊Y⌋ else 0) := by
    intro v hv
    unfold Quad.remapPeriodic
    simp only [← hX, ← hY]
    by_cases hp : (xp || yp) = true
    · rw [if_pos hp]
      by_cases hc : (if xp = true then X else 0) < 0 ∨ (if yp = true then Y else 0) < 0 ∨
          (if xp = true then X else 0) ≥ 1 ∨ (if yp = true then Y else 0) ≥ 1
      · rw [if_pos hc]
        simp only [List.mem_cons, List.not_mem_nil, or_false] at hv
        rcases hv with rfl | rfl | rfl | rfl <;> cases xp <;> cases yp <;> simp [MovedBy, sub2]
      · rw [if_neg hc]
        simp only [not_or, not_lt, not_le, ge_iff_le] at hc
        obtain ⟨c1, c2, c3, c4⟩ := hc
        have f1 : (if xp = true then ⌊X⌋ else 0) = 0 := by
          cases xp
          · rfl
          · simp only [if_true] at c1 c3 ⊢
            exact Int.floor_eq_zero_iff.mpr ⟨c1, c3⟩
        have f2 : (if yp = true then ⌊Y⌋ else 0) = 0 := by
          cases yp
          · rfl
          · simp only [if_true] at c2 c4 ⊢
            exact Int.floor_eq_zero_iff.mpr ⟨c2, c4⟩
        rw [f1, f2]
        simp [MovedBy]
    · rw [if_neg hp]
      rw [Bool.not_eq_true, Bool.or_eq_false_iff] at hp
      simp [hp.1, hp.2, MovedBy]
  refine ⟨_, _, key, ?_, ?_, ?_, ?_⟩
  · intro h; simp [h]
  · intro h; simp [h]
  · intro h
    constructor
    · intro v hv
      have h1 := (key v hv).1
      rw [if_pos h] at h1
      have := Int.floor_le X
      have := bX v hv
      linarith
    · obtain ⟨v, hv, he⟩ := aX
      refine ⟨v, hv, ?_⟩
      have h1 := (key v hv).1
      rw [if_pos h] at h1
      have := Int.lt_floor_add_one X
      linarith
  · intro h
    constructor
    · intro v hv
      have h1 := (key v hv).2
      rw [if_pos h] at h1
      have := Int.floor_le Y
      have := bY v hv
      linarith
    · obtain ⟨v, hv, he⟩ := aY
      refine ⟨v, hv, ?_⟩
      have h1 := (key v hv).2
      rw [if_pos h] at h1
      have := Int.lt_floor_add_one Y
      linarith

/-- C87: with both axes periodic, or none, a parallelogram is moved by whole numbers so that its
centre is in the texture, or not at all.  Missing: one periodic axis. -/
theorem C87_periodic_partial (p : Pllgram) (both : Bool) :
    (remapPeriodic p both both).s1 = p.s1 ∧ (remapPeriodic p both both).s2 = p.s2 ∧
    (both = false → remapPeriodic p both both = p) ∧
    (both = true → ∃ m n : ℤ, MovedBy p.c (remapPeriodic p both both).c m n ∧
      0 ≤ (remapPeriodic p both both).c.x ∧ (remapPeriodic p both both).c.x < 1 ∧
      0 ≤ (remapPeriodic p both both).c.y ∧ (remapPeriodic p both both).c.y < 1) := by
  cases both
  · simp [remapPeriodic]
  · have hr : remapPeriodic p true true = { p with c := sub2 p.c ⟨⌊p.c.x⌋, ⌊p.c.y⌋⟩ } := by
      unfold remapPeriodic
      rw [if_pos (by simp)]
      by_cases hc : p.c.x < 0 ∨ p.c.y < 0 ∨ p.c.x ≥ 1 ∨ p.c.y ≥ 1
      · rw [if_pos hc]
      · rw [if_neg hc]
        simp only [not_or, not_lt, not_le, ge_iff_le] at hc
        obtain ⟨c1, c2, c3, c4⟩ := hc
        rw [Int.floor_eq_zero_iff.mpr ⟨c1, c3⟩, Int.floor_eq_zero_iff.mpr ⟨c2, c4⟩]
        simp [sub2]
    rw [hr]
    refine ⟨rfl, rfl, by simp, fun _ => ⟨⌊p.c.x⌋, ⌊p.c.y⌋, ⟨rfl, rfl⟩, ?_, ?_, ?_, ?_⟩⟩ <;>
      simp only [sub2]
    · linarith [Int.floor_le p.c.x]
    · linarith [Int.lt_floor_add_one p.c.x]
    · linarith [Int.floor_le p.c.y]
    · linarith [Int.lt_floor_add_one p.c.y]

/-- C87 fails for one periodic axis: with a texture that is periodic along `s` and black outside along
`t`, a region above the texture is moved into it. -/
theorem C87_periodic_violated :
    ∃ p : Pllgram, p.c.y > 1 ∧ (remapPeriodic p true false).c.y ≠ p.c.y ∧
      0 < (remapPeriodic p true false).c.y ∧ (remapPeriodic p true false).c.y < 1 := by
  have e : (remapPeriodic ⟨⟨1 / 2, 5 / 2⟩, ⟨0, 0⟩, ⟨0, 0⟩⟩ true false).c.y = 1 / 2 := by
    unfold remapPeriodic
    rw [if_pos (by simp), if_pos (by norm_num)]
    simp only [sub2]
    have : ⌊(5 / 2 : ℝ)⌋ = 2 := by norm_num
    rw [this]
    norm_num
  refine ⟨⟨⟨1 / 2, 5 / 2⟩, ⟨0, 0⟩, ⟨0, 0⟩⟩, by norm_num, ?_, ?_, ?_⟩ <;> rw [e] <;> norm_num

/-- C87: the centre of a parallelogram is not moved by the widths, the first side is scaled as it
should be, and with widths of 1 all is as it was.  Missing: the second side. -/
theorem C87_width_partial (p : Pllgram) (xw yw : ℝ) :
    (scaleWidth p xw yw).c = p.c ∧ (scaleWidth p xw yw).s1 = ⟨xw * p.s1.x, yw * p.s1.y⟩ ∧
    (scaleWidth p 1 1) = p := by
  unfold scaleWidth
  refine ⟨?_, ?_, ?_⟩
  · split_ifs <;> rfl
  · by_cases h : xw ≠ 1 ∨ yw ≠ 1
    · rw [if_pos h]
      ext <;> simp only <;> ring
    · rw [if_neg h]
      rw [not_or, not_not, not_not] at h
      obtain ⟨rfl, rfl⟩ := h
      ext <;> simp only <;> ring
  · rw [if_neg (by simp)]

/-- C87 fails for widths other than 1: with the same width along both axes the second side becomes a
multiple of the first whatever it was, so that the region has no area. -/
theorem C87_width_violated :
    (∀ (p : Pllgram) (w : ℝ), w ≠ 1 → (scaleWidth p w w).s2 = mul2 w (scaleWidth p w w).s1) ∧
    ∃ (p : Pllgram) (w : ℝ), p.s1.x * p.s2.y - p.s1.y * p.s2.x = 1 ∧ w ≠ 1 ∧ 0 < w ∧
      (scaleWidth p w w).s2 ≠ mul2 w p.s2 ∧
      (scaleWidth p w w).s1.x * (scaleWidth p w w).s2.y -
        (scaleWidth p w w).s1.y * (scaleWidth p w w).s2.x = 0 := by
  have key : ∀ (p : Pllgram) (w : ℝ), w ≠ 1 →
      (scaleWidth p w w).s2 = mul2 w (scaleWidth p w w).s1 := by
    intro p w hw
    unfold scaleWidth
    rw [if_pos (Or.inl hw)]
    ext <;> simp only [mul2] <;> ring
  refine ⟨key, ⟨⟨0, 0⟩, ⟨1, 0⟩, ⟨0, 1⟩⟩, 2, by norm_num, by norm_num, by norm_num, ?_, ?_⟩
  · intro h
    have := congrArg V2.x h
    unfold scaleWidth at this
    rw [if_pos (by norm_num)] at this
    simp only [mul2] at this
    norm_num at this
  · rw [key _ _ (by norm_num)]
    simp only [mul2]
    ring

/-- C87: with widths of 1, and both axes periodic or none, a texture is filtered over the region it
is asked for, up to whole numbers.  Missing: all other widths and wrap modes. -/
theorem C87_texture_partial (p : Pllgram) (both : Bool) :
    (textureRegion p 1 1 both both).s1 = p.s1 ∧ (textureRegion p 1 1 both both).s2 = p.s2 ∧
    ∃ m n : ℤ, MovedBy p.c (textureRegion p 1 1 both both).c m n ∧
      (both = false → m = 0 ∧ n = 0) := by
  unfold textureRegion
  rw [(C87_width_partial p 1 1).2.2]
  obtain ⟨h1, h2, h3, h4⟩ := C87_periodic_partial p both
  refine ⟨h1, h2, ?_⟩
  cases both
  · rw [h3 rfl]
    exact ⟨0, 0, by simp [MovedBy], fun _ => ⟨rfl, rfl⟩⟩
  · obtain ⟨m, n, h, _⟩ := h4 rfl
    exact ⟨m, n, h, by simp⟩

/-- C87: the first side of the region is widened by the width of s along s and by that of t along t.  Missing: the second side, which
`C87_width_violated` is about. -/
theorem C87_texture_width_partial (p : Pllgram) (sWidth tWidth : ℝ) (both : Bool) :
    (textureRegion p sWidth tWidth both both).s1 = ⟨p.s1.x * sWidth, p.s1.y * tWidth⟩ := by
  unfold textureRegion
  rw [(C87_periodic_partial _ both).1]
  unfold scaleWidth
  split_ifs with h
  · rfl
  · rw [not_or, not_not, not_not] at h
    rw [h.1, h.2]
    ext <;> simp

example : (textureRegion ⟨⟨0, 0⟩, ⟨1, 1⟩, ⟨1, 1⟩⟩ 2 3 false false).s1 = ⟨2, 3⟩ := by
  rw [C87_texture_width_partial]; norm_num

/-! ### Cube maps -/

/-- C87: a direction is looked up on a face of the cube it meets, at the place where it is seen, and
the sides of the region are those that are seen there. -/
theorem C87_cube (k : ℝ) (r : Pllgram3) (hR : r.c ≠ ⟨0, 0, 0⟩) :
    ∃ f ∈ faces, Meets f r.c ∧ (cubeRegion k r).c = seen k f r.c ∧
      HasDerivAt (fun h => (seen k f (along3 r.c r.s1 h)).x) (cubeRegion k r).s1.x 0 ∧
      HasDerivAt (fun h => (seen k f (along3 r.c r.s1 h)).y) (cubeRegion k r).s1.y 0 ∧
      HasDerivAt (fun h => (seen k f (along3 r.c r.s2 h)).x) (cubeRegion k r).s2.x 0 ∧
      HasDerivAt (fun h => (seen k f (along3 r.c r.s2 h)).y) (cubeRegion k r).s2.y 0 := by
  obtain ⟨f, hf, hm, es, et, os, ot, ms, mt, _, _⟩ := face_ok r.c hR
  have hn : dot3 f.n r.c ≠ 0 := ne_of_gt hm.1
  refine ⟨f, hf, hm, ?_, ?_, ?_, ?_, ?_⟩
  · ext
    · simp only [cubeRegion, seen, os, ← es]
      ring
    · simp only [cubeRegion, seen, ot]
      linear_combination (k / 4) * et
  · refine (seen_x_deriv k f r.c r.s1 hn).congr_deriv ?_
    rw [← ms]
    simp only [cubeRegion]
    ring
  · refine (seen_y_deriv k f r.c r.s1 hn).congr_deriv ?_
    simp only [cubeRegion]
    linear_combination (-(k / 4)) * mt r.s1
  · refine (seen_x_deriv k f r.c r.s2 hn).congr_deriv ?_
    rw [← ms]
    simp only [cubeRegion]
    ring
  · refine (seen_y_deriv k f r.c r.s2 hn).congr_deriv ?_
    simp only [cubeRegion]
    linear_combination (-(k / 4)) * mt r.s2

example : ∃ r : Pllgram3, r.c ≠ ⟨0, 0, 0⟩ :=
  ⟨⟨⟨1, 0, 0⟩, ⟨0, 0, 0⟩, ⟨0, 0, 0⟩⟩, fun h => by
    have := congrArg V3.x h
    norm_num at this⟩

/-- C87: for fields of view of 90 degrees and more the place is in the picture of the face. -/
theorem C87_cube_cell (k : ℝ) (hk0 : 0 ≤ k) (hk1 : k ≤ 1) (f : Face) (hf : f ∈ faces) (R : V3)
    (hm : Meets f R) :
    f.col / 3 ≤ (seen k f R).x ∧ (seen k f R).x ≤ (f.col + 1) / 3 ∧
    f.row / 2 ≤ (seen k f R).y ∧ (seen k f R).y ≤ (f.row + 1) / 2 := by
  obtain ⟨hn, hx, hy, hz⟩ := hm
  have hr : |dot3 f.right R| ≤ dot3 f.n R ∧ |dot3 f.up R| ≤ dot3 f.n R := by
    simp only [faces, List.mem_cons, List.not_mem_nil, or_false] at hf
    rcases hf with rfl | rfl | rfl | rfl | rfl | rfl <;> simp_all [dot3]
  have key : ∀ a, |a| ≤ dot3 f.n R → -1 ≤ k * (a / dot3 f.n R) ∧ k * (a / dot3 f.n R) ≤ 1 := by
    intro a ha
    have h1 : |a / dot3 f.n R| ≤ 1 := by
      rw [abs_div, abs_of_pos hn, div_le_one hn]
      exact ha
    have h2 : |k * (a / dot3 f.n R)| ≤ 1 := by
      rw [abs_mul, abs_of_nonneg hk0]
      exact mul_le_one₀ hk1 (abs_nonneg _) h1
    exact abs_le.mp h2
  obtain ⟨a1, a2⟩ := key _ hr.1
  obtain ⟨b1, b2⟩ := key _ hr.2
  simp only [seen]
  refine ⟨?_, ?_, ?_, ?_⟩ <;> linarith

/-- C87: blurring a cube map is the same in all directions: the blur is what becomes on the texture
of a Gaussian on the sphere of radius 1, whose deviation is 3/2 of the sum of the blurs. -/
theorem C87_cube_blur (k : ℝ) (R : V3) (hR : R ≠ ⟨0, 0, 0⟩) (sBlur tBlur : ℝ)
    (hb : 0 < sBlur + tBlur) (w : V2) :
    val (cubeBlur k R sBlur tBlur) w = (3 / 2 * (sBlur + tBlur)) ^ 2 * dot3 R R *
      (dot (cubeRegion k ⟨R, ⟨1, 0, 0⟩, ⟨0, 0, 0⟩⟩).s1 w ^ 2 +
       dot (cubeRegion k ⟨R, ⟨0, 1, 0⟩, ⟨0, 0, 0⟩⟩).s1 w ^ 2 +
       dot (cubeRegion k ⟨R, ⟨0, 0, 1⟩, ⟨0, 0, 0⟩⟩).s1 w ^ 2) ∧
    (cubeBlur k R sBlur tBlur).b = (cubeBlur k R sBlur tBlur).c := by
  obtain ⟨f, hf, hm, es, et, _, _, ms, mt, _, hd⟩ := face_ok R hR
  have hn : dot3 f.n R ≠ 0 := ne_of_gt hm.1
  have sx : ∀ v, (cubeRegion k ⟨R, v, ⟨0, 0, 0⟩⟩).s1.x = k / 6 * rate f.n f.right R v := by
    intro v
    rw [← ms]
    simp only [cubeRegion]
    ring
  have sy : ∀ v, (cubeRegion k ⟨R, v, ⟨0, 0, 0⟩⟩).s1.y = -(k / 4 * rate f.n f.up R v) := by
    intro v
    simp only [cubeRegion]
    linear_combination (k / 4) * mt v
  have hamp : (sBlur + tBlur) * 0.25 > 0 := by norm_num; exact hb
  refine ⟨?_, ?_⟩
  · simp only [dot, sx, sy]
    unfold cubeBlur
    simp only
    rw [if_pos hamp, es, et, hd]
    simp only [val, M2.smul]
    simp only [faces, List.mem_cons, List.not_mem_nil, or_false] at hf
    rcases hf with rfl | rfl | rfl | rfl | rfl | rfl
    all_goals
      simp only [rate, dot3] at hn ⊢
      simp only [zero_mul, one_mul, neg_mul, zero_add, add_zero, mul_zero, mul_one, sub_zero, zero_sub,
        neg_neg, mul_neg, neg_zero, neg_eq_zero, ne_eq] at hn ⊢
      field_simp
      ring
  · unfold cubeBlur
    simp only
    rw [if_pos hamp]
    rfl

/-! ### Maps of longitudes and latitudes -/

theorem len_pos (R : V3) (hR : R ≠ ⟨0, 0, 0⟩) : 0 < dot3 R R := by
  simp only [dot3]
  by_contra h
  apply hR
  have h1 := mul_self_nonneg R.x
  have h2 := mul_self_nonneg R.y
  have h3 := mul_self_nonneg R.z
  ext
  · exact mul_self_eq_zero.mp (by linarith)
  · exact mul_self_eq_zero.mp (by linarith)
  · exact mul_self_eq_zero.mp (by linarith)

theorem norm_mk (x y : ℝ) : ‖Complex.mk x y‖ = √(x * x + y * y) := by
  rw [Complex.norm_def, Complex.normSq_mk]

/-- The sines and cosines of the two angles. -/
theorem angles (r : Pllgram3) (hR : r.c ≠ ⟨0, 0, 0⟩) :
    2 * Real.pi * ((latLong r).c.x - 1 / 2) = (Complex.mk r.c.x r.c.y).arg ∧
    Real.pi * (latLong r).c.y = Real.arccos (r.c.z / √(dot3 r.c r.c)) ∧
    Real.cos (Real.pi * (latLong r).c.y) = r.c.z / √(dot3 r.c r.c) ∧
    Real.sin (Real.pi * (latLong r).c.y) = √(r.c.x * r.c.x + r.c.y * r.c.y) / √(dot3 r.c r.c) := by
  have hl := len_pos r.c hR
  have hpi := Real.pi_ne_zero
  have h2 : mag2 r.c = dot3 r.c r.c := rfl
  have hq : r.c.z / √(dot3 r.c r.c) ∈ Set.Icc (-1 : ℝ) 1 := by
    have : |r.c.z| ≤ √(dot3 r.c r.c) := by
      apply Real.abs_le_sqrt
      simp only [dot3]
      nlinarith [mul_self_nonneg r.c.x, mul_self_nonneg r.c.y]
    have hs : 0 < √(dot3 r.c r.c) := Real.sqrt_pos.mpr hl
    rw [abs_le] at this
    constructor
    · rw [le_div_iff₀ hs]; linarith
    · rw [div_le_iff₀ hs]; linarith
  have e1 : Real.pi * (latLong r).c.y = Real.arccos (r.c.z / √(dot3 r.c r.c)) := by
    simp only [latLong, h2]
    rw [if_pos (ne_of_gt hl)]
    field_simp
    norm_num
  refine ⟨?_, e1, ?_, ?_⟩
  · simp only [latLong]
    field_simp
    norm_num
    ring
  · rw [e1, Real.cos_arccos hq.1 hq.2]
  · rw [e1, Real.sin_arccos, ← Real.sqrt_div' _ hl.le]
    congr 1
    rw [div_pow, Real.sq_sqrt hl.le]
    have : dot3 r.c r.c ≠ 0 := ne_of_gt hl
    field_simp
    simp only [dot3]
    ring

theorem arg_cos_sin (x y : ℝ) (h : x * x + y * y ≠ 0) :
    Real.cos (Complex.mk x y).arg = x / √(x * x + y * y) ∧
    Real.sin (Complex.mk x y).arg = y / √(x * x + y * y) := by
  have hz : Complex.mk x y ≠ 0 := by
    intro hz
    have h1 := congrArg Complex.re hz
    have h2 := congrArg Complex.im hz
    simp only [Complex.zero_re, Complex.zero_im] at h1 h2
    apply h
    rw [h1, h2]
    ring
  exact ⟨by rw [Complex.cos_arg hz, norm_mk], by rw [Complex.sin_arg, norm_mk]⟩

/-- C87: the place of a direction on the texture is inside of it and is that of the direction. -/
theorem C87_latlong (r : Pllgram3) (hR : r.c ≠ ⟨0, 0, 0⟩) :
    direction (latLong r).c = unit r.c ∧
    0 < (latLong r).c.x ∧ (latLong r).c.x ≤ 1 ∧ 0 ≤ (latLong r).c.y ∧ (latLong r).c.y ≤ 1 := by
  obtain ⟨e1, e2, e3, e4⟩ := angles r hR
  have hl := len_pos r.c hR
  have hpi := Real.pi_pos
  refine ⟨?_, ?_, ?_, ?_, ?_⟩
  · simp only [direction, unit]
    rw [e1, e3, e4]
    by_cases h : r.c.x * r.c.x + r.c.y * r.c.y = 0
    · have h1 : r.c.x = 0 := mul_self_eq_zero.mp (by
        nlinarith [mul_self_nonneg r.c.x, mul_self_nonneg r.c.y])
      have h2 : r.c.y = 0 := mul_self_eq_zero.mp (by
        nlinarith [mul_self_nonneg r.c.x, mul_self_nonneg r.c.y])
      rw [h, h1, h2]
      simp
    · obtain ⟨hc, hs⟩ := arg_cos_sin _ _ h
      rw [hc, hs]
      have hp : √(r.c.x * r.c.x + r.c.y * r.c.y) ≠ 0 := by
        apply ne_of_gt
        apply Real.sqrt_pos.mpr
        exact lt_of_le_of_ne (by nlinarith [mul_self_nonneg r.c.x, mul_self_nonneg r.c.y]) (Ne.symm h)
      have hq : √(dot3 r.c r.c) ≠ 0 := ne_of_gt (Real.sqrt_pos.mpr hl)
      generalize √(r.c.x * r.c.x + r.c.y * r.c.y) = P at hp ⊢
      ext <;> simp only <;> field_simp
  · have := Complex.neg_pi_lt_arg (Complex.mk r.c.x r.c.y)
    rw [← e1] at this
    by_contra hc
    have : 2 * Real.pi * ((latLong r).c.x - 1 / 2) ≤ 2 * Real.pi * (0 - 1 / 2) :=
      mul_le_mul_of_nonneg_left (by linarith) (by positivity)
    linarith
  · have := Complex.arg_le_pi (Complex.mk r.c.x r.c.y)
    rw [← e1] at this
    by_contra hc
    have : 2 * Real.pi * (1 - 1 / 2) < 2 * Real.pi * ((latLong r).c.x - 1 / 2) :=
      mul_lt_mul_of_pos_left (by linarith) (by positivity)
    linarith
  · have := Real.arccos_nonneg (r.c.z / √(dot3 r.c r.c))
    rw [← e2] at this
    exact nonneg_of_mul_nonneg_right this hpi
  · have := Real.arccos_le_pi (r.c.z / √(dot3 r.c r.c))
    rw [← e2] at this
    by_contra hc
    have : Real.pi * 1 < Real.pi * (latLong r).c.y := mul_lt_mul_of_pos_left (by linarith) hpi
    linarith

/-- The sides of the region: how fast the two angles change. -/
theorem side_eq (r : Pllgram3) (hR : r.c ≠ ⟨0, 0, 0⟩) (h : r.c.x * r.c.x + r.c.y * r.c.y ≠ 0) :
    (latLong r).s1 = ⟨(-r.c.y * r.s1.x + r.c.x * r.s1.y) /
        (2 * Real.pi * (r.c.x * r.c.x + r.c.y * r.c.y)),
      (r.c.x * r.c.z * r.s1.x + r.c.y * r.c.z * r.s1.y +
        (r.c.z * r.c.z - dot3 r.c r.c) * r.s1.z) /
        (Real.pi * dot3 r.c r.c * √(r.c.x * r.c.x + r.c.y * r.c.y))⟩ ∧
    (latLong r).s2 = ⟨(-r.c.y * r.s2.x + r.c.x * r.s2.y) /
        (2 * Real.pi * (r.c.x * r.c.x + r.c.y * r.c.y)),
      (r.c.x * r.c.z * r.s2.x + r.c.y * r.c.z * r.s2.y +
        (r.c.z * r.c.z - dot3 r.c r.c) * r.s2.z) /
        (Real.pi * dot3 r.c r.c * √(r.c.x * r.c.x + r.c.y * r.c.y))⟩ := by
  have hl : mag2 r.c ≠ 0 := ne_of_gt (len_pos r.c hR)
  have h2 : mag2 r.c = dot3 r.c r.c := rfl
  simp only [latLong]
  simp only [if_pos h, if_pos (And.intro h hl)]
  simp only [h2]
  constructor <;> ext <;> simp only <;> ring

/-- Two ways of moving a direction agree: by a side of the region on the texture and by one in
space. -/
theorem motion (p a : V2) (R v : V3) (hl : 0 < dot3 R R) (h : R.x * R.x + R.y * R.y ≠ 0)
    (e1 : 2 * Real.pi * (p.x - 1 / 2) = (Complex.mk R.x R.y).arg)
    (e3 : Real.cos (Real.pi * p.y) = R.z / √(dot3 R R))
    (e4 : Real.sin (Real.pi * p.y) = √(R.x * R.x + R.y * R.y) / √(dot3 R R))
    (ha : a = ⟨(-R.y * v.x + R.x * v.y) / (2 * Real.pi * (R.x * R.x + R.y * R.y)),
      (R.x * R.z * v.x + R.y * R.z * v.y + (R.z * R.z - dot3 R R) * v.z) /
        (Real.pi * dot3 R R * √(R.x * R.x + R.y * R.y))⟩) :
    SameMotion (fun t => direction ⟨p.x + t * a.x, p.y + t * a.y⟩)
      (fun t => unit (along3 R v t)) := by
  obtain ⟨hc, hs⟩ := arg_cos_sin _ _ h
  have hpi := Real.pi_ne_zero
  have hy : HasDerivAt (fun t : ℝ => Real.pi * (p.y + t * a.y)) (Real.pi * a.y) 0 :=
    (lin_deriv p.y a.y).const_mul Real.pi
  have hx : HasDerivAt (fun t : ℝ => 2 * Real.pi * (p.x + t * a.x - 1 / 2)) (2 * Real.pi * a.x) 0 :=
    ((lin_deriv p.x a.x).sub_const (1 / 2)).const_mul (2 * Real.pi)
  have hlen : HasDerivAt (fun t : ℝ => dot3 (along3 R v t) (along3 R v t)) (2 * dot3 R v) 0 := by
    have hb : ∀ a b : ℝ, HasDerivAt (fun t : ℝ => (a + t * b) * (a + t * b)) (2 * (a * b)) 0 := by
      intro a b
      have := (lin_deriv a b).mul (lin_deriv a b)
      exact this.congr_deriv (by ring)
    have := ((hb R.x v.x).add (hb R.y v.y)).add (hb R.z v.z)
    exact this.congr_deriv (by simp only [dot3]; ring)
  have hz : dot3 (along3 R v 0) (along3 R v 0) ≠ 0 := by
    rw [along3_zero]; exact ne_of_gt hl
  have hsq := hlen.sqrt hz
  have hsz : √(dot3 (along3 R v 0) (along3 R v 0)) ≠ 0 := by
    rw [along3_zero]; exact ne_of_gt (Real.sqrt_pos.mpr hl)
  have ux : ∀ a b : ℝ, HasDerivAt (fun t : ℝ => (a + t * b) / √(dot3 (along3 R v t) (along3 R v t)))
      ((b * dot3 R R - a * dot3 R v) / (dot3 R R * √(dot3 R R))) 0 := by
    intro a b
    refine ((lin_deriv a b).div hsq hsz).congr_deriv ?_
    rw [along3_zero, zero_mul, add_zero, Real.sq_sqrt hl.le]
    have hq : √(dot3 R R) ≠ 0 := ne_of_gt (Real.sqrt_pos.mpr hl)
    have hqq : √(dot3 R R) * √(dot3 R R) = dot3 R R := Real.mul_self_sqrt hl.le
    have hd : dot3 R R ≠ 0 := ne_of_gt hl
    field_simp
    rw [sq, hqq]
  set L := √(dot3 R R) with hL
  set P := √(R.x * R.x + R.y * R.y) with hP
  have hL2 : dot3 R R = L * L := (Real.mul_self_sqrt hl.le).symm
  have hp0 : 0 ≤ R.x * R.x + R.y * R.y := by
    nlinarith [mul_self_nonneg R.x, mul_self_nonneg R.y]
  have hP2 : R.x * R.x + R.y * R.y = P * P := (Real.mul_self_sqrt hp0).symm
  have hL0 : L ≠ 0 := ne_of_gt (Real.sqrt_pos.mpr hl)
  have hP0 : P ≠ 0 := ne_of_gt (Real.sqrt_pos.mpr (lt_of_le_of_ne hp0 (Ne.symm h)))
  have hdot : dot3 R v = R.x * v.x + R.y * v.y + R.z * v.z := rfl
  have l2 : L ^ 2 = R.x ^ 2 + R.y ^ 2 + R.z ^ 2 := by
    rw [sq, ← hL2]; simp only [dot3]; ring
  have p2 : P ^ 2 = R.x ^ 2 + R.y ^ 2 := by rw [sq, ← hP2]; ring
  refine ⟨⟨_, _, _⟩, ?_, ux R.x v.x, ?_, ux R.y v.y, ?_, ux R.z v.z⟩
  · refine (hy.sin.mul hx.cos).congr_deriv ?_
    simp only [zero_mul, add_zero]
    rw [e1, e3, e4, hc, hs, ha, hdot, hL2, hP2]
    simp only
    field_simp
    rw [l2, p2]
    ring
  · refine (hy.sin.mul hx.sin).congr_deriv ?_
    simp only [zero_mul, add_zero]
    rw [e1, e3, e4, hc, hs, ha, hdot, hL2, hP2]
    simp only
    field_simp
    rw [l2, p2]
    ring
  · refine hy.cos.congr_deriv ?_
    simp only [zero_mul, add_zero]
    rw [e4, ha, hdot, hL2]
    simp only
    field_simp
    ring

/-- C87: away from the poles, moving on the texture by a side of the region moves the direction as the
side of the region in space does. -/
theorem C87_latlong_sides (r : Pllgram3) (h : r.c.x ≠ 0 ∨ r.c.y ≠ 0) :
    SameMotion (fun t => direction ⟨(latLong r).c.x + t * (latLong r).s1.x,
        (latLong r).c.y + t * (latLong r).s1.y⟩) (fun t => unit (along3 r.c r.s1 t)) ∧
    SameMotion (fun t => direction ⟨(latLong r).c.x + t * (latLong r).s2.x,
        (latLong r).c.y + t * (latLong r).s2.y⟩) (fun t => unit (along3 r.c r.s2 t)) := by
  have hR : r.c ≠ ⟨0, 0, 0⟩ := by
    intro hc
    rw [hc] at h
    simp at h
  have hxy : r.c.x * r.c.x + r.c.y * r.c.y ≠ 0 := by
    intro hc
    have h1 : r.c.x = 0 := mul_self_eq_zero.mp (by
      nlinarith [mul_self_nonneg r.c.x, mul_self_nonneg r.c.y])
    have h2 : r.c.y = 0 := mul_self_eq_zero.mp (by
      nlinarith [mul_self_nonneg r.c.x, mul_self_nonneg r.c.y])
    rcases h with h | h
    · exact h h1
    · exact h h2
  obtain ⟨e1, _, e3, e4⟩ := angles r hR
  obtain ⟨a1, a2⟩ := side_eq r hR hxy
  have hl := len_pos r.c hR
  exact ⟨motion _ _ r.c r.s1 hl hxy e1 e3 e4 a1, motion _ _ r.c r.s2 hl hxy e1 e3 e4 a2⟩

example : ∃ r : Pllgram3, r.c.x ≠ 0 ∨ r.c.y ≠ 0 :=
  ⟨⟨⟨1, 0, 0⟩, ⟨0, 0, 0⟩, ⟨0, 0, 0⟩⟩, Or.inl (by norm_num)⟩

/-- C87: with blurs that are the same the blur is, up to the constant that keeps it finite at the
poles, what becomes on the texture of a Gaussian on the sphere, of a deviation of π times the blur.
Missing: that constant, against which the length of the direction counts. -/
theorem C87_latlong_blur_partial (R : V3) (h : R.x ≠ 0 ∨ R.y ≠ 0) (b : ℝ) (hb : 0 < b) (w : V2) :
    val (latLongBlur R b b) w = (Real.pi * b) ^ 2 * dot3 R R *
      (dot (latLong ⟨R, ⟨1, 0, 0⟩, ⟨0, 0, 0⟩⟩).s1
          ⟨w.x * (√(R.x * R.x + R.y * R.y) / (√(R.x * R.x + R.y * R.y) + 1 / 10000)), w.y⟩ ^ 2 +
       dot (latLong ⟨R, ⟨0, 1, 0⟩, ⟨0, 0, 0⟩⟩).s1
          ⟨w.x * (√(R.x * R.x + R.y * R.y) / (√(R.x * R.x + R.y * R.y) + 1 / 10000)), w.y⟩ ^ 2 +
       dot (latLong ⟨R, ⟨0, 0, 1⟩, ⟨0, 0, 0⟩⟩).s1
          ⟨w.x * (√(R.x * R.x + R.y * R.y) / (√(R.x * R.x + R.y * R.y) + 1 / 10000)), w.y⟩ ^ 2) := by
  have hR : R ≠ ⟨0, 0, 0⟩ := by
    intro hc
    rw [hc] at h
    simp at h
  have hxy : R.x * R.x + R.y * R.y ≠ 0 := by
    intro hc
    have h1 : R.x = 0 := mul_self_eq_zero.mp (by
      nlinarith [mul_self_nonneg R.x, mul_self_nonneg R.y])
    have h2 : R.y = 0 := mul_self_eq_zero.mp (by
      nlinarith [mul_self_nonneg R.x, mul_self_nonneg R.y])
    rcases h with h | h
    · exact h h1
    · exact h h2
  have hl := len_pos R hR
  have hpi := Real.pi_ne_zero
  have sd : ∀ v, (latLong ⟨R, v, ⟨0, 0, 0⟩⟩).s1 = _ := fun v => (side_eq ⟨R, v, ⟨0, 0, 0⟩⟩ hR hxy).1
  simp only [sd, dot]
  unfold latLongBlur blurMatrix latLongSBlur
  have h2 : mag2 R = dot3 R R := rfl
  rw [if_pos (Or.inr (by linarith)), h2]
  simp only [val, M2.diag]
  have hp0 : 0 ≤ R.x * R.x + R.y * R.y := by
    nlinarith [mul_self_nonneg R.x, mul_self_nonneg R.y]
  set L := √(dot3 R R) with hL
  set P := √(R.x * R.x + R.y * R.y) with hP
  have hL2 : dot3 R R = L * L := (Real.mul_self_sqrt hl.le).symm
  have hP2 : R.x * R.x + R.y * R.y = P * P := (Real.mul_self_sqrt hp0).symm
  have hL0 : L ≠ 0 := ne_of_gt (Real.sqrt_pos.mpr hl)
  have hPp : 0 < P := Real.sqrt_pos.mpr (lt_of_le_of_ne hp0 (Ne.symm hxy))
  have hP0 : P ≠ 0 := ne_of_gt hPp
  have l2 : L ^ 2 = R.x ^ 2 + R.y ^ 2 + R.z ^ 2 := by
    rw [sq, ← hL2]; simp only [dot3]; ring
  have p2 : P ^ 2 = R.x ^ 2 + R.y ^ 2 := by rw [sq, ← hP2]; ring
  have hE : P + 0.0001 ≠ 0 := by
    have : (0 : ℝ) < P + 0.0001 := by norm_num; linarith
    exact ne_of_gt this
  have he : P + 1 / 10000 = P + 0.0001 := by norm_num
  rw [he, hL2, hP2]
  generalize P + 0.0001 = Q at hE
  simp only [mul_one, mul_zero, add_zero, zero_add]
  have z2 : R.z * R.z - L * L = -(P * P) := by
    rw [← hL2, ← hP2]; simp only [dot3]; ring
  rw [z2]
  have sum : ∀ A B : ℝ, (-R.y * A + R.x * R.z * B) ^ 2 + (R.x * A + R.y * R.z * B) ^ 2 +
      (-(P * P) * B) ^ 2 = (P * P) * A ^ 2 + (P * P) * (L * L) * B ^ 2 := by
    intro A B
    rw [← hP2, ← hL2]; simp only [dot3]; ring
  have := sum (1 / (2 * Real.pi * (P * P)) * (w.x * (P / Q))) (1 / (Real.pi * (L * L) * P) * w.y)
  have e : ∀ X Y Z, (-R.y / (2 * Real.pi * (P * P)) * X + R.x * R.z / (Real.pi * (L * L) * P) * Y) ^ 2 +
      (R.x / (2 * Real.pi * (P * P)) * X + R.y * R.z / (Real.pi * (L * L) * P) * Y) ^ 2 +
      (Z / (2 * Real.pi * (P * P)) * X + -(P * P) / (Real.pi * (L * L) * P) * Y) ^ 2 =
      (-R.y * (1 / (2 * Real.pi * (P * P)) * X) + R.x * R.z * (1 / (Real.pi * (L * L) * P) * Y)) ^ 2 +
      (R.x * (1 / (2 * Real.pi * (P * P)) * X) + R.y * R.z * (1 / (Real.pi * (L * L) * P) * Y)) ^ 2 +
      (Z * (1 / (2 * Real.pi * (P * P)) * X) + -(P * P) * (1 / (Real.pi * (L * L) * P) * Y)) ^ 2 := by
    intro X Y Z
    ring
  have e0 : ∀ X Y : ℝ, 0 * X + Y = Y := by intro X Y; ring
  rw [e, e0, this]
  field_simp
  ring

/-- C87 fails for short directions: the blur of a map of longitudes and latitudes is not that of the
direction alone.  On the equator a direction of length 0.0001 gets a quarter of the variance. -/
theorem C87_latlong_blur_violated :
    ∃ (R S : V3) (b : ℝ), unit R = unit S ∧ 0 < b ∧
      (latLongBlur S b b).a < (latLongBlur R b b).a / 2 := by
  refine ⟨⟨1, 0, 0⟩, ⟨1 / 10000, 0, 0⟩, 1, ?_, by norm_num, ?_⟩
  · have : √((1 / 10000 : ℝ) * (1 / 10000)) = 1 / 10000 := Real.sqrt_mul_self (by norm_num)
    simp only [unit, dot3, mul_zero, add_zero, mul_one, this]
    norm_num
  · have e : √((1 / 10000 : ℝ) * (1 / 10000)) = 1 / 10000 := Real.sqrt_mul_self (by norm_num)
    unfold latLongBlur blurMatrix latLongSBlur
    rw [if_pos (Or.inr (by norm_num)), if_pos (Or.inr (by norm_num))]
    simp only [M2.diag, mag2, mul_zero, add_zero, e]
    norm_num

end Verif.Tex.Env
