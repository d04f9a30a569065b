import Verif.Core.Dof
import Verif.Core.MotionProps
import Mathlib.Tactic.GCongr

/-!
# Lemmas about depth of field
-/

namespace Verif.Core.Dof

open Verif.Core.HitTest Verif.Core.Motion

/-- The first coordinate of the projection. -/
noncomputable def px (x y : ℝ) : ℝ := x * (max |x| |y| / √(x ^ 2 + y ^ 2))

lemma project_eq (x y : ℝ) : projectToCircle (x, y) = (px x y, px y x) := by
  unfold projectToCircle px
  dsimp only
  rw [max_comm |y| |x|, add_comm (y ^ 2) (x ^ 2)]
  split_ifs with h
  · rw [h]; simp
  · rw [mul_comm x, mul_comm y]

lemma px_neg (x y : ℝ) : px (-x) y = - px x y := by
  unfold px
  rw [abs_neg, neg_sq, neg_mul]

lemma px_neg' (x y : ℝ) : px x (-y) = px x y := by
  unfold px
  rw [abs_neg, neg_sq]

lemma px_nonneg {x : ℝ} (y : ℝ) (hx : 0 ≤ x) : 0 ≤ px x y := by
  unfold px
  exact mul_nonneg hx (div_nonneg (le_max_of_le_left (abs_nonneg _)) (Real.sqrt_nonneg _))

lemma px_pos {x : ℝ} (y : ℝ) (hx : 0 < x) : 0 < px x y := by
  unfold px
  refine mul_pos hx (div_pos (lt_max_of_lt_left (abs_pos.mpr hx.ne')) (Real.sqrt_pos.mpr ?_))
  positivity

lemma px_zero (y : ℝ) : px 0 y = 0 := by unfold px; rw [zero_mul]

lemma px_sq {x y : ℝ} (hx : 0 ≤ x) (hy : 0 ≤ y) : px x y ^ 2 = x ^ 2 * max x y ^ 2 / (x ^ 2 + y ^ 2) := by
  unfold px
  rw [abs_of_nonneg hx, abs_of_nonneg hy, mul_pow, div_pow, Real.sq_sqrt (by positivity), mul_div_assoc]

lemma le_of_sq {a b : ℝ} (hb : 0 ≤ b) (h : a ^ 2 ≤ b ^ 2) : a ≤ b := le_of_sq_le_sq' hb h
where
  le_of_sq_le_sq' {a b : ℝ} (hb : 0 ≤ b) (h : a ^ 2 ≤ b ^ 2) : a ≤ b := by
    by_contra hc
    push Not at hc
    nlinarith

/-- Further to the right. -/
lemma px_mono {x x' y : ℝ} (hx : 0 ≤ x) (hxx : x ≤ x') (hy : 0 ≤ y) : px x y ≤ px x' y := by
  rcases eq_or_lt_of_le hx with h0 | h0
  · rw [← h0, px_zero]; exact px_nonneg y (hx.trans hxx)
  refine le_of_sq (px_nonneg y (hx.trans hxx)) ?_
  have hx' : 0 < x' := lt_of_lt_of_le h0 hxx
  rw [px_sq hx hy, px_sq hx'.le hy, div_le_div_iff₀ (by positivity) (by positivity)]
  have hM : max x y ^ 2 ≤ max x' y ^ 2 := by
    have : max x y ≤ max x' y := max_le_max hxx (le_refl _)
    have h0 : 0 ≤ max x y := le_max_of_le_left hx
    nlinarith
  have h2 : x ^ 2 * (x' ^ 2 + y ^ 2) ≤ x' ^ 2 * (x ^ 2 + y ^ 2) := by
    have : x ^ 2 ≤ x' ^ 2 := by nlinarith
    have := mul_le_mul_of_nonneg_right this (sq_nonneg y)
    linarith
  calc x ^ 2 * max x y ^ 2 * (x' ^ 2 + y ^ 2) = max x y ^ 2 * (x ^ 2 * (x' ^ 2 + y ^ 2)) := by ring
    _ ≤ max x' y ^ 2 * (x' ^ 2 * (x ^ 2 + y ^ 2)) := mul_le_mul hM h2 (by positivity) (by positivity)
    _ = x' ^ 2 * max x' y ^ 2 * (x ^ 2 + y ^ 2) := by ring

/-- Below the diagonal the coordinate falls with `y`. -/
lemma px_below {x y y' : ℝ} (hy : 0 ≤ y) (hyy : y ≤ y') (hx : y' ≤ x) : px x y' ≤ px x y := by
  have hx0 : 0 ≤ x := hy.trans (hyy.trans hx)
  rcases eq_or_lt_of_le hx0 with h0 | h0
  · rw [← h0, px_zero, px_zero]
  refine le_of_sq (px_nonneg y hx0) ?_
  rw [px_sq hx0 (hy.trans hyy), px_sq hx0 hy, max_eq_left hx, max_eq_left (hyy.trans hx),
    div_le_div_iff₀ (by positivity) (by positivity)]
  refine mul_le_mul_of_nonneg_left ?_ (by positivity)
  nlinarith

/-- Above the diagonal the coordinate grows with `y`. -/
lemma px_above {x y y' : ℝ} (hx : 0 ≤ x) (hxy : x ≤ y) (hyy : y ≤ y') : px x y ≤ px x y' := by
  rcases eq_or_lt_of_le hx with h0 | h0
  · rw [← h0, px_zero, px_zero]
  have hy : 0 < y := lt_of_lt_of_le h0 hxy
  have hy' : 0 < y' := lt_of_lt_of_le hy hyy
  refine le_of_sq (px_nonneg y' hx) ?_
  rw [px_sq hx hy.le, px_sq hx hy'.le, max_eq_right hxy, max_eq_right (hxy.trans hyy),
    div_le_div_iff₀ (by positivity) (by positivity)]
  have h2 : y ^ 2 * (x ^ 2 + y' ^ 2) ≤ y' ^ 2 * (x ^ 2 + y ^ 2) := by
    have : y ^ 2 ≤ y' ^ 2 := by nlinarith
    have := mul_le_mul_of_nonneg_right this (sq_nonneg x)
    linarith
  calc x ^ 2 * y ^ 2 * (x ^ 2 + y' ^ 2) = x ^ 2 * (y ^ 2 * (x ^ 2 + y' ^ 2)) := by ring
    _ ≤ x ^ 2 * (y' ^ 2 * (x ^ 2 + y ^ 2)) := mul_le_mul_of_nonneg_left h2 (by positivity)
    _ = x ^ 2 * y' ^ 2 * (x ^ 2 + y ^ 2) := by ring

lemma px_abs_le (x y : ℝ) : |px x y| ≤ |x| := by
  unfold px
  rw [abs_mul]
  have : |max |x| |y| / √(x ^ 2 + y ^ 2)| ≤ 1 := by
    rw [abs_of_nonneg (div_nonneg (le_max_of_le_left (abs_nonneg _)) (Real.sqrt_nonneg _))]
    rcases eq_or_lt_of_le (Real.sqrt_nonneg (x ^ 2 + y ^ 2)) with h0 | h0
    · rw [← h0]; simp
    · rw [div_le_one h0]
      refine Real.le_sqrt_of_sq_le ?_
      rcases le_total |x| |y| with h | h
      · rw [max_eq_right h, sq_abs]; nlinarith [sq_nonneg x]
      · rw [max_eq_left h, sq_abs]; nlinarith [sq_nonneg y]
  have h2 := mul_le_mul_of_nonneg_left this (abs_nonneg x)
  linarith

/-- In a cell of the quadrant the first coordinate is between those of two corners on the left and the right – on the left
only if the diagonal does not cross. -/
lemma px_hi {x y y0 y1 x1 : ℝ} (hx : 0 ≤ x) (hx1 : x ≤ x1) (h0 : 0 ≤ y0) (hy0 : y0 ≤ y) (hy1 : y ≤ y1) :
    px x y ≤ px x1 y0 ∨ px x y ≤ px x1 y1 := by
  have h := px_mono hx hx1 (h0.trans hy0)
  rcases le_total y x1 with h' | h'
  · exact Or.inl (h.trans (px_below h0 hy0 h'))
  · exact Or.inr (h.trans (px_above (hx.trans hx1) h' hy1))

lemma px_lo {x y y0 y1 x0 : ℝ} (h0x : 0 ≤ x0) (hx0 : x0 ≤ x) (h0 : 0 ≤ y0) (hy0 : y0 ≤ y) (hy1 : y ≤ y1)
    (hd : y1 ≤ x0 ∨ x0 ≤ y0) : px x0 y0 ≤ px x y ∨ px x0 y1 ≤ px x y := by
  have h := px_mono h0x hx0 (h0.trans hy0)
  rcases hd with hd | hd
  · exact Or.inr ((px_below (h0.trans hy0) hy1 hd).trans h)
  · exact Or.inl ((px_above h0x hd hy0).trans h)

/-- The first coordinate lies between those of the corners. -/
def Between4 (v a b c d : ℝ) : Prop := (a ≤ v ∨ b ≤ v ∨ c ≤ v ∨ d ≤ v) ∧ (v ≤ a ∨ v ≤ b ∨ v ≤ c ∨ v ≤ d)

/-- An interval on one side of zero. -/
def OneSide (a b : ℝ) : Prop := 0 ≤ a ∨ b ≤ 0

/-- The diagonals do not cross the interior of the side `x0` of the interval `y0 … y1` (all of one sign). -/
def Clear (x0 x1 y0 y1 : ℝ) : Prop := max |y0| |y1| ≤ min |x0| |x1| ∨ min |x0| |x1| ≤ min |y0| |y1|

lemma between_cell {x y x0 x1 y0 y1 : ℝ} (hx0 : x0 ≤ x) (hx1 : x ≤ x1) (hy0 : y0 ≤ y) (hy1 : y ≤ y1)
    (sx : OneSide x0 x1) (sy : OneSide y0 y1) (hc : Clear x0 x1 y0 y1) :
    Between4 (px x y) (px x0 y0) (px x1 y0) (px x0 y1) (px x1 y1) := by
  -- first for `y ≥ 0`
  have key : ∀ {x y x0 x1 y0 y1 : ℝ}, x0 ≤ x → x ≤ x1 → y0 ≤ y → y ≤ y1 → OneSide x0 x1 → 0 ≤ y0 → Clear x0 x1 y0 y1 →
      Between4 (px x y) (px x0 y0) (px x1 y0) (px x0 y1) (px x1 y1) := by
    intro x y x0 x1 y0 y1 hx0 hx1 hy0 hy1 sx sy hc
    have hy1' : 0 ≤ y1 := sy.trans (hy0.trans hy1)
    unfold Clear at hc
    rw [abs_of_nonneg sy, abs_of_nonneg hy1', max_eq_right (hy0.trans hy1), min_eq_left (hy0.trans hy1)] at hc
    rcases sx with h | h
    · rw [abs_of_nonneg h, abs_of_nonneg (h.trans (hx0.trans hx1)), min_eq_left (hx0.trans hx1)] at hc
      have l := px_lo h hx0 sy hy0 hy1 hc
      have u := px_hi (h.trans hx0) hx1 sy hy0 hy1
      unfold Between4
      tauto
    · rw [abs_of_nonpos h, abs_of_nonpos ((hx0.trans hx1).trans h), min_eq_right (by linarith)] at hc
      have l := px_lo (x := -x) (x0 := -x1) (by linarith) (by linarith) sy hy0 hy1 hc
      have u := px_hi (x := -x) (x1 := -x0) (by linarith) (by linarith) sy hy0 hy1
      rw [px_neg, px_neg, px_neg] at l u
      simp only [neg_le_neg_iff] at l u
      unfold Between4
      tauto
  rcases sy with h | h
  · exact key hx0 hx1 hy0 hy1 sx h hc
  · have hc' : Clear x0 x1 (-y1) (-y0) := by
      unfold Clear at hc ⊢
      rw [abs_neg, abs_neg, max_comm, min_comm |y1|]
      exact hc
    have := key (y := -y) (y0 := -y1) (y1 := -y0) hx0 hx1 (by linarith) (by linarith) sx (by linarith) hc'
    rw [px_neg', px_neg', px_neg', px_neg', px_neg'] at this
    unfold Between4 at this ⊢
    tauto

lemma not_straddles {a b y y' : ℝ} (h : OneSide a b) (hab : a ≤ b) : ¬ straddles (px a y) (px b y') := by
  unfold straddles
  rcases h with h | h
  · have h1 := px_nonneg y h
    have h2 := px_nonneg y' (h.trans hab)
    rintro (⟨_, _⟩ | ⟨_, _⟩) <;> linarith
  · have h1 := px_nonneg (x := -a) y (by linarith)
    have h2 := px_nonneg (x := -b) y' (by linarith)
    rw [px_neg] at h1 h2
    rintro (⟨_, _⟩ | ⟨_, _⟩) <;> linarith

/-- The bound of a cell off the axes is the hull of the projected corners. -/
lemma cellBound_corners {x0 y0 dx dy : ℝ} (hdx : 0 ≤ dx) (hdy : 0 ≤ dy) (sx : OneSide x0 (x0 + dx))
    (sy : OneSide y0 (y0 + dy)) :
    cellBound x0 y0 dx dy =
      ⟨min (min (min (px x0 y0) (px (x0 + dx) y0)) (px x0 (y0 + dy))) (px (x0 + dx) (y0 + dy)),
       min (min (min (px y0 x0) (px y0 (x0 + dx))) (px (y0 + dy) x0)) (px (y0 + dy) (x0 + dx)),
       max (max (max (px x0 y0) (px (x0 + dx) y0)) (px x0 (y0 + dy))) (px (x0 + dx) (y0 + dy)),
       max (max (max (px y0 x0) (px y0 (x0 + dx))) (px (y0 + dy) x0)) (px (y0 + dy) (x0 + dx))⟩ := by
  unfold cellBound
  rw [project_eq, project_eq, project_eq, project_eq]
  have h1 : ¬ straddles (px y0 x0) (px (y0 + dy) x0) := not_straddles sy (by linarith)
  have h2 : ¬ straddles (px x0 y0) (px (x0 + dx) y0) := not_straddles sx (by linarith)
  dsimp only
  rw [if_neg h1, if_neg h1, if_neg h1, if_neg h1]
  dsimp only
  rw [if_neg h2, if_neg h2, if_neg h2, if_neg h2]
  rfl

/-- Inside of a bound. -/
def RBound.Has (b : RBound) (p : ℝ × ℝ) : Prop := (b.xMin ≤ p.1 ∧ p.1 ≤ b.xMax) ∧ (b.yMin ≤ p.2 ∧ p.2 ≤ b.yMax)

lemma min4 {v a b c d : ℝ} (h : a ≤ v ∨ b ≤ v ∨ c ≤ v ∨ d ≤ v) : min (min (min a b) c) d ≤ v := by
  simp only [min_le_iff]; tauto

lemma max4 {v a b c d : ℝ} (h : v ≤ a ∨ v ≤ b ∨ v ≤ c ∨ v ≤ d) : v ≤ max (max (max a b) c) d := by
  simp only [le_max_iff]; tauto

lemma cell_has {x y x0 y0 dx dy : ℝ} (hx0 : x0 ≤ x) (hx1 : x ≤ x0 + dx) (hy0 : y0 ≤ y) (hy1 : y ≤ y0 + dy)
    (sx : OneSide x0 (x0 + dx)) (sy : OneSide y0 (y0 + dy)) (hc : Clear x0 (x0 + dx) y0 (y0 + dy))
    (hc' : Clear y0 (y0 + dy) x0 (x0 + dx)) : (cellBound x0 y0 dx dy).Has (projectToCircle (x, y)) := by
  rw [cellBound_corners (by linarith) (by linarith) sx sy, project_eq]
  obtain ⟨a, b⟩ := between_cell hx0 hx1 hy0 hy1 sx sy hc
  obtain ⟨c, d⟩ := between_cell hy0 hy1 hx0 hx1 sy sx hc'
  refine ⟨⟨min4 a, max4 b⟩, min4 ?_, max4 ?_⟩
  · rcases c with h | h | h | h
    · exact Or.inl h
    · exact Or.inr (Or.inr (Or.inl h))
    · exact Or.inr (Or.inl h)
    · exact Or.inr (Or.inr (Or.inr h))
  · rcases d with h | h | h | h
    · exact Or.inl h
    · exact Or.inr (Or.inr (Or.inl h))
    · exact Or.inr (Or.inl h)
    · exact Or.inr (Or.inr (Or.inr h))

lemma edge_eq (n i : Nat) : edge n i = -1 + 2 * i / n := by
  induction i with
  | zero => simp [edge]
  | succ i ih => unfold edge; rw [ih]; push_cast; ring

/-! ## Circle of confusion -/

lemma coc_abs_between {z z1 z2 f : ℚ} (h0 : 0 < z1) (h1 : z1 ≤ z) (h2 : z ≤ z2) :
    |1 / z - f| ≤ max |1 / z1 - f| |1 / z2 - f| := by
  have a1 : 1 / z ≤ 1 / z1 := one_div_le_one_div_of_le h0 h1
  have a2 : 1 / z2 ≤ 1 / z := one_div_le_one_div_of_le (by linarith) h2
  rcases le_total 0 (1 / z - f) with h | h
  · refine le_max_of_le_left ?_
    rw [abs_of_nonneg h, abs_of_nonneg (by linarith)]; linarith
  · refine le_max_of_le_right ?_
    rw [abs_of_nonpos h, abs_of_nonpos (by linarith)]; linarith

lemma zMin_le (q : Quad) : zMin q ≤ q.p0.z ∧ zMin q ≤ q.p1.z ∧ zMin q ≤ q.p2.z ∧ zMin q ≤ q.p3.z := by
  unfold zMin; simp

lemma le_zMax (q : Quad) : q.p0.z ≤ zMax q ∧ q.p1.z ≤ zMax q ∧ q.p2.z ≤ zMax q ∧ q.p3.z ≤ zMax q := by
  unfold zMax; simp

/-- A physically meaningful lens. -/
structure Lens.Good (l : Lens) : Prop where
  mult : 0 ≤ l.mult
  sx : 0 ≤ l.sx
  sy : 0 ≤ l.sy

lemma coc_nonneg {l : Lens} (hl : l.Good) (z : ℚ) : 0 ≤ (coc l z).1 ∧ 0 ≤ (coc l z).2 := by
  unfold coc
  exact ⟨mul_nonneg hl.sx (mul_nonneg hl.mult (abs_nonneg _)), mul_nonneg hl.sy (mul_nonneg hl.mult (abs_nonneg _))⟩

lemma coc_le {l : Lens} (hl : l.Good) {z z1 z2 : ℚ} (h0 : 0 < z1) (h1 : z1 ≤ z) (h2 : z ≤ z2) :
    (coc l z).1 ≤ (maxVec (coc l z1) (coc l z2)).1 ∧ (coc l z).2 ≤ (maxVec (coc l z1) (coc l z2)).2 := by
  have h := mul_le_mul_of_nonneg_left (coc_abs_between (f := l.invFocal) h0 h1 h2) hl.mult
  rw [mul_max_of_nonneg _ _ hl.mult] at h
  unfold coc maxVec
  dsimp only
  rw [← mul_max_of_nonneg _ _ hl.sx, ← mul_max_of_nonneg _ _ hl.sy]
  exact ⟨mul_le_mul_of_nonneg_left h hl.sx, mul_le_mul_of_nonneg_left h hl.sy⟩

end Verif.Core.Dof
