import Verif.Core.HitTestLemmas

/-!
# C53: sample points and micropolygons

A micropolygon of a grid covers a sample point or not. Neighbouring micropolygons have to share the points on their
common edge out between them: one and only one gets each ("every sample point lies on exactly one side of the edge,
ie if it is exactly coincident with the edge it can't be on both or neither sides",
libs/core/micropolygon.cpp:1308-1312).
-/

namespace Verif.Core.HitTest

/-! ## Specification -/

/-- The point of the micropolygon with the parameters `u` and `v`: bilinear interpolation of the vertices. -/
def patchX (q : Quad) (u v : ℚ) : ℚ := (1 - v) * ((1 - u) * q.p0.x + u * q.p1.x) + v * ((1 - u) * q.p2.x + u * q.p3.x)
def patchY (q : Quad) (u v : ℚ) : ℚ := (1 - v) * ((1 - u) * q.p0.y + u * q.p1.y) + v * ((1 - u) * q.p2.y + u * q.p3.y)

/-- Strictly convex, the vertices in the order 0, 1, 3, 2 turn left all the way. -/
def TurnsLeft (q : Quad) : Prop :=
  0 < left q.p0 q.p1 q.p3.x q.p3.y ∧ 0 < left q.p1 q.p3 q.p2.x q.p2.y ∧ 0 < left q.p3 q.p2 q.p0.x q.p0.y ∧
    0 < left q.p2 q.p0 q.p1.x q.p1.y

/-- Strictly convex, turning right all the way. -/
def TurnsRight (q : Quad) : Prop :=
  left q.p0 q.p1 q.p3.x q.p3.y < 0 ∧ left q.p1 q.p3 q.p2.x q.p2.y < 0 ∧ left q.p3 q.p2 q.p0.x q.p0.y < 0 ∧
    left q.p2 q.p0 q.p1.x q.p1.y < 0

/-- The micropolygon `(i, j)` of a grid of points. -/
def cell (g : ℕ → ℕ → P3) (i j : ℕ) : Quad := ⟨g i j, g (i + 1) j, g i (j + 1), g (i + 1) (j + 1)⟩

/-- The point `(i, j)` of a lattice, with origin `o` and steps `e` and `f`. -/
def latticePt (o e f : P3) (i j : ℤ) : P3 :=
  ⟨o.x + i * e.x + j * f.x, o.y + i * e.y + j * f.y, o.z + i * e.z + j * f.z⟩

def latticeCell (o e f : P3) (i j : ℤ) : Quad :=
  ⟨latticePt o e f i j, latticePt o e f (i + 1) j, latticePt o e f i (j + 1), latticePt o e f (i + 1) (j + 1)⟩

/-- A point in the convex hull of the vertices. -/
def InHull (q : Quad) (x y : ℚ) : Prop :=
  ∃ w0 w1 w2 w3 : ℚ, 0 ≤ w0 ∧ 0 ≤ w1 ∧ 0 ≤ w2 ∧ 0 ≤ w3 ∧ w0 + w1 + w2 + w3 = 1 ∧
    x = w0 * q.p0.x + w1 * q.p1.x + w2 * q.p2.x + w3 * q.p3.x ∧
    y = w0 * q.p0.y + w1 * q.p1.y + w2 * q.p2.y + w3 * q.p3.y

/-- Sample `(px, py, ny * xs + mx)` lies in its subpixel of its pixel. -/
def Placed (xs ys : Nat) (pos : ℤ × ℤ × ℤ → ℚ × ℚ) : Prop :=
  ∀ px py mx ny : ℤ, 0 ≤ mx → mx < xs → 0 ≤ ny → ny < ys →
    ((px : ℚ) + mx / xs ≤ (pos (px, py, ny * xs + mx)).1 ∧ (pos (px, py, ny * xs + mx)).1 < px + ((mx : ℚ) + 1) / xs) ∧
    ((py : ℚ) + ny / ys ≤ (pos (px, py, ny * xs + mx)).2 ∧ (pos (px, py, ny * xs + mx)).2 < py + ((ny : ℚ) + 1) / ys)

/-- The same, and not on the lower boundaries of the subpixel. -/
def PlacedInside (xs ys : Nat) (pos : ℤ × ℤ × ℤ → ℚ × ℚ) : Prop :=
  Placed xs ys pos ∧ ∀ px py mx ny : ℤ, 0 ≤ mx → mx < xs → 0 ≤ ny → ny < ys →
    (px : ℚ) + mx / xs ≠ (pos (px, py, ny * xs + mx)).1 ∧ (py : ℚ) + ny / ys ≠ (pos (px, py, ny * xs + mx)).2

/-! ## Single micropolygons -/

lemma comb_pos {t a b : ℚ} (h0 : 0 ≤ t) (h1 : t ≤ 1) (ha : 0 < a) (hb : 0 < b) : 0 < (1 - t) * a + t * b := by
  rcases eq_or_lt_of_le h0 with rfl | h
  · linarith
  · have := mul_pos h hb
    have := mul_nonneg (sub_nonneg.mpr h1) ha.le
    linarith

lemma mul_pos_iff' {t a : ℚ} (ha : 0 < a) : 0 < t * a ↔ 0 < t := by
  constructor
  · intro h; by_contra hn; have := mul_nonpos_of_nonpos_of_nonneg (not_lt.mp hn) ha.le; linarith
  · intro h; exact mul_pos h ha

lemma left_bottom (q : Quad) (u v : ℚ) : left q.p0 q.p1 (patchX q u v) (patchY q u v) =
    v * ((1 - u) * left q.p2 q.p0 q.p1.x q.p1.y + u * left q.p0 q.p1 q.p3.x q.p3.y) := by
  unfold left patchX patchY; ring
lemma left_right (q : Quad) (u v : ℚ) : left q.p1 q.p3 (patchX q u v) (patchY q u v) =
    (1 - u) * ((1 - v) * left q.p0 q.p1 q.p3.x q.p3.y + v * left q.p1 q.p3 q.p2.x q.p2.y) := by
  unfold left patchX patchY; ring
lemma left_top (q : Quad) (u v : ℚ) : left q.p3 q.p2 (patchX q u v) (patchY q u v) =
    (1 - v) * ((1 - u) * left q.p3 q.p2 q.p0.x q.p0.y + u * left q.p1 q.p3 q.p2.x q.p2.y) := by
  unfold left patchX patchY; ring
lemma left_left (q : Quad) (u v : ℚ) : left q.p2 q.p0 (patchX q u v) (patchY q u v) =
    u * ((1 - v) * left q.p2 q.p0 q.p1.x q.p1.y + v * left q.p3 q.p2 q.p0.x q.p0.y) := by
  unfold left patchX patchY; ring
lemma left_swap (a b : P3) (x y : ℚ) : left b a x y = - left a b x y := by unfold left; ring

/-- The outcome of the test does not depend on the edge tested first (`m_LastFailedEdge`), that is, on the samples
tested before. -/
theorem C53_order (q : Quad) (last last' : Nat) (h : last < 4) (h' : last' < 4) (x y : ℚ) :
    (fContains (edges q (indexCode q)) last x y).1 = (fContains (edges q (indexCode q)) last' x y).1 ∧
    (fContains (edges q (indexCode q)) last x y).2 < 4 :=
  ⟨fContains_indep _ last last' h h' x y, fContains_lt _ last h x y⟩

example : (fContains (edges ⟨⟨0,0,0⟩, ⟨1,0,0⟩, ⟨0,1,0⟩, ⟨1,1,0⟩⟩ (indexCode ⟨⟨0,0,0⟩, ⟨1,0,0⟩, ⟨0,1,0⟩, ⟨1,1,0⟩⟩)) 0 2 (1/2))
    = (false, 1) := by decide +kernel

/-- Which points of a convex micropolygon turning left are hit: all but those of the edges `v = 0` and `u = 1`. -/
theorem C53_patch_left (q : Quad) (hs : LongSides q) (hl : TurnsLeft q) (u v : ℚ)
    (hu : 0 ≤ u ∧ u ≤ 1) (hv : 0 ≤ v ∧ v ≤ 1) :
    hits q (patchX q u v) (patchY q u v) = true ↔ u < 1 ∧ 0 < v := by
  obtain ⟨t1, t2, t3, t4⟩ := hl
  rw [hits_long_flip hs t1.le, left_bottom, left_right, left_top, left_left,
    mul_pos_iff' (comb_pos hu.1 hu.2 t4 t1), mul_pos_iff' (comb_pos hv.1 hv.2 t1 t2)]
  constructor
  · rintro ⟨a, b, _, _⟩; exact ⟨by linarith, a⟩
  · rintro ⟨a, b⟩
    exact ⟨b, by linarith, mul_nonneg (by linarith) (comb_pos hu.1 hu.2 t3 t2).le,
      mul_nonneg hu.1 (comb_pos hv.1 hv.2 t4 t3).le⟩

/-- Which points of a convex micropolygon turning right are hit: all but those of the edges `u = 0` and `v = 1`. -/
theorem C53_patch_right (q : Quad) (hs : LongSides q) (hl : TurnsRight q) (u v : ℚ)
    (hu : 0 ≤ u ∧ u ≤ 1) (hv : 0 ≤ v ∧ v ≤ 1) :
    hits q (patchX q u v) (patchY q u v) = true ↔ 0 < u ∧ v < 1 := by
  obtain ⟨t1, t2, t3, t4⟩ := hl
  have e1 : ∀ a b c d : ℚ, -(a * (b * c + d)) = a * (b * -c + -d) := by intros; ring
  rw [hits_long_noflip hs t1, left_swap q.p2 q.p0, left_swap q.p3 q.p2, left_swap q.p1 q.p3, left_swap q.p0 q.p1,
    left_bottom, left_right, left_top, left_left, e1, e1, e1, e1, ← mul_neg, ← mul_neg, ← mul_neg, ← mul_neg,
    mul_pos_iff' (comb_pos hv.1 hv.2 (neg_pos.mpr t4) (neg_pos.mpr t3)),
    mul_pos_iff' (comb_pos hu.1 hu.2 (neg_pos.mpr t3) (neg_pos.mpr t2))]
  constructor
  · rintro ⟨a, b, _, _⟩; exact ⟨a, by linarith⟩
  · rintro ⟨a, b⟩
    exact ⟨a, by linarith, mul_nonneg (by linarith) (comb_pos hv.1 hv.2 (neg_pos.mpr t1) (neg_pos.mpr t2)).le,
      mul_nonneg hv.1 (comb_pos hu.1 hu.2 (neg_pos.mpr t4) (neg_pos.mpr t1)).le⟩

example : LongSides ⟨⟨0,0,0⟩, ⟨2,0,0⟩, ⟨0,1,0⟩, ⟨1,1,0⟩⟩ ∧ TurnsLeft ⟨⟨0,0,0⟩, ⟨2,0,0⟩, ⟨0,1,0⟩, ⟨1,1,0⟩⟩ ∧
    LongSides ⟨⟨0,0,0⟩, ⟨0,1,0⟩, ⟨2,0,0⟩, ⟨1,1,0⟩⟩ ∧ TurnsRight ⟨⟨0,0,0⟩, ⟨0,1,0⟩, ⟨2,0,0⟩, ⟨1,1,0⟩⟩ := by
  unfold LongSides TurnsLeft TurnsRight left dist2
  norm_num

/-- A point in the triangle of three points, from the three signed areas. -/
lemma bary (A B C : P3) (x y : ℚ) (hT : 0 < left A B C.x C.y) (h1 : 0 ≤ left A B x y) (h2 : 0 ≤ left B C x y)
    (h3 : 0 ≤ left C A x y) : ∃ a b c : ℚ, 0 ≤ a ∧ 0 ≤ b ∧ 0 ≤ c ∧ a + b + c = 1 ∧
      x = a * A.x + b * B.x + c * C.x ∧ y = a * A.y + b * B.y + c * C.y := by
  have hne := hT.ne'
  refine ⟨left B C x y / left A B C.x C.y, left C A x y / left A B C.x C.y, left A B x y / left A B C.x C.y,
    div_nonneg h2 hT.le, div_nonneg h3 hT.le, div_nonneg h1 hT.le, ?_, ?_, ?_⟩
  · field_simp; unfold left; ring
  · field_simp; unfold left; ring
  · field_simp; unfold left; ring

/-- Every hit of a convex micropolygon is a point of it: a convex combination of the vertices. -/
theorem C53_hull (q : Quad) (hs : LongSides q) (hl : TurnsLeft q ∨ TurnsRight q) (x y : ℚ)
    (h : hits q x y = true) : InHull q x y := by
  rcases hl with ⟨t1, t2, t3, t4⟩ | ⟨t1, t2, t3, t4⟩
  · obtain ⟨h1, h2, h3, h4⟩ := (hits_long_flip hs t1.le x y).mp h
    have t3' : 0 < left q.p0 q.p3 q.p2.x q.p2.y := by
      have : left q.p0 q.p3 q.p2.x q.p2.y = left q.p3 q.p2 q.p0.x q.p0.y := by unfold left; ring
      rw [this]; exact t3
    rcases le_total 0 (left q.p3 q.p0 x y) with hd | hd
    · obtain ⟨a, b, c, ha, hb, hc, hsum, hx, hy⟩ := bary q.p0 q.p1 q.p3 x y t1 h1.le h2.le hd
      exact ⟨a, b, 0, c, ha, hb, le_refl _, hc, by linarith, by rw [hx]; ring, by rw [hy]; ring⟩
    · rw [left_swap] at hd
      obtain ⟨a, b, c, ha, hb, hc, hsum, hx, hy⟩ := bary q.p0 q.p3 q.p2 x y t3' (by linarith) h3 h4
      exact ⟨a, 0, c, b, ha, le_refl _, hc, hb, by linarith, by rw [hx]; ring, by rw [hy]; ring⟩
  · obtain ⟨h1, h2, h3, h4⟩ := (hits_long_noflip hs t1 x y).mp h
    have t1' : 0 < left q.p0 q.p3 q.p1.x q.p1.y := by
      have : left q.p0 q.p3 q.p1.x q.p1.y = - left q.p0 q.p1 q.p3.x q.p3.y := by unfold left; ring
      rw [this]; linarith
    have t3' : 0 < left q.p0 q.p2 q.p3.x q.p3.y := by
      have : left q.p0 q.p2 q.p3.x q.p3.y = - left q.p3 q.p2 q.p0.x q.p0.y := by unfold left; ring
      rw [this]; linarith
    rcases le_total 0 (left q.p0 q.p3 x y) with hd | hd
    · obtain ⟨a, b, c, ha, hb, hc, hsum, hx, hy⟩ := bary q.p0 q.p3 q.p1 x y t1' hd h3 h4
      exact ⟨a, c, 0, b, ha, hc, le_refl _, hb, by linarith, by rw [hx]; ring, by rw [hy]; ring⟩
    · have hd' : 0 ≤ left q.p3 q.p0 x y := by rw [left_swap]; linarith
      obtain ⟨a, b, c, ha, hb, hc, hsum, hx, hy⟩ := bary q.p0 q.p2 q.p3 x y t3' h1.le h2.le hd'
      exact ⟨a, 0, b, c, ha, le_refl _, hb, hc, by linarith, by rw [hx]; ring, by rw [hy]; ring⟩

example : hits ⟨⟨0,0,0⟩, ⟨2,0,0⟩, ⟨0,1,0⟩, ⟨1,1,0⟩⟩ (1/2) (1/2) = true := by decide +kernel

/-- The three vertices that are kept when a side is too short. -/
def Kept (q : Quad) (a b c : P3) : Prop :=
  (dist2 q.p0 q.p1 < 1 / 10 ^ 8 ∨ dist2 q.p1 q.p3 < 1 / 10 ^ 8) ∧ (a, b, c) = (q.p0, q.p3, q.p2) ∨
  ¬ dist2 q.p0 q.p1 < 1 / 10 ^ 8 ∧ ¬ dist2 q.p1 q.p3 < 1 / 10 ^ 8 ∧ dist2 q.p3 q.p2 < 1 / 10 ^ 8 ∧
    (a, b, c) = (q.p0, q.p1, q.p2) ∨
  ¬ dist2 q.p0 q.p1 < 1 / 10 ^ 8 ∧ ¬ dist2 q.p1 q.p3 < 1 / 10 ^ 8 ∧ ¬ dist2 q.p3 q.p2 < 1 / 10 ^ 8 ∧
    dist2 q.p2 q.p0 < 1 / 10 ^ 8 ∧ (a, b, c) = (q.p0, q.p1, q.p3)

lemma kept_codes {q : Quad} {a b c : P3} (h : Kept q a b c) : ∃ i j k : Nat, i < 4 ∧ j < 4 ∧ k < 4 ∧
    codes q = (i, j, k, none) ∧ a = q.at i ∧ b = q.at j ∧ c = q.at k := by
  have e0 : dist2 (q.at 0) (q.at 1) = dist2 q.p0 q.p1 := rfl
  have e1 : dist2 (q.at 1) (q.at 3) = dist2 q.p1 q.p3 := rfl
  have e2 : dist2 (q.at 3) (q.at 2) = dist2 q.p3 q.p2 := rfl
  have e3 : dist2 (q.at 2) (q.at 0) = dist2 q.p2 q.p0 := rfl
  unfold codes
  rw [e0, e1, e2, e3]
  rcases h with ⟨h | h, he⟩ | ⟨h1, h2, h3, he⟩ | ⟨h1, h2, h3, h4, he⟩
  · simp only [Prod.mk.injEq] at he
    exact ⟨0, 3, 2, by norm_num, by norm_num, by norm_num, by rw [if_pos h], he.1, he.2.1, he.2.2⟩
  · simp only [Prod.mk.injEq] at he
    refine ⟨0, 3, 2, by norm_num, by norm_num, by norm_num, ?_, he.1, he.2.1, he.2.2⟩
    by_cases h0 : dist2 q.p0 q.p1 < 1 / 10 ^ 8
    · rw [if_pos h0]
    · rw [if_neg h0, if_pos h]
  · simp only [Prod.mk.injEq] at he
    exact ⟨0, 1, 2, by norm_num, by norm_num, by norm_num, by rw [if_neg h1, if_neg h2, if_pos h3], he.1, he.2.1, he.2.2⟩
  · simp only [Prod.mk.injEq] at he
    exact ⟨0, 1, 3, by norm_num, by norm_num, by norm_num, by rw [if_neg h1, if_neg h2, if_neg h3, if_pos h4],
      he.1, he.2.1, he.2.2⟩

/-- A micropolygon with a side too short is taken for the triangle of the other vertices: the inner points of the
triangle are hit, and every hit is in the triangle. (Partial: the points on the edges of the triangle are not
shared out as they ought to be, `C53_triangle_violated`.) -/
theorem C53_triangle_partial (q : Quad) (a b c : P3) (hk : Kept q a b c) (ha : left a b c.x c.y ≠ 0) :
    (∀ s t r : ℚ, 0 < s → 0 < t → 0 < r → s + t + r = 1 →
      hits q (s * a.x + t * b.x + r * c.x) (s * a.y + t * b.y + r * c.y) = true) ∧
    (∀ x y, hits q x y = true → ∃ s t r : ℚ, 0 ≤ s ∧ 0 ≤ t ∧ 0 ≤ r ∧ s + t + r = 1 ∧
      x = s * a.x + t * b.x + r * c.x ∧ y = s * a.y + t * b.y + r * c.y) := by
  obtain ⟨i, j, k, hi, hj, hkk, hc, rfl, rfl, rfl⟩ := kept_codes hk
  generalize hA : q.at i = A at *
  generalize hB : q.at j = B at *
  generalize hC : q.at k = C at *
  have l1 : ∀ s t r : ℚ, s + t + r = 1 → left A B (s * A.x + t * B.x + r * C.x) (s * A.y + t * B.y + r * C.y) =
      r * left A B C.x C.y := by
    intro s t r h; have : s = 1 - t - r := by linarith
    subst this; unfold left; ring
  have l2 : ∀ s t r : ℚ, s + t + r = 1 → left B C (s * A.x + t * B.x + r * C.x) (s * A.y + t * B.y + r * C.y) =
      s * left A B C.x C.y := by
    intro s t r h; have : s = 1 - t - r := by linarith
    subst this; unfold left; ring
  have l3 : ∀ s t r : ℚ, s + t + r = 1 → left C A (s * A.x + t * B.x + r * C.x) (s * A.y + t * B.y + r * C.y) =
      t * left A B C.x C.y := by
    intro s t r h; have : s = 1 - t - r := by linarith
    subst this; unfold left; ring
  by_cases hf : 0 ≤ left A B C.x C.y
  · have hpos : 0 < left A B C.x C.y := lt_of_le_of_ne hf (Ne.symm ha)
    have hiff := hits_deg_flip hi hj hkk hc (by rw [hA, hB, hC]; exact hf)
    rw [hA, hB, hC] at hiff
    constructor
    · intro s t r h1 h2 h3 hsum
      rw [hiff, l1 s t r hsum, l2 s t r hsum, l3 s t r hsum]
      exact ⟨mul_pos h3 hpos, mul_pos h1 hpos, (mul_pos h2 hpos).le⟩
    · intro x y h
      obtain ⟨h1, h2, h3⟩ := (hiff x y).mp h
      exact bary A B C x y hpos h1.le h2.le h3
  · have hneg : left A B C.x C.y < 0 := not_le.mp hf
    have hiff := hits_deg_noflip hi hj hkk hc (by rw [hA, hB, hC]; exact hneg)
    rw [hA, hB, hC] at hiff
    constructor
    · intro s t r h1 h2 h3 hsum
      rw [hiff, left_swap C A, left_swap B C, left_swap A B, l1 s t r hsum, l2 s t r hsum, l3 s t r hsum]
      have := mul_neg_of_pos_of_neg h1 hneg
      have := mul_neg_of_pos_of_neg h2 hneg
      have := mul_neg_of_pos_of_neg h3 hneg
      exact ⟨by linarith, by linarith, by linarith⟩
    · intro x y h
      obtain ⟨h1, h2, h3⟩ := (hiff x y).mp h
      have hpos : 0 < left A C B.x B.y := by
        have : left A C B.x B.y = - left A B C.x C.y := by unfold left; ring
        rw [this]; linarith
      obtain ⟨s, t, r, hs, ht, hr, hsum, hx, hy⟩ := bary A C B x y hpos h1.le h2.le h3
      exact ⟨s, r, t, hs, hr, ht, by linarith, by rw [hx]; ring, by rw [hy]; ring⟩

example : Kept ⟨⟨0,0,0⟩, ⟨0,0,0⟩, ⟨-1,1,0⟩, ⟨1,1,0⟩⟩ ⟨0,0,0⟩ ⟨1,1,0⟩ ⟨-1,1,0⟩ ∧ left ⟨0,0,0⟩ ⟨1,1,0⟩ (-1) 1 ≠ 0 := by
  unfold Kept dist2 left; norm_num

/-! ## Grids -/

/-- In a grid of convex micropolygons turning left, of all the micropolygons that a point of the surface belongs to
(two at an edge, four at a corner) exactly one is hit. -/
theorem C53_grid_partial (g : ℕ → ℕ → P3) (m n : ℕ)
    (hg : ∀ i j, i < m → j < n → LongSides (cell g i j) ∧ TurnsLeft (cell g i j))
    (s t : ℚ) (hs : 0 ≤ s ∧ s < m) (ht : 0 < t ∧ t ≤ n) :
    ∃! c : ℕ × ℕ, (c.1 < m ∧ c.2 < n) ∧ ((c.1 : ℚ) ≤ s ∧ s ≤ c.1 + 1) ∧ ((c.2 : ℚ) ≤ t ∧ t ≤ c.2 + 1) ∧
      hits (cell g c.1 c.2) (patchX (cell g c.1 c.2) (s - c.1) (t - c.2))
        (patchY (cell g c.1 c.2) (s - c.1) (t - c.2)) = true := by
  have hs0 : 0 ≤ ⌊s⌋ := Int.floor_nonneg.mpr hs.1
  have ht0 : 0 < ⌈t⌉ := Int.ceil_pos.mpr ht.1
  obtain ⟨i, hi⟩ : ∃ i : ℕ, (i : ℤ) = ⌊s⌋ := ⟨⌊s⌋.toNat, by omega⟩
  obtain ⟨j, hj⟩ : ∃ j : ℕ, (j : ℤ) + 1 = ⌈t⌉ := ⟨(⌈t⌉ - 1).toNat, by omega⟩
  have hi1 : (i : ℚ) ≤ s := by have := Int.floor_le s; rw [← hi] at this; exact_mod_cast this
  have hi2 : s < i + 1 := by have := Int.lt_floor_add_one s; rw [← hi] at this; exact_mod_cast this
  have hj1 : t ≤ j + 1 := by have := Int.le_ceil t; rw [← hj] at this; exact_mod_cast this
  have hj2 : (j : ℚ) < t := by
    have := Int.ceil_lt_add_one t; rw [← hj] at this; push_cast at this; linarith
  have him : i < m := by have : (i : ℚ) < m := lt_of_le_of_lt hi1 hs.2; exact_mod_cast this
  have hjn : j < n := by have : (j : ℚ) < n := lt_of_lt_of_le hj2 ht.2; exact_mod_cast this
  have key : ∀ a b : ℕ, a < m → b < n → ((a : ℚ) ≤ s ∧ s ≤ a + 1) → ((b : ℚ) ≤ t ∧ t ≤ b + 1) →
      (hits (cell g a b) (patchX (cell g a b) (s - a) (t - b)) (patchY (cell g a b) (s - a) (t - b)) = true ↔
        s - a < 1 ∧ 0 < t - b) := by
    intro a b ha hb h1 h2
    exact C53_patch_left _ (hg a b ha hb).1 (hg a b ha hb).2 _ _ ⟨by linarith, by linarith⟩ ⟨by linarith, by linarith⟩
  refine ⟨(i, j), ⟨⟨him, hjn⟩, ⟨hi1, hi2.le⟩, ⟨hj2.le, hj1⟩,
    (key i j him hjn ⟨hi1, hi2.le⟩ ⟨hj2.le, hj1⟩).mpr ⟨by linarith, by linarith⟩⟩, ?_⟩
  rintro ⟨a, b⟩ ⟨⟨ha, hb⟩, h1, h2, h3⟩
  obtain ⟨k1, k2⟩ := (key a b ha hb h1 h2).mp h3
  simp only at h1 h2 k1 k2
  have ha' : a = i := by
    have c1 : (a : ℚ) < i + 1 := by linarith
    have c2 : (i : ℚ) < a + 1 := by linarith
    have c1' : a < i + 1 := by exact_mod_cast c1
    have c2' : i < a + 1 := by exact_mod_cast c2
    omega
  have hb' : b = j := by
    have c1 : (b : ℚ) < j + 1 := by linarith
    have c2 : (j : ℚ) < b + 1 := by linarith
    have c1' : b < j + 1 := by exact_mod_cast c1
    have c2' : j < b + 1 := by exact_mod_cast c2
    omega
  rw [ha', hb']

/-- The same for grids of micropolygons turning right; here it is the other two borders of the grid that are left
out. -/
theorem C53_grid_right_partial (g : ℕ → ℕ → P3) (m n : ℕ)
    (hg : ∀ i j, i < m → j < n → LongSides (cell g i j) ∧ TurnsRight (cell g i j))
    (s t : ℚ) (hs : 0 < s ∧ s ≤ m) (ht : 0 ≤ t ∧ t < n) :
    ∃! c : ℕ × ℕ, (c.1 < m ∧ c.2 < n) ∧ ((c.1 : ℚ) ≤ s ∧ s ≤ c.1 + 1) ∧ ((c.2 : ℚ) ≤ t ∧ t ≤ c.2 + 1) ∧
      hits (cell g c.1 c.2) (patchX (cell g c.1 c.2) (s - c.1) (t - c.2))
        (patchY (cell g c.1 c.2) (s - c.1) (t - c.2)) = true := by
  have ht0 : 0 ≤ ⌊t⌋ := Int.floor_nonneg.mpr ht.1
  have hs0 : 0 < ⌈s⌉ := Int.ceil_pos.mpr hs.1
  obtain ⟨j, hj⟩ : ∃ j : ℕ, (j : ℤ) = ⌊t⌋ := ⟨⌊t⌋.toNat, by omega⟩
  obtain ⟨i, hi⟩ : ∃ i : ℕ, (i : ℤ) + 1 = ⌈s⌉ := ⟨(⌈s⌉ - 1).toNat, by omega⟩
  have hj1 : (j : ℚ) ≤ t := by have := Int.floor_le t; rw [← hj] at this; exact_mod_cast this
  have hj2 : t < j + 1 := by have := Int.lt_floor_add_one t; rw [← hj] at this; exact_mod_cast this
  have hi1 : s ≤ i + 1 := by have := Int.le_ceil s; rw [← hi] at this; exact_mod_cast this
  have hi2 : (i : ℚ) < s := by
    have := Int.ceil_lt_add_one s; rw [← hi] at this; push_cast at this; linarith
  have him : i < m := by have : (i : ℚ) < m := lt_of_lt_of_le hi2 hs.2; exact_mod_cast this
  have hjn : j < n := by have : (j : ℚ) < n := lt_of_le_of_lt hj1 ht.2; exact_mod_cast this
  have key : ∀ a b : ℕ, a < m → b < n → ((a : ℚ) ≤ s ∧ s ≤ a + 1) → ((b : ℚ) ≤ t ∧ t ≤ b + 1) →
      (hits (cell g a b) (patchX (cell g a b) (s - a) (t - b)) (patchY (cell g a b) (s - a) (t - b)) = true ↔
        0 < s - a ∧ t - b < 1) := by
    intro a b ha hb h1 h2
    exact C53_patch_right _ (hg a b ha hb).1 (hg a b ha hb).2 _ _ ⟨by linarith, by linarith⟩ ⟨by linarith, by linarith⟩
  refine ⟨(i, j), ⟨⟨him, hjn⟩, ⟨hi2.le, hi1⟩, ⟨hj1, hj2.le⟩,
    (key i j him hjn ⟨hi2.le, hi1⟩ ⟨hj1, hj2.le⟩).mpr ⟨by linarith, by linarith⟩⟩, ?_⟩
  rintro ⟨a, b⟩ ⟨⟨ha, hb⟩, h1, h2, h3⟩
  obtain ⟨k1, k2⟩ := (key a b ha hb h1 h2).mp h3
  simp only at h1 h2 k1 k2
  have ha' : a = i := by
    have c1 : (a : ℚ) < i + 1 := by linarith
    have c2 : (i : ℚ) < a + 1 := by linarith
    have c1' : a < i + 1 := by exact_mod_cast c1
    have c2' : i < a + 1 := by exact_mod_cast c2
    omega
  have hb' : b = j := by
    have c1 : (b : ℚ) < j + 1 := by linarith
    have c2 : (j : ℚ) < b + 1 := by linarith
    have c1' : b < j + 1 := by exact_mod_cast c1
    have c2' : j < b + 1 := by exact_mod_cast c2
    omega
  rw [ha', hb']

example : ∀ i j, i < 2 → j < 1 →
    LongSides (cell (fun i j => ⟨i, j + i, 0⟩) i j) ∧ TurnsLeft (cell (fun i j => ⟨i, j + i, 0⟩) i j) := by
  intro i j _ _
  unfold LongSides TurnsLeft cell dist2 left
  push_cast
  refine ⟨⟨?_, ?_, ?_, ?_⟩, ?_, ?_, ?_, ?_⟩ <;> ring_nf <;> norm_num

/-- Two micropolygons side by side in a grid, of the same orientation, have no hit in common – wherever the point is
and whatever their shapes. -/
theorem C53_neighbours (a b c d e f : P3)
    (h1 : LongSides ⟨a, b, d, e⟩) (h2 : LongSides ⟨b, c, e, f⟩)
    (ho : 0 ≤ left a b e.x e.y ∧ 0 ≤ left b c f.x f.y ∨ left a b e.x e.y < 0 ∧ left b c f.x f.y < 0) (x y : ℚ) :
    ¬ (hits ⟨a, b, d, e⟩ x y = true ∧ hits ⟨b, c, e, f⟩ x y = true) := by
  rintro ⟨k1, k2⟩
  rcases ho with ⟨o1, o2⟩ | ⟨o1, o2⟩
  · obtain ⟨_, r, _, _⟩ := (hits_long_flip h1 o1 x y).mp k1
    obtain ⟨_, _, _, l⟩ := (hits_long_flip h2 o2 x y).mp k2
    dsimp only at r l
    rw [left_swap] at l; linarith
  · obtain ⟨_, _, r, _⟩ := (hits_long_noflip h1 o1 x y).mp k1
    obtain ⟨l, _, _, _⟩ := (hits_long_noflip h2 o2 x y).mp k2
    dsimp only at r l
    rw [left_swap] at l; linarith

/-- The same for two micropolygons one above the other. -/
theorem C53_neighbours_above (a b c d e f : P3)
    (h1 : LongSides ⟨a, b, c, d⟩) (h2 : LongSides ⟨c, d, e, f⟩)
    (ho : 0 ≤ left a b d.x d.y ∧ 0 ≤ left c d f.x f.y ∨ left a b d.x d.y < 0 ∧ left c d f.x f.y < 0) (x y : ℚ) :
    ¬ (hits ⟨a, b, c, d⟩ x y = true ∧ hits ⟨c, d, e, f⟩ x y = true) := by
  rintro ⟨k1, k2⟩
  rcases ho with ⟨o1, o2⟩ | ⟨o1, o2⟩
  · obtain ⟨_, _, r, _⟩ := (hits_long_flip h1 o1 x y).mp k1
    obtain ⟨l, _, _, _⟩ := (hits_long_flip h2 o2 x y).mp k2
    dsimp only at r l
    rw [left_swap] at l; linarith
  · obtain ⟨_, r, _, _⟩ := (hits_long_noflip h1 o1 x y).mp k1
    obtain ⟨_, _, _, l⟩ := (hits_long_noflip h2 o2 x y).mp k2
    dsimp only at r l
    rw [left_swap] at l; linarith

/-- A point on the common edge of two micropolygons side by side: one of them is hit. -/
theorem C53_shared_edge (a b c d e f : P3)
    (h1 : LongSides ⟨a, b, d, e⟩) (h2 : LongSides ⟨b, c, e, f⟩)
    (ho : TurnsLeft ⟨a, b, d, e⟩ ∧ TurnsLeft ⟨b, c, e, f⟩ ∨ TurnsRight ⟨a, b, d, e⟩ ∧ TurnsRight ⟨b, c, e, f⟩)
    (v : ℚ) (hv : 0 < v ∧ v < 1) :
    (hits ⟨a, b, d, e⟩ ((1 - v) * b.x + v * e.x) ((1 - v) * b.y + v * e.y) = true ∧
        hits ⟨b, c, e, f⟩ ((1 - v) * b.x + v * e.x) ((1 - v) * b.y + v * e.y) = false) ∨
    (hits ⟨a, b, d, e⟩ ((1 - v) * b.x + v * e.x) ((1 - v) * b.y + v * e.y) = false ∧
        hits ⟨b, c, e, f⟩ ((1 - v) * b.x + v * e.x) ((1 - v) * b.y + v * e.y) = true) := by
  have x1 : patchX ⟨a, b, d, e⟩ 1 v = (1 - v) * b.x + v * e.x := by unfold patchX; ring
  have y1 : patchY ⟨a, b, d, e⟩ 1 v = (1 - v) * b.y + v * e.y := by unfold patchY; ring
  have x2 : patchX ⟨b, c, e, f⟩ 0 v = (1 - v) * b.x + v * e.x := by unfold patchX; ring
  have y2 : patchY ⟨b, c, e, f⟩ 0 v = (1 - v) * b.y + v * e.y := by unfold patchY; ring
  rcases ho with ⟨o1, o2⟩ | ⟨o1, o2⟩
  · right
    have k1 := C53_patch_left _ h1 o1 1 v (by norm_num) ⟨hv.1.le, hv.2.le⟩
    have k2 := C53_patch_left _ h2 o2 0 v (by norm_num) ⟨hv.1.le, hv.2.le⟩
    rw [x1, y1] at k1; rw [x2, y2] at k2
    refine ⟨?_, k2.mpr ⟨by norm_num, hv.1⟩⟩
    rw [← Bool.not_eq_true, k1]; norm_num
  · left
    have k1 := C53_patch_right _ h1 o1 1 v (by norm_num) ⟨hv.1.le, hv.2.le⟩
    have k2 := C53_patch_right _ h2 o2 0 v (by norm_num) ⟨hv.1.le, hv.2.le⟩
    rw [x1, y1] at k1; rw [x2, y2] at k2
    refine ⟨k1.mpr ⟨by norm_num, hv.2⟩, ?_⟩
    rw [← Bool.not_eq_true, k2]; norm_num

/-- The test of a micropolygon of a lattice, in terms of the coordinates with respect to the lattice. -/
lemma lattice_hits (o e f : P3) (i j : ℤ) (s t : ℚ) (he : 1 / 10 ^ 8 ≤ e.x ^ 2 + e.y ^ 2 + e.z ^ 2)
    (hf : 1 / 10 ^ 8 ≤ f.x ^ 2 + f.y ^ 2 + f.z ^ 2) :
    (0 < e.x * f.y - e.y * f.x →
      (hits (latticeCell o e f i j) (o.x + s * e.x + t * f.x) (o.y + s * e.y + t * f.y) = true ↔
        ((i : ℚ) ≤ s ∧ s < i + 1) ∧ ((j : ℚ) < t ∧ t ≤ j + 1))) ∧
    (e.x * f.y - e.y * f.x < 0 →
      (hits (latticeCell o e f i j) (o.x + s * e.x + t * f.x) (o.y + s * e.y + t * f.y) = true ↔
        ((i : ℚ) < s ∧ s ≤ i + 1) ∧ ((j : ℚ) ≤ t ∧ t < j + 1))) := by
  have hs : LongSides (latticeCell o e f i j) := by
    unfold LongSides latticeCell latticePt dist2
    push_cast
    refine ⟨?_, ?_, ?_, ?_⟩
    · refine le_trans he (le_of_eq ?_); ring
    · refine le_trans hf (le_of_eq ?_); ring
    · refine le_trans he (le_of_eq ?_); ring
    · refine le_trans hf (le_of_eq ?_); ring
  have hturn : left (latticeCell o e f i j).p0 (latticeCell o e f i j).p1 (latticeCell o e f i j).p3.x
      (latticeCell o e f i j).p3.y = e.x * f.y - e.y * f.x := by
    unfold left latticeCell latticePt; push_cast; ring
  have l1 : left (latticeCell o e f i j).p0 (latticeCell o e f i j).p1 (o.x + s * e.x + t * f.x)
      (o.y + s * e.y + t * f.y) = (t - j) * (e.x * f.y - e.y * f.x) := by
    unfold left latticeCell latticePt; push_cast; ring
  have l2 : left (latticeCell o e f i j).p1 (latticeCell o e f i j).p3 (o.x + s * e.x + t * f.x)
      (o.y + s * e.y + t * f.y) = (i + 1 - s) * (e.x * f.y - e.y * f.x) := by
    unfold left latticeCell latticePt; push_cast; ring
  have l3 : left (latticeCell o e f i j).p3 (latticeCell o e f i j).p2 (o.x + s * e.x + t * f.x)
      (o.y + s * e.y + t * f.y) = (j + 1 - t) * (e.x * f.y - e.y * f.x) := by
    unfold left latticeCell latticePt; push_cast; ring
  have l4 : left (latticeCell o e f i j).p2 (latticeCell o e f i j).p0 (o.x + s * e.x + t * f.x)
      (o.y + s * e.y + t * f.y) = (s - i) * (e.x * f.y - e.y * f.x) := by
    unfold left latticeCell latticePt; push_cast; ring
  constructor
  · intro hpos
    have hnn : ∀ r : ℚ, 0 ≤ r * (e.x * f.y - e.y * f.x) ↔ 0 ≤ r := fun r => mul_nonneg_iff_of_pos_right hpos
    rw [hits_long_flip hs (by rw [hturn]; exact hpos.le), l1, l2, l3, l4, mul_pos_iff' hpos, mul_pos_iff' hpos, hnn, hnn]
    constructor
    · rintro ⟨a, b, c, d⟩; exact ⟨⟨by linarith, by linarith⟩, by linarith, by linarith⟩
    · rintro ⟨⟨a, b⟩, c, d⟩; exact ⟨by linarith, by linarith, by linarith, by linarith⟩
  · intro hneg
    have hpos : 0 < -(e.x * f.y - e.y * f.x) := by linarith
    have hnn : ∀ r : ℚ, 0 ≤ r * -(e.x * f.y - e.y * f.x) ↔ 0 ≤ r := fun r => mul_nonneg_iff_of_pos_right hpos
    rw [hits_long_noflip hs (by rw [hturn]; exact hneg), left_swap (latticeCell o e f i j).p2 (latticeCell o e f i j).p0,
      left_swap (latticeCell o e f i j).p3 (latticeCell o e f i j).p2, left_swap (latticeCell o e f i j).p1 (latticeCell o e f i j).p3,
      left_swap (latticeCell o e f i j).p0 (latticeCell o e f i j).p1, l1, l2, l3, l4, ← mul_neg, ← mul_neg, ← mul_neg, ← mul_neg,
      mul_pos_iff' hpos, mul_pos_iff' hpos, hnn, hnn]
    constructor
    · rintro ⟨a, b, c, d⟩; exact ⟨⟨by linarith, by linarith⟩, by linarith, by linarith⟩
    · rintro ⟨⟨a, b⟩, c, d⟩; exact ⟨by linarith, by linarith, by linarith, by linarith⟩

/-- The micropolygons of a flat grid (a lattice of parallelograms) share the plane out between them: every point hits
exactly one of them. -/
theorem C53_lattice (o e f : P3) (he : 1 / 10 ^ 8 ≤ e.x ^ 2 + e.y ^ 2 + e.z ^ 2)
    (hf : 1 / 10 ^ 8 ≤ f.x ^ 2 + f.y ^ 2 + f.z ^ 2) (hd : e.x * f.y - e.y * f.x ≠ 0) (x y : ℚ) :
    ∃! c : ℤ × ℤ, hits (latticeCell o e f c.1 c.2) x y = true := by
  set D := e.x * f.y - e.y * f.x with hD
  obtain ⟨s, hs⟩ : ∃ s, s = ((x - o.x) * f.y - (y - o.y) * f.x) / D := ⟨_, rfl⟩
  obtain ⟨t, ht⟩ : ∃ t, t = (e.x * (y - o.y) - e.y * (x - o.x)) / D := ⟨_, rfl⟩
  have hx : x = o.x + s * e.x + t * f.x := by
    have : (x - o.x) * D = (s * e.x + t * f.x) * D := by
      rw [hs, ht]; field_simp; rw [hD]; ring
    have := mul_right_cancel₀ hd this
    linarith
  have hy : y = o.y + s * e.y + t * f.y := by
    have : (y - o.y) * D = (s * e.y + t * f.y) * D := by
      rw [hs, ht]; field_simp; rw [hD]; ring
    have := mul_right_cancel₀ hd this
    linarith
  rw [hx, hy]
  rcases lt_or_gt_of_ne hd with hneg | hpos
  · refine ⟨(⌈s⌉ - 1, ⌊t⌋), ?_, ?_⟩
    · refine ((lattice_hits o e f _ _ s t he hf).2 hneg).mpr ?_
      have h1 := Int.ceil_lt_add_one s
      have h2 := Int.le_ceil s
      have h3 := Int.floor_le t
      have h4 := Int.lt_floor_add_one t
      push_cast
      exact ⟨⟨by linarith, by linarith⟩, h3, h4⟩
    · rintro ⟨a, b⟩ h
      obtain ⟨⟨h1, h2⟩, h3, h4⟩ := ((lattice_hits o e f a b s t he hf).2 hneg).mp h
      have e1 : ⌈s⌉ = a + 1 := by rw [Int.ceil_eq_iff]; push_cast; exact ⟨by linarith, by linarith⟩
      have e2 : ⌊t⌋ = b := by rw [Int.floor_eq_iff]; exact ⟨h3, h4⟩
      rw [e1, e2]; simp
  · refine ⟨(⌊s⌋, ⌈t⌉ - 1), ?_, ?_⟩
    · refine ((lattice_hits o e f _ _ s t he hf).1 hpos).mpr ?_
      have h1 := Int.ceil_lt_add_one t
      have h2 := Int.le_ceil t
      have h3 := Int.floor_le s
      have h4 := Int.lt_floor_add_one s
      push_cast
      exact ⟨⟨h3, h4⟩, by linarith, by linarith⟩
    · rintro ⟨a, b⟩ h
      obtain ⟨⟨h1, h2⟩, h3, h4⟩ := ((lattice_hits o e f a b s t he hf).1 hpos).mp h
      have e1 : ⌈t⌉ = b + 1 := by rw [Int.ceil_eq_iff]; push_cast; exact ⟨by linarith, by linarith⟩
      have e2 : ⌊s⌋ = a := by rw [Int.floor_eq_iff]; exact ⟨h1, h2⟩
      rw [e1, e2]; simp

example : (1 : ℚ) / 10 ^ 8 ≤ (1/2) ^ 2 + (1/4) ^ 2 + 0 ^ 2 ∧ (1/2 : ℚ) * 1 - (1/4) * 0 ≠ 0 := by norm_num

/-! ## All the samples -/

/-- A sample that is hit is in the bound of the micropolygon, whatever its shape: `Contains2D` never drops a hit. -/
theorem C53_bound (q : Quad) (x y : ℚ) (h : hits q x y = true) :
    ((bound q).xMin ≤ x ∧ x ≤ (bound q).xMax) ∧ ((bound q).yMin ≤ y ∧ y ≤ (bound q).yMax) := by
  have := (contains_iff _ _ _).mp (hits_bound h)
  tauto

/-- The samples stored for a micropolygon belong to the sample region, have an index among the samples of the pixel,
come once each, and are hit. -/
theorem C53_render_sound (q : Quad) (rx0 rx1 ry0 ry1 : ℤ) (xs ys : Nat) (pos : ℤ × ℤ × ℤ → ℚ × ℚ) :
    (renderStatic q rx0 rx1 ry0 ry1 xs ys pos).Nodup ∧
    ∀ s ∈ renderStatic q rx0 rx1 ry0 ry1 xs ys pos,
      (rx0 ≤ s.1 ∧ s.1 < rx1) ∧ (ry0 ≤ s.2.1 ∧ s.2.1 < ry1) ∧ (0 ≤ s.2.2 ∧ s.2.2 < xs * ys) ∧
      hits q (pos s).1 (pos s).2 = true := by
  have hbx : (bound q).xMin ≤ (bound q).xMax := le_trans (bound_xMin q 0) (bound_xMax q 0)
  have hby : (bound q).yMin ≤ (bound q).yMax := le_trans (bound_yMin q 0) (bound_yMax q 0)
  rw [renderStatic_eq]
  refine ⟨(nodup_candidates _ _ _ _ _ _ _ hbx).filter _, ?_⟩
  intro s hs
  rw [List.mem_filter, Bool.and_eq_true] at hs
  obtain ⟨hm, _, hh⟩ := hs
  obtain ⟨m, n, hi, ⟨hx, hxm⟩, ⟨hy, hyn⟩⟩ := (mem_candidates _ _ _ _ _ _ _ s).mp hm
  obtain ⟨rx, m0, m1⟩ := span_range _ _ _ _ _ _ _ hbx hx hxm
  obtain ⟨ry, n0, n1⟩ := span_range _ _ _ _ _ _ _ hby hy hyn
  refine ⟨rx, ry, ⟨?_, ?_⟩, hh⟩
  · rw [hi]; have : 0 ≤ n * (xs : ℤ) := mul_nonneg n0 (Nat.cast_nonneg _); omega
  · rw [hi]
    have : (n + 1) * (xs : ℤ) ≤ ys * xs := mul_le_mul_of_nonneg_right (by omega) (Nat.cast_nonneg _)
    nlinarith

/-- Every sample of the sample region that hits the micropolygon is found – if no sample lies on the lower or left
boundary of its subpixel (partial, see `C53_render_violated`). -/
theorem C53_render_partial (q : Quad) (rx0 rx1 ry0 ry1 : ℤ) (xs ys : Nat) (pos : ℤ × ℤ × ℤ → ℚ × ℚ)
    (hp : PlacedInside xs ys pos) (px py mx ny : ℤ) (hx : rx0 ≤ px ∧ px < rx1) (hy : ry0 ≤ py ∧ py < ry1)
    (hm : 0 ≤ mx ∧ mx < xs) (hn : 0 ≤ ny ∧ ny < ys) :
    (px, py, ny * (xs : ℤ) + mx) ∈ renderStatic q rx0 rx1 ry0 ry1 xs ys pos ↔
      hits q (pos (px, py, ny * (xs : ℤ) + mx)).1 (pos (px, py, ny * (xs : ℤ) + mx)).2 = true := by
  constructor
  · intro h; exact ((C53_render_sound q rx0 rx1 ry0 ry1 xs ys pos).2 _ h).2.2.2
  · intro h
    have hbx : (bound q).xMin ≤ (bound q).xMax := le_trans (bound_xMin q 0) (bound_xMax q 0)
    have hby : (bound q).yMin ≤ (bound q).yMax := le_trans (bound_yMin q 0) (bound_yMax q 0)
    obtain ⟨⟨a1, a2⟩, ⟨a3, a4⟩⟩ := hp.1 px py mx ny hm.1 hm.2 hn.1 hn.2
    obtain ⟨b1, b2⟩ := hp.2 px py mx ny hm.1 hm.2 hn.1 hn.2
    obtain ⟨⟨c1, c2⟩, c3, c4⟩ := C53_bound q _ _ h
    have d1 := lt_of_le_of_ne a1 b1
    have d2 := lt_of_le_of_ne a3 b2
    rw [renderStatic_eq, List.mem_filter, Bool.and_eq_true]
    refine ⟨(mem_candidates _ _ _ _ _ _ _ _).mpr ⟨mx, ny, rfl, ?_, ?_⟩, hits_bound h, h⟩
    · exact span_mem _ _ _ _ _ (by omega) _ _ hbx hx hm (lt_of_le_of_lt c1 a2) (lt_of_lt_of_le d1 c2)
    · exact span_mem _ _ _ _ _ (by omega) _ _ hby hy hn (lt_of_le_of_lt c3 a4) (lt_of_lt_of_le d2 c4)

/-- One sample per pixel, in the middle. -/
example : PlacedInside 1 1 fun s => ((s.1 : ℚ) + 1 / 2, (s.2.1 : ℚ) + 1 / 2) := by
  refine ⟨?_, ?_⟩ <;> intro px py mx ny h1 h2 h3 h4
  · have : mx = 0 := by push_cast at h2; omega
    have : ny = 0 := by push_cast at h4; omega
    subst mx ny; norm_num
  · have : mx = 0 := by push_cast at h2; omega
    have : ny = 0 := by push_cast at h4; omega
    subst mx ny; norm_num

example : renderStatic ⟨⟨0,0,0⟩, ⟨2,0,0⟩, ⟨0,2,0⟩, ⟨2,2,0⟩⟩ 0 8 0 8 1 1
    (fun s => ((s.1 : ℚ) + 1 / 2, (s.2.1 : ℚ) + 1 / 2)) = [(0, 0, 0), (1, 0, 0), (0, 1, 0), (1, 1, 0)] := by
  decide +kernel

/-- A sample exactly on the left boundary of its subpixel and on the right edge of a micropolygon is hit, but not
looked at. (Here a micropolygon turning right, which owns the edge `u = 1`.) -/
theorem C53_render_violated : ∃ (q : Quad) (pos : ℤ × ℤ × ℤ → ℚ × ℚ), Placed 1 1 pos ∧ LongSides q ∧ TurnsRight q ∧
    hits q (pos (1, 0, 0)).1 (pos (1, 0, 0)).2 = true ∧ (1, 0, 0) ∉ renderStatic q 0 8 0 8 1 1 pos := by
  refine ⟨⟨⟨0,1,0⟩, ⟨1,1,0⟩, ⟨0,0,0⟩, ⟨1,0,0⟩⟩, fun s => ((s.1 : ℚ), (s.2.1 : ℚ) + 1 / 2), ?_, ?_, ?_, ?_, ?_⟩
  · intro px py mx ny h1 h2 h3 h4
    have : mx = 0 := by push_cast at h2; omega
    have : ny = 0 := by push_cast at h4; omega
    subst mx ny; norm_num
  · unfold LongSides dist2; norm_num
  · unfold TurnsRight left; norm_num
  · decide +kernel
  · decide +kernel

/-! ## Depth -/

lemma newton_safe {b : InvBilinear} {u v x y : ℚ} : newton b true u v x y ≠ none := by
  unfold newton; simp

/-- The determinant at the middle of the micropolygon is its signed area. -/
lemma newton_centre (q : Quad) (x y : ℚ)
    (h : newton (setVertices q) false (1 / 2) (1 / 2) x y = none) :
    left q.p0 q.p1 x y + left q.p1 q.p3 x y + left q.p3 q.p2 x y + left q.p2 q.p0 x y = 0 := by
  unfold newton setVertices at h
  dsimp only at h
  by_contra hne
  rw [if_neg] at h
  · cases h
  · rintro ⟨_, h0⟩
    apply hne
    unfold left
    linarith

lemma toUV_none {q : Quad} {x y : ℚ} (h : toUV (setVertices q) x y = none) :
    newton (setVertices q) false (1 / 2) (1 / 2) x y = none := by
  unfold toUV at h
  rcases hn : newton (setVertices q) false (1 / 2) (1 / 2) x y with _ | uv
  · rfl
  · exfalso
    rw [hn, Option.bind_some] at h
    split_ifs at h
    exact newton_safe h

/-- Parameters and depth of a hit are always defined (no division by zero) – if no side is too short (partial, see
`C53_uv_violated`). -/
theorem C53_uv_total_partial (q : Quad) (hs : LongSides q) (x y : ℚ) (h : hits q x y = true) :
    toUV (setVertices q) x y ≠ none ∧ depth q x y ≠ none := by
  have key : toUV (setVertices q) x y ≠ none := by
    intro hn
    have h0 := newton_centre q x y (toUV_none hn)
    by_cases hf : 0 ≤ left q.p0 q.p1 q.p3.x q.p3.y
    · obtain ⟨h1, h2, h3, h4⟩ := (hits_long_flip hs hf x y).mp h
      linarith
    · obtain ⟨h1, h2, h3, h4⟩ := (hits_long_noflip hs (not_le.mp hf) x y).mp h
      rw [left_swap] at h1 h2 h3 h4
      linarith
  refine ⟨key, ?_⟩
  unfold depth
  intro hn
  rw [Option.map_eq_none_iff] at hn
  exact key hn

/-- For a parallelogram, the parameters found for a point of it are those of the point, and the depth is that
of the plane through the vertices' depths, interpolated bilinearly. -/
theorem C53_uv (q : Quad) (hg : q.p0.x + q.p3.x = q.p1.x + q.p2.x ∧ q.p0.y + q.p3.y = q.p1.y + q.p2.y)
    (hd : left q.p0 q.p1 q.p2.x q.p2.y ≠ 0) (u v : ℚ) :
    toUV (setVertices q) (patchX q u v) (patchY q u v) = some (u, v) ∧
    depth q (patchX q u v) (patchY q u v) =
      some ((1 - v) * ((1 - u) * q.p0.z + u * q.p1.z) + v * ((1 - u) * q.p2.z + u * q.p3.z)) := by
  have key : toUV (setVertices q) (patchX q u v) (patchY q u v) = some (u, v) := by
    have hx : q.p3.x = q.p1.x + q.p2.x - q.p0.x := by linarith [hg.1]
    have hy : q.p3.y = q.p1.y + q.p2.y - q.p0.y := by linarith [hg.2]
    have hD : (q.p1.x - q.p0.x) * (q.p2.y - q.p0.y) - (q.p1.y - q.p0.y) * (q.p2.x - q.p0.x) ≠ 0 := by
      unfold left at hd; intro h; apply hd; linarith
    obtain ⟨ex, hex⟩ : ∃ r, r = q.p1.x - q.p0.x := ⟨_, rfl⟩
    obtain ⟨ey, hey⟩ : ∃ r, r = q.p1.y - q.p0.y := ⟨_, rfl⟩
    obtain ⟨fx, hfx⟩ : ∃ r, r = q.p2.x - q.p0.x := ⟨_, rfl⟩
    obtain ⟨fy, hfy⟩ : ∃ r, r = q.p2.y - q.p0.y := ⟨_, rfl⟩
    rw [← hex, ← hey, ← hfx, ← hfy] at hD
    have gx : (setVertices q).gx = 0 := by unfold setVertices; dsimp only; rw [hx]; ring
    have gy : (setVertices q).gy = 0 := by unfold setVertices; dsimp only; rw [hy]; ring
    have e1 : (setVertices q).ex = ex := hex.symm
    have e2 : (setVertices q).ey = ey := hey.symm
    have f1 : (setVertices q).fx = fx := hfx.symm
    have f2 : (setVertices q).fy = fy := hfy.symm
    have a1 : (setVertices q).ax = q.p0.x := rfl
    have a2 : (setVertices q).ay = q.p0.y := rfl
    have px : patchX q u v = q.p0.x + ex * u + fx * v := by unfold patchX; rw [hx, hex, hfx]; ring
    have py : patchY q u v = q.p0.y + ey * u + fy * v := by unfold patchY; rw [hy, hey, hfy]; ring
    have step : ∀ (safe : Bool) (u' v' : ℚ),
        newton (setVertices q) safe u' v' (patchX q u v) (patchY q u v) = some (u, v) := by
      intro safe u' v'
      unfold newton
      dsimp only
      rw [gx, gy, e1, e2, f1, f2, a1, a2, px, py]
      have hdet : (ex + 0 * v') * (fy + 0 * u') - (ey + 0 * v') * (fx + 0 * u') = ex * fy - ey * fx := by ring
      rw [hdet, if_neg (fun h => hD h.2), if_pos (Or.inr hD)]
      congr 1
      apply Prod.ext
      · dsimp only; field_simp; ring
      · dsimp only; field_simp; ring
    unfold toUV
    rw [step, Option.bind_some, step, ite_self]
  refine ⟨key, ?_⟩
  unfold depth
  rw [key]
  show some _ = some _
  congr 1
  unfold bilerp; ring

example : left (⟨0,0,0⟩ : P3) ⟨2,1,0⟩ 0 1 ≠ 0 := by unfold left; norm_num

/-- A micropolygon with a short side whose hit has no parameters: division by zero. -/
theorem C53_uv_violated : ∃ (q : Quad) (x y : ℚ), hits q x y = true ∧ toUV (setVertices q) x y = none :=
  ⟨⟨⟨0,0,0⟩, ⟨1/20000,0,0⟩, ⟨1/20000,-1/2,0⟩, ⟨0,-1,0⟩⟩, 1/60000, -1/2, by decide +kernel, by decide +kernel⟩

/-- The depth of a hit of a convex micropolygon that is not a parallelogram may be beyond the depths of all of its
vertices: two steps of Newton's method are not enough. -/
theorem C53_depth_violated : ∃ (q : Quad) (x y d : ℚ), LongSides q ∧ TurnsLeft q ∧ hits q x y = true ∧
    depth q x y = some d ∧ q.p0.z < d ∧ q.p1.z < d ∧ q.p2.z < d ∧ q.p3.z < d := by
  refine ⟨⟨⟨0,0,0⟩, ⟨2,-2,0⟩, ⟨0,1,1⟩, ⟨6,5,1⟩⟩, 0, 1, 179/154, ?_, ?_, by decide +kernel, by decide +kernel, ?_, ?_, ?_, ?_⟩
  · unfold LongSides dist2; norm_num
  · unfold TurnsLeft left; norm_num
  all_goals norm_num

/-! ## Edges that are not shared out -/

/-- A point inside the edge between a micropolygon with a short side (a triangle, as at the pole of a sphere) and its
neighbour in the grid is hit by neither of them. -/
theorem C53_triangle_violated : ∃ (a b c d e f : P3), a = b ∧ LongSides ⟨c, d, e, f⟩ ∧ TurnsLeft ⟨c, d, e, f⟩ ∧
    hits ⟨a, b, c, d⟩ ((c.x + d.x) / 2) ((c.y + d.y) / 2) = false ∧
    hits ⟨c, d, e, f⟩ ((c.x + d.x) / 2) ((c.y + d.y) / 2) = false := by
  refine ⟨⟨0,0,0⟩, ⟨0,0,0⟩, ⟨-1,1,0⟩, ⟨1,1,0⟩, ⟨-2,2,0⟩, ⟨2,2,0⟩, rfl, ?_, ?_, by decide +kernel, by decide +kernel⟩
  · unfold LongSides dist2; norm_num
  · unfold TurnsLeft left; norm_num

/-- Two grids that meet at an edge, with parameters running in different directions: a point inside the common edge
is hit by neither (a crack), or by both. -/
theorem C53_seam_violated :
    (∃ (p q : Quad), LongSides p ∧ LongSides q ∧ TurnsLeft p ∧ TurnsLeft q ∧ p.p0 = q.p1 ∧ p.p1 = q.p0 ∧
      hits p ((p.p0.x + p.p1.x) / 2) ((p.p0.y + p.p1.y) / 2) = false ∧
      hits q ((p.p0.x + p.p1.x) / 2) ((p.p0.y + p.p1.y) / 2) = false) ∧
    (∃ (p q : Quad), LongSides p ∧ LongSides q ∧ TurnsLeft p ∧ TurnsLeft q ∧ p.p2 = q.p3 ∧ p.p3 = q.p2 ∧
      hits p ((p.p2.x + p.p3.x) / 2) ((p.p2.y + p.p3.y) / 2) = true ∧
      hits q ((p.p2.x + p.p3.x) / 2) ((p.p2.y + p.p3.y) / 2) = true) := by
  constructor
  · refine ⟨⟨⟨0,0,0⟩, ⟨1,0,0⟩, ⟨0,1,0⟩, ⟨1,1,0⟩⟩, ⟨⟨1,0,0⟩, ⟨0,0,0⟩, ⟨1,-1,0⟩, ⟨0,-1,0⟩⟩, ?_, ?_, ?_, ?_, rfl, rfl,
      by decide +kernel, by decide +kernel⟩
    · unfold LongSides dist2; norm_num
    · unfold LongSides dist2; norm_num
    · unfold TurnsLeft left; norm_num
    · unfold TurnsLeft left; norm_num
  · refine ⟨⟨⟨0,0,0⟩, ⟨1,0,0⟩, ⟨0,1,0⟩, ⟨1,1,0⟩⟩, ⟨⟨1,2,0⟩, ⟨0,2,0⟩, ⟨1,1,0⟩, ⟨0,1,0⟩⟩, ?_, ?_, ?_, ?_, rfl, rfl,
      by decide +kernel, by decide +kernel⟩
    · unfold LongSides dist2; norm_num
    · unfold LongSides dist2; norm_num
    · unfold TurnsLeft left; norm_num
    · unfold TurnsLeft left; norm_num

end Verif.Core.HitTest
