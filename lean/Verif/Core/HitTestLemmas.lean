import Verif.Core.HitTest
import Mathlib.Tactic.Linarith
import Mathlib.Tactic.Ring
import Mathlib.Tactic.NormNum
import Mathlib.Tactic.SplitIfs
import Mathlib.Tactic.Push
import Mathlib.Tactic.FieldSimp
import Mathlib.Tactic.Positivity
import Mathlib.Tactic.ByContra
import Mathlib.Data.List.Nodup

/-! # Lemmas about the hit test -/

namespace Verif.Core.HitTest

/-! ## The loop over the edges -/

/-- A point passes the test of edge `e`. -/
def pass (E : Nat → Edge) (x y : ℚ) (e : Nat) : Prop :=
  if e &&& 2 ≠ 0 then 0 ≤ (E e).side x y else 0 < (E e).side x y

lemma testLoop_succ (E : Nat → Edge) (x y : ℚ) (last n e : Nat) :
    (testLoop E x y last (n + 1) e).1 = true ↔
      pass E x y e ∧ (testLoop E x y last n ((e + 1) &&& 3)).1 = true := by
  unfold pass
  by_cases h2 : e &&& 2 ≠ 0
  · by_cases h : (E e).side x y < 0
    · rw [testLoop, if_pos h2, if_pos h, if_pos h2]
      constructor
      · intro hh; cases hh
      · intro hh; exact absurd hh.1 (not_le.mpr h)
    · rw [testLoop, if_pos h2, if_neg h, if_pos h2]
      exact ⟨fun hh => ⟨not_lt.mp h, hh⟩, fun hh => hh.2⟩
  · by_cases h : (E e).side x y ≤ 0
    · rw [testLoop, if_neg h2, if_pos h, if_neg h2]
      constructor
      · intro hh; cases hh
      · intro hh; exact absurd hh.1 (not_lt.mpr h)
    · rw [testLoop, if_neg h2, if_neg h, if_neg h2]
      exact ⟨fun hh => ⟨not_le.mp h, hh⟩, fun hh => hh.2⟩

lemma testLoop_lt (E : Nat → Edge) (x y : ℚ) (last : Nat) (hl : last < 4) (n : Nat) :
    ∀ e, e < 4 → (testLoop E x y last n e).2 < 4 := by
  induction n with
  | zero => intro e _; exact hl
  | succ n ih =>
    intro e he
    have hnext : (e + 1) &&& 3 < 4 := lt_of_le_of_lt Nat.and_le_right (by norm_num)
    by_cases h2 : e &&& 2 ≠ 0
    · by_cases h : (E e).side x y < 0
      · rw [testLoop, if_pos h2, if_pos h]; exact he
      · rw [testLoop, if_pos h2, if_neg h]; exact ih _ hnext
    · by_cases h : (E e).side x y ≤ 0
      · rw [testLoop, if_neg h2, if_pos h]; exact he
      · rw [testLoop, if_neg h2, if_neg h]; exact ih _ hnext

lemma fContains_lt (E : Nat → Edge) (last : Nat) (hl : last < 4) (x y : ℚ) : (fContains E last x y).2 < 4 :=
  testLoop_lt E x y last hl 4 last hl

lemma fContains_iff (E : Nat → Edge) (last : Nat) (hl : last < 4) (x y : ℚ) :
    (fContains E last x y).1 = true ↔
      0 < (E 0).side x y ∧ 0 < (E 1).side x y ∧ 0 ≤ (E 2).side x y ∧ 0 ≤ (E 3).side x y := by
  have p0 : pass E x y 0 ↔ 0 < (E 0).side x y := Iff.rfl
  have p1 : pass E x y 1 ↔ 0 < (E 1).side x y := Iff.rfl
  have p2 : pass E x y 2 ↔ 0 ≤ (E 2).side x y := Iff.rfl
  have p3 : pass E x y 3 ↔ 0 ≤ (E 3).side x y := Iff.rfl
  have hz : ∀ e, (testLoop E x y last 0 e).1 = true := fun _ => rfl
  rw [fContains, testLoop_succ, testLoop_succ, testLoop_succ, testLoop_succ]
  have hc : last = 0 ∨ last = 1 ∨ last = 2 ∨ last = 3 := by omega
  rcases hc with rfl | rfl | rfl | rfl
  · show pass E x y 0 ∧ pass E x y 1 ∧ pass E x y 2 ∧ pass E x y 3 ∧ _ ↔ _
    rw [p0, p1, p2, p3]; simp only [hz, and_true]
  · show pass E x y 1 ∧ pass E x y 2 ∧ pass E x y 3 ∧ pass E x y 0 ∧ _ ↔ _
    rw [p0, p1, p2, p3]; simp only [hz, and_true]; tauto
  · show pass E x y 2 ∧ pass E x y 3 ∧ pass E x y 0 ∧ pass E x y 1 ∧ _ ↔ _
    rw [p0, p1, p2, p3]; simp only [hz, and_true]; tauto
  · show pass E x y 3 ∧ pass E x y 0 ∧ pass E x y 1 ∧ pass E x y 2 ∧ _ ↔ _
    rw [p0, p1, p2, p3]; simp only [hz, and_true]; tauto

lemma fContains_indep (E : Nat → Edge) (l l' : Nat) (hl : l < 4) (hl' : l' < 4) (x y : ℚ) :
    (fContains E l x y).1 = (fContains E l' x y).1 := by
  rw [Bool.eq_iff_iff, fContains_iff E l hl, fContains_iff E l' hl']

/-! ## The edges -/

/-- Twice the signed area of the triangle of `a`, `b` and the point: positive on the left of the way from `a` to
`b` (with x to the right and y up). -/
def left (a b : P3) (x y : ℚ) : ℚ := (b.x - a.x) * (y - a.y) - (b.y - a.y) * (x - a.x)

lemma side_mkEdge (a b : P3) (x y : ℚ) : (mkEdge a b).side x y = left a b x y := by
  unfold mkEdge Edge.side left; ring

/-- The four sides are not shorter than the threshold. -/
def LongSides (q : Quad) : Prop :=
  1 / 10 ^ 8 ≤ dist2 q.p0 q.p1 ∧ 1 / 10 ^ 8 ≤ dist2 q.p1 q.p3 ∧ 1 / 10 ^ 8 ≤ dist2 q.p3 q.p2 ∧
    1 / 10 ^ 8 ≤ dist2 q.p2 q.p0

lemma at0 (q : Quad) : q.at 0 = q.p0 := rfl
lemma at1 (q : Quad) : q.at 1 = q.p1 := rfl
lemma at2 (q : Quad) : q.at 2 = q.p2 := rfl
lemma at3 (q : Quad) : q.at 3 = q.p3 := rfl

lemma codes_long {q : Quad} (h : LongSides q) : codes q = (0, 1, 3, some 2) := by
  unfold codes
  have h1 : ¬ dist2 (q.at 0) (q.at 1) < 1 / 10 ^ 8 := not_lt.mpr h.1
  have h2 : ¬ dist2 (q.at 1) (q.at 3) < 1 / 10 ^ 8 := not_lt.mpr h.2.1
  have h3 : ¬ dist2 (q.at 3) (q.at 2) < 1 / 10 ^ 8 := not_lt.mpr h.2.2.1
  have h4 : ¬ dist2 (q.at 2) (q.at 0) < 1 / 10 ^ 8 := not_lt.mpr h.2.2.2
  rw [if_neg h1, if_neg h2, if_neg h3, if_neg h4]

lemma flip_iff (a b c : P3) : flip a b c = true ↔ 0 ≤ left a b c.x c.y := by
  unfold flip left
  rw [decide_eq_true_iff]
  constructor <;> intro h <;> nlinarith

lemma flip_false_iff (a b c : P3) : flip a b c = false ↔ left a b c.x c.y < 0 := by
  rw [← not_iff_not, Bool.not_eq_false, flip_iff, not_lt]

lemma hits_iff (q : Quad) (x y : ℚ) :
    hits q x y = true ↔ 0 < (edges q (indexCode q) 0).side x y ∧ 0 < (edges q (indexCode q) 1).side x y ∧
      0 ≤ (edges q (indexCode q) 2).side x y ∧ 0 ≤ (edges q (indexCode q) 3).side x y :=
  fContains_iff _ 0 (by norm_num) x y

lemma indexCode_eq {q : Quad} {a b c : Nat} {d : Option Nat} (h : codes q = (a, b, c, d)) :
    indexCode q = pack (flip (q.at a) (q.at b) (q.at c)) a b c d := by
  unfold indexCode; rw [h]

lemma hits_long_flip {q : Quad} (hs : LongSides q) (hf : 0 ≤ left q.p0 q.p1 q.p3.x q.p3.y) (x y : ℚ) :
    hits q x y = true ↔ 0 < left q.p0 q.p1 x y ∧ 0 < left q.p1 q.p3 x y ∧ 0 ≤ left q.p3 q.p2 x y ∧
      0 ≤ left q.p2 q.p0 x y := by
  have hc : indexCode q = 180 := by
    have hf' : flip (q.at 0) (q.at 1) (q.at 3) = true := (flip_iff _ _ _).mpr hf
    rw [indexCode_eq (codes_long hs), hf']; rfl
  rw [hits_iff, hc, ← side_mkEdge, ← side_mkEdge, ← side_mkEdge, ← side_mkEdge]
  exact Iff.rfl

lemma hits_long_noflip {q : Quad} (hs : LongSides q) (hf : left q.p0 q.p1 q.p3.x q.p3.y < 0) (x y : ℚ) :
    hits q x y = true ↔ 0 < left q.p0 q.p2 x y ∧ 0 < left q.p2 q.p3 x y ∧ 0 ≤ left q.p3 q.p1 x y ∧
      0 ≤ left q.p1 q.p0 x y := by
  have hc : indexCode q = 120 := by
    have hf' : flip (q.at 0) (q.at 1) (q.at 3) = false := (flip_false_iff _ _ _).mpr hf
    rw [indexCode_eq (codes_long hs), hf']; rfl
  rw [hits_iff, hc, ← side_mkEdge, ← side_mkEdge, ← side_mkEdge, ← side_mkEdge]
  exact Iff.rfl

/-- The codes of the three points left over in the degenerate cases. -/
lemma codes_cases (q : Quad) : codes q = (0, 3, 2, none) ∨ codes q = (0, 1, 2, none) ∨ codes q = (0, 1, 3, none) ∨
    (LongSides q ∧ codes q = (0, 1, 3, some 2)) := by
  unfold codes
  split_ifs with h1 h2 h3 h4
  · exact Or.inl rfl
  · exact Or.inl rfl
  · exact Or.inr (Or.inl rfl)
  · exact Or.inr (Or.inr (Or.inl rfl))
  · exact Or.inr (Or.inr (Or.inr ⟨⟨not_lt.mp h1, not_lt.mp h2, not_lt.mp h3, not_lt.mp h4⟩, rfl⟩))

lemma hits_deg_flip {q : Quad} {a b c : Nat} (ha : a < 4) (hb : b < 4) (hc : c < 4)
    (h : codes q = (a, b, c, none)) (hf : 0 ≤ left (q.at a) (q.at b) (q.at c).x (q.at c).y) (x y : ℚ) :
    hits q x y = true ↔ 0 < left (q.at a) (q.at b) x y ∧ 0 < left (q.at b) (q.at c) x y ∧
      0 ≤ left (q.at c) (q.at a) x y := by
  have hcode : indexCode q = (a &&& 3) ||| ((b &&& 3) <<< 2) ||| ((c &&& 3) <<< 4) ||| degeneracyMask := by
    rw [indexCode_eq h, (flip_iff _ _ _).mpr hf]; rfl
  rw [hits_iff, hcode, ← side_mkEdge, ← side_mkEdge, ← side_mkEdge]
  have ha' : a = 0 ∨ a = 1 ∨ a = 2 ∨ a = 3 := by omega
  have hb' : b = 0 ∨ b = 1 ∨ b = 2 ∨ b = 3 := by omega
  have hc' : c = 0 ∨ c = 1 ∨ c = 2 ∨ c = 3 := by omega
  have key : ∀ p q r s : Prop, (r ↔ s) → (p ∧ q ∧ r ∧ s ↔ p ∧ q ∧ r) := by tauto
  rcases ha' with rfl | rfl | rfl | rfl <;> rcases hb' with rfl | rfl | rfl | rfl <;>
    rcases hc' with rfl | rfl | rfl | rfl <;> exact key _ _ _ _ Iff.rfl

lemma hits_deg_noflip {q : Quad} {a b c : Nat} (ha : a < 4) (hb : b < 4) (hc : c < 4)
    (h : codes q = (a, b, c, none)) (hf : left (q.at a) (q.at b) (q.at c).x (q.at c).y < 0) (x y : ℚ) :
    hits q x y = true ↔ 0 < left (q.at a) (q.at c) x y ∧ 0 < left (q.at c) (q.at b) x y ∧
      0 ≤ left (q.at b) (q.at a) x y := by
  have hcode : indexCode q = (a &&& 3) ||| ((c &&& 3) <<< 2) ||| ((b &&& 3) <<< 4) ||| degeneracyMask := by
    rw [indexCode_eq h, (flip_false_iff _ _ _).mpr hf]; rfl
  rw [hits_iff, hcode, ← side_mkEdge, ← side_mkEdge, ← side_mkEdge]
  have ha' : a = 0 ∨ a = 1 ∨ a = 2 ∨ a = 3 := by omega
  have hb' : b = 0 ∨ b = 1 ∨ b = 2 ∨ b = 3 := by omega
  have hc' : c = 0 ∨ c = 1 ∨ c = 2 ∨ c = 3 := by omega
  have key : ∀ p q r s : Prop, (r ↔ s) → (p ∧ q ∧ r ∧ s ↔ p ∧ q ∧ r) := by tauto
  rcases ha' with rfl | rfl | rfl | rfl <;> rcases hb' with rfl | rfl | rfl | rfl <;>
    rcases hc' with rfl | rfl | rfl | rfl <;> exact key _ _ _ _ Iff.rfl

/-! ## A hit is within the bound -/

/-- No closed polygon lies, seen from a point, strictly in one half plane and turns left all the time. -/
lemma half4 (a b c d a' b' c' d' : ℚ) (ha : a < 0) (hb : b < 0) (hc : c < 0) (hd : d < 0)
    (h1 : 0 < a * b' - b * a') (h2 : 0 ≤ b * c' - c * b') (h3 : 0 ≤ c * d' - d * c')
    (h4 : 0 ≤ d * a' - a * d') : False := by
  have e1 : 0 < (a * b' - b * a') / (a * b) := div_pos h1 (mul_pos_of_neg_of_neg ha hb)
  have e2 : 0 ≤ (b * c' - c * b') / (b * c) := div_nonneg h2 (mul_pos_of_neg_of_neg hb hc).le
  have e3 : 0 ≤ (c * d' - d * c') / (c * d) := div_nonneg h3 (mul_pos_of_neg_of_neg hc hd).le
  have e4 : 0 ≤ (d * a' - a * d') / (d * a) := div_nonneg h4 (mul_pos_of_neg_of_neg hd ha).le
  have key : (a * b' - b * a') / (a * b) + (b * c' - c * b') / (b * c) + (c * d' - d * c') / (c * d) +
      (d * a' - a * d') / (d * a) = 0 := by
    have := ha.ne; have := hb.ne; have := hc.ne; have := hd.ne
    field_simp; ring
  linarith

lemma half4_dir (A B C D : P3) (x y l m : ℚ)
    (hA : l * (A.x - x) + m * (A.y - y) < 0) (hB : l * (B.x - x) + m * (B.y - y) < 0)
    (hC : l * (C.x - x) + m * (C.y - y) < 0) (hD : l * (D.x - x) + m * (D.y - y) < 0)
    (hlm : 0 < l ^ 2 + m ^ 2)
    (h1 : 0 < left A B x y) (h2 : 0 ≤ left B C x y) (h3 : 0 ≤ left C D x y) (h4 : 0 ≤ left D A x y) : False := by
  have e : ∀ P Q : P3, (l * (P.x - x) + m * (P.y - y)) * (l * (Q.y - y) - m * (Q.x - x)) -
      (l * (Q.x - x) + m * (Q.y - y)) * (l * (P.y - y) - m * (P.x - x)) = (l ^ 2 + m ^ 2) * left P Q x y := by
    intro P Q; unfold left; ring
  apply half4 _ _ _ _ (l * (A.y - y) - m * (A.x - x)) (l * (B.y - y) - m * (B.x - x))
    (l * (C.y - y) - m * (C.x - x)) (l * (D.y - y) - m * (D.x - x)) hA hB hC hD
  · rw [e]; exact mul_pos hlm h1
  · rw [e]; exact mul_nonneg hlm.le h2
  · rw [e]; exact mul_nonneg hlm.le h3
  · rw [e]; exact mul_nonneg hlm.le h4

/-- A hit, as four consecutive edges of a closed way through vertices of the micropolygon. -/
lemma hits_way {q : Quad} {x y : ℚ} (h : hits q x y = true) :
    ∃ i j k l : Nat, 0 < left (q.at i) (q.at j) x y ∧ 0 ≤ left (q.at j) (q.at k) x y ∧
      0 ≤ left (q.at k) (q.at l) x y ∧ 0 ≤ left (q.at l) (q.at i) x y := by
  have hself : ∀ P : P3, left P P x y = 0 := by intro P; unfold left; ring
  have deg : ∀ a b c : Nat, a < 4 → b < 4 → c < 4 → codes q = (a, b, c, none) →
      ∃ i j k l : Nat, 0 < left (q.at i) (q.at j) x y ∧ 0 ≤ left (q.at j) (q.at k) x y ∧
      0 ≤ left (q.at k) (q.at l) x y ∧ 0 ≤ left (q.at l) (q.at i) x y := by
    intro a b c ha hb hc hcode
    by_cases hf : 0 ≤ left (q.at a) (q.at b) (q.at c).x (q.at c).y
    · obtain ⟨h1, h2, h3⟩ := (hits_deg_flip ha hb hc hcode hf x y).mp h
      exact ⟨a, b, c, c, h1, h2.le, (hself _).ge, h3⟩
    · obtain ⟨h1, h2, h3⟩ := (hits_deg_noflip ha hb hc hcode (not_le.mp hf) x y).mp h
      exact ⟨a, c, b, b, h1, h2.le, (hself _).ge, h3⟩
  rcases codes_cases q with hc | hc | hc | ⟨hs, hc⟩
  · exact deg 0 3 2 (by norm_num) (by norm_num) (by norm_num) hc
  · exact deg 0 1 2 (by norm_num) (by norm_num) (by norm_num) hc
  · exact deg 0 1 3 (by norm_num) (by norm_num) (by norm_num) hc
  · by_cases hf : 0 ≤ left q.p0 q.p1 q.p3.x q.p3.y
    · obtain ⟨h1, h2, h3, h4⟩ := (hits_long_flip hs hf x y).mp h
      exact ⟨0, 1, 3, 2, h1, h2.le, h3, h4⟩
    · obtain ⟨h1, h2, h3, h4⟩ := (hits_long_noflip hs (not_le.mp hf) x y).mp h
      exact ⟨0, 2, 3, 1, h1, h2.le, h3, h4⟩

/-- No line separates a hit strictly from all the vertices. -/
lemma hits_not_separated {q : Quad} {x y : ℚ} (h : hits q x y = true) (l m : ℚ) (hlm : 0 < l ^ 2 + m ^ 2)
    (hall : ∀ i, l * ((q.at i).x - x) + m * ((q.at i).y - y) < 0) : False := by
  obtain ⟨i, j, k, n, h1, h2, h3, h4⟩ := hits_way h
  exact half4_dir _ _ _ _ x y l m (hall i) (hall j) (hall k) (hall n) hlm h1 h2 h3 h4

lemma at_cases (q : Quad) (i : Nat) : q.at i = q.p0 ∨ q.at i = q.p1 ∨ q.at i = q.p2 ∨ q.at i = q.p3 := by
  unfold Quad.at
  split <;> simp

lemma bound_xMin (q : Quad) (i : Nat) : (bound q).xMin ≤ (q.at i).x := by
  unfold bound
  rcases at_cases q i with h | h | h | h <;> rw [h] <;> simp
lemma bound_xMax (q : Quad) (i : Nat) : (q.at i).x ≤ (bound q).xMax := by
  unfold bound
  rcases at_cases q i with h | h | h | h <;> rw [h] <;> simp
lemma bound_yMin (q : Quad) (i : Nat) : (bound q).yMin ≤ (q.at i).y := by
  unfold bound
  rcases at_cases q i with h | h | h | h <;> rw [h] <;> simp
lemma bound_yMax (q : Quad) (i : Nat) : (q.at i).y ≤ (bound q).yMax := by
  unfold bound
  rcases at_cases q i with h | h | h | h <;> rw [h] <;> simp

lemma contains_iff (b : Bound) (x y : ℚ) :
    b.contains x y = true ↔ b.xMin ≤ x ∧ x ≤ b.xMax ∧ b.yMin ≤ y ∧ y ≤ b.yMax := by
  unfold Bound.contains
  simp only [Bool.not_eq_true', Bool.or_eq_false_iff, decide_eq_false_iff_not, not_lt, gt_iff_lt]
  tauto

lemma hits_bound {q : Quad} {x y : ℚ} (h : hits q x y = true) : (bound q).contains x y = true := by
  rw [contains_iff]
  refine ⟨?_, ?_, ?_, ?_⟩ <;> by_contra hlt <;> rw [not_le] at hlt
  · apply hits_not_separated h (-1) 0 (by norm_num)
    intro i; have := bound_xMin q i; linarith
  · apply hits_not_separated h 1 0 (by norm_num)
    intro i; have := bound_xMax q i; linarith
  · apply hits_not_separated h 0 (-1) (by norm_num)
    intro i; have := bound_yMin q i; linarith
  · apply hits_not_separated h 0 1 (by norm_num)
    intro i; have := bound_yMax q i; linarith

/-! ## The samples that are looked at -/

lemma mem_upto (a b k : ℤ) : k ∈ upto a b ↔ a ≤ k ∧ k < b := by
  unfold upto
  simp only [List.mem_map, List.mem_range]
  constructor
  · rintro ⟨n, hn, rfl⟩; omega
  · rintro ⟨h1, h2⟩; exact ⟨(k - a).toNat, by omega, by omega⟩

lemma nodup_upto (a b : ℤ) : (upto a b).Nodup := by
  unfold upto
  apply List.Nodup.map _ List.nodup_range
  intro m n h
  have : (a + (m : ℤ)) = a + (n : ℤ) := h
  omega

lemma trunc_nonneg {x : ℚ} (h : 0 ≤ x) : trunc x = ⌊x⌋ := by unfold trunc; rw [if_pos h]

lemma lceil_eq (x : ℚ) : lceil x = ⌈x⌉ := by
  unfold lceil
  by_cases h : x > 0 ∧ x ≠ trunc x
  · rw [if_pos h]
    obtain ⟨h1, h2⟩ := h
    rw [trunc_nonneg h1.le] at h2 ⊢
    have hne : (⌊x⌋ : ℚ) < x := lt_of_le_of_ne (Int.floor_le x) (Ne.symm h2)
    symm
    rw [Int.ceil_eq_iff]
    push_cast
    constructor
    · linarith
    · exact (Int.lt_floor_add_one x).le
  · rw [if_neg h, add_zero]
    by_cases h0 : 0 ≤ x
    · have hx : x = trunc x := by
        rcases lt_or_eq_of_le h0 with hpos | hz
        · by_contra hne; exact h ⟨hpos, hne⟩
        · rw [← hz]; unfold trunc; simp
      rw [trunc_nonneg h0] at hx ⊢
      conv_rhs => rw [hx]
      rw [Int.ceil_intCast]
    · unfold trunc; rw [if_neg h0]

/-- One direction of the choice of samples: pixel `p` and subpixel `m` are looked at just if the subpixel (a
half-open interval) meets the bound, but for a bound ending where the subpixel begins. -/
lemma span_mem (lo hi : ℚ) (rlo rhi : ℤ) (n : Nat) (hn : 0 < n) (p m : ℤ)
    (hlh : lo ≤ hi) (hp : rlo ≤ p ∧ p < rhi) (hm : 0 ≤ m ∧ m < n)
    (h1 : lo < p + ((m : ℚ) + 1) / n) (h2 : (p : ℚ) + m / n < hi) :
    let s := span lo hi rlo rhi n
    (s.1 ≤ p ∧ p < s.2.1) ∧ (if p = s.1 then s.2.2.1 else 0) ≤ m ∧ m < (if p = s.2.1 - 1 then s.2.2.2 else (n : ℤ)) := by
  have hnq : (0 : ℚ) < n := by exact_mod_cast hn
  have hmq : (0 : ℚ) ≤ m := by exact_mod_cast hm.1
  have hm1 : (m : ℚ) + 1 ≤ n := by have := hm.2; exact_mod_cast this
  have hmn0 : 0 ≤ (m : ℚ) / n := div_nonneg hmq hnq.le
  have hmn1 : ((m : ℚ) + 1) / n ≤ 1 := (div_le_one hnq).mpr hm1
  have hlo : ⌊lo⌋ ≤ p := by
    rw [← Int.lt_add_one_iff, Int.floor_lt]
    push_cast; linarith
  have hhi : p < ⌈hi⌉ := by
    rw [Int.lt_ceil]; linarith
  dsimp only [span]
  rw [lceil_eq hi]
  set e := (if ⌈hi⌉ > rhi then rhi else ⌈hi⌉) with he
  set s := (if ⌊lo⌋ < rlo then rlo else ⌊lo⌋) with hs
  have hsp : s ≤ p := by rw [hs]; split_ifs <;> omega
  have hpe : p < e := by rw [he]; split_ifs <;> omega
  refine ⟨⟨hsp, hpe⟩, ?_, ?_⟩
  · by_cases hps : p = s
    · rw [if_pos hps]
      by_cases hls : lo < s
      · rw [if_pos hls]; exact hm.1
      · rw [if_neg hls, ← Int.lt_add_one_iff, Int.floor_lt]
        push_cast
        rw [← hps]
        have : lo - p < ((m : ℚ) + 1) / n := by linarith
        exact (lt_div_iff₀ hnq).mp this
    · rw [if_neg hps]; exact hm.1
  · by_cases hpe1 : p = e - 1
    · rw [if_pos hpe1]
      by_cases hhe : hi > e
      · rw [if_pos hhe]; exact hm.2
      · rw [if_neg hhe, lceil_eq, Int.lt_ceil, ← hpe1]
        have : (m : ℚ) / n < hi - p := by linarith
        exact (div_lt_iff₀ hnq).mp this
    · rw [if_neg hpe1]; exact hm.2

lemma span_range (lo hi : ℚ) (rlo rhi : ℤ) (n : Nat) (p m : ℤ) (hlh : lo ≤ hi)
    (hp : let s := span lo hi rlo rhi n; s.1 ≤ p ∧ p < s.2.1)
    (hm : let s := span lo hi rlo rhi n
      (if p = s.1 then s.2.2.1 else 0) ≤ m ∧ m < (if p = s.2.1 - 1 then s.2.2.2 else (n : ℤ))) :
    (rlo ≤ p ∧ p < rhi) ∧ 0 ≤ m ∧ m < n := by
  dsimp only [span] at hp hm
  rw [lceil_eq hi] at hp hm
  set e := (if ⌈hi⌉ > rhi then rhi else ⌈hi⌉) with he
  set s := (if ⌊lo⌋ < rlo then rlo else ⌊lo⌋) with hs
  refine ⟨⟨?_, ?_⟩, ?_, ?_⟩
  · have : rlo ≤ s := by rw [hs]; split_ifs <;> omega
    omega
  · have : e ≤ rhi := by rw [he]; split_ifs <;> omega
    omega
  · refine le_trans ?_ hm.1
    split_ifs with h1 h2
    · exact le_refl _
    · have : 0 ≤ lo - s := by rw [not_lt] at h2; linarith
      exact Int.floor_nonneg.mpr (mul_nonneg this (Nat.cast_nonneg n))
    · exact le_refl _
  · refine lt_of_lt_of_le hm.2 ?_
    split_ifs with h1 h2
    · exact le_refl _
    · rw [lceil_eq, Int.ceil_le]
      rw [not_lt] at h2
      push_cast
      have : hi - ((e : ℚ) - 1) ≤ 1 := by linarith
      calc (hi - ((e : ℚ) - 1)) * n ≤ 1 * n := mul_le_mul_of_nonneg_right this (Nat.cast_nonneg n)
        _ = n := one_mul _
    · exact le_refl _

lemma mem_candidates (b : Bound) (rx0 rx1 ry0 ry1 : ℤ) (xs ys : Nat) (s : ℤ × ℤ × ℤ) :
    s ∈ candidates b rx0 rx1 ry0 ry1 xs ys ↔
      ∃ m n : ℤ, s.2.2 = n * xs + m ∧
        (let sp := span b.xMin b.xMax rx0 rx1 xs;
          (sp.1 ≤ s.1 ∧ s.1 < sp.2.1) ∧ (if s.1 = sp.1 then sp.2.2.1 else 0) ≤ m ∧
            m < (if s.1 = sp.2.1 - 1 then sp.2.2.2 else (xs : ℤ))) ∧
        (let sp := span b.yMin b.yMax ry0 ry1 ys;
          (sp.1 ≤ s.2.1 ∧ s.2.1 < sp.2.1) ∧ (if s.2.1 = sp.1 then sp.2.2.1 else 0) ≤ n ∧
            n < (if s.2.1 = sp.2.1 - 1 then sp.2.2.2 else (ys : ℤ))) := by
  unfold candidates
  dsimp only
  obtain ⟨px, py, i⟩ := s
  generalize span b.xMin b.xMax rx0 rx1 xs = X
  generalize span b.yMin b.yMax ry0 ry1 ys = Y
  dsimp only
  by_cases hemp : X.1 ≥ X.2.1 ∨ Y.1 ≥ Y.2.1
  · rw [if_pos hemp]
    constructor
    · intro h; cases h
    · rintro ⟨m, n, _, ⟨⟨h1, h2⟩, _⟩, ⟨⟨h3, h4⟩, _⟩⟩
      exfalso; omega
  · rw [if_neg hemp]
    simp only [List.mem_flatMap, List.mem_map, mem_upto, Prod.mk.injEq]
    constructor
    · rintro ⟨iy, hy, ix, hx, n, hn, m, hm, rfl, rfl, hi⟩
      exact ⟨m, n, hi.symm, ⟨hx, hm⟩, ⟨hy, hn⟩⟩
    · rintro ⟨m, n, hi, ⟨hx, hm⟩, ⟨hy, hn⟩⟩
      exact ⟨py, hy, px, hx, n, hn, m, hm, rfl, rfl, hi.symm⟩

lemma nodup_flatMap {α β : Type} (l : List α) (f : α → List β) (hl : l.Nodup) (hf : ∀ a ∈ l, (f a).Nodup)
    (hd : ∀ a ∈ l, ∀ b ∈ l, ∀ z, z ∈ f a → z ∈ f b → a = b) : (l.flatMap f).Nodup := by
  induction l with
  | nil => exact List.nodup_nil
  | cons a l ih =>
    rw [List.flatMap_cons, List.nodup_append]
    rw [List.nodup_cons] at hl
    refine ⟨hf a (List.mem_cons_self ..), ih hl.2 (fun b hb => hf b (List.mem_cons_of_mem _ hb))
      (fun b hb c hc => hd b (List.mem_cons_of_mem _ hb) c (List.mem_cons_of_mem _ hc)), ?_⟩
    intro z hz w hw hzw
    subst hzw
    obtain ⟨b, hb, hzb⟩ := List.mem_flatMap.mp hw
    have := hd a (List.mem_cons_self ..) b (List.mem_cons_of_mem _ hb) z hz hzb
    exact hl.1 (this ▸ hb)

lemma index_inj {xs m n m' n' : ℤ} (hm : 0 ≤ m ∧ m < xs) (hm' : 0 ≤ m' ∧ m' < xs)
    (h : n * xs + m = n' * xs + m') : n = n' ∧ m = m' := by
  have hx : 0 < xs := by omega
  have hn : n = n' := by
    by_contra hne
    rcases lt_or_gt_of_ne hne with hlt | hgt
    · have : (n' - n) * xs ≥ 1 * xs := mul_le_mul_of_nonneg_right (by omega) hx.le
      nlinarith
    · have : (n - n') * xs ≥ 1 * xs := mul_le_mul_of_nonneg_right (by omega) hx.le
      nlinarith
  subst hn
  exact ⟨rfl, by omega⟩

lemma nodup_candidates (b : Bound) (rx0 rx1 ry0 ry1 : ℤ) (xs ys : Nat) (hb : b.xMin ≤ b.xMax) :
    (candidates b rx0 rx1 ry0 ry1 xs ys).Nodup := by
  have hr := fun p m => span_range b.xMin b.xMax rx0 rx1 xs p m hb
  unfold candidates
  dsimp only at hr ⊢
  generalize span b.xMin b.xMax rx0 rx1 xs = X at hr ⊢
  generalize span b.yMin b.yMax ry0 ry1 ys = Y
  split_ifs with hemp
  · exact List.nodup_nil
  · refine nodup_flatMap _ _ (nodup_upto _ _) ?_ ?_
    · intro iy hy
      refine nodup_flatMap _ _ (nodup_upto _ _) ?_ ?_
      · intro ix hx
        rw [mem_upto] at hx
        refine nodup_flatMap _ _ (nodup_upto _ _) ?_ ?_
        · intro n _
          refine List.Nodup.map ?_ (nodup_upto _ _)
          intro m m' h
          simp only [Prod.mk.injEq] at h
          omega
        · intro n _ n' _ z hz hz'
          simp only [List.mem_map, mem_upto] at hz hz'
          obtain ⟨m, hm, rfl⟩ := hz
          obtain ⟨m', hm', h⟩ := hz'
          simp only [Prod.mk.injEq, true_and] at h
          exact (index_inj (hr ix m hx hm).2 (hr ix m' hx hm').2 h.symm).1
      · intro ix _ ix' _ z hz hz'
        simp only [List.mem_flatMap, List.mem_map] at hz hz'
        obtain ⟨n, _, m, _, rfl⟩ := hz
        obtain ⟨n', _, m', _, h⟩ := hz'
        simp only [Prod.mk.injEq] at h
        exact h.1.symm
    · intro iy _ iy' _ z hz hz'
      simp only [List.mem_flatMap, List.mem_map] at hz hz'
      obtain ⟨ix, _, n, _, m, _, rfl⟩ := hz
      obtain ⟨ix', _, n', _, m', _, h⟩ := hz'
      simp only [Prod.mk.injEq] at h
      exact h.2.1.symm

lemma renderLoop_eq (E : Nat → Edge) (b : Bound) (pos : ℤ × ℤ × ℤ → ℚ × ℚ) (l : List (ℤ × ℤ × ℤ)) :
    ∀ last, last < 4 → renderLoop E b pos last l =
      l.filter fun s => b.contains (pos s).1 (pos s).2 && (fContains E 0 (pos s).1 (pos s).2).1 := by
  induction l with
  | nil => intro last _; rfl
  | cons s l ih =>
    intro last hl
    have hind := fContains_indep E last 0 hl (by norm_num) (pos s).1 (pos s).2
    by_cases hb : b.contains (pos s).1 (pos s).2 = false
    · rw [renderLoop, if_pos hb, ih last hl, List.filter_cons_of_neg]
      rw [hb]; simp
    · have hb' : b.contains (pos s).1 (pos s).2 = true := by simpa using hb
      rw [renderLoop, if_neg hb]
      by_cases hh : (fContains E last (pos s).1 (pos s).2).1 = true
      · show (if _ then _ else _) = _
        rw [if_pos hh, ih _ (fContains_lt E last hl _ _), List.filter_cons_of_pos]
        rw [← hind, hb', hh]; rfl
      · show (if _ then _ else _) = _
        rw [if_neg hh, ih _ (fContains_lt E last hl _ _), List.filter_cons_of_neg]
        rw [← hind, hb']; simpa using hh

lemma renderStatic_eq (q : Quad) (rx0 rx1 ry0 ry1 : ℤ) (xs ys : Nat) (pos : ℤ × ℤ × ℤ → ℚ × ℚ) :
    renderStatic q rx0 rx1 ry0 ry1 xs ys pos =
      (candidates (bound q) rx0 rx1 ry0 ry1 xs ys).filter fun s =>
        (bound q).contains (pos s).1 (pos s).2 && hits q (pos s).1 (pos s).2 :=
  renderLoop_eq _ _ _ _ 0 (by norm_num)

end Verif.Core.HitTest
