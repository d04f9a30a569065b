import Verif.Tex.Support
import Mathlib.Data.Int.Interval

/-!
# C34: filter regions form a set algebra
-/

namespace Verif.Tex

/-- The pixels of a one-dimensional support. -/
def Support1D.Mem (p : Int) (s : Support1D) : Prop := s.start ≤ p ∧ p < s.stop

/-- The pixels of a support. -/
def Support.Mem (p : Int × Int) (s : Support) : Prop := s.sx.Mem p.1 ∧ s.sy.Mem p.2

/-- **C34.**  Intersection is intersection of sets. -/
theorem C34_intersect1 (s t : Support1D) (p : Int) :
    (s.intersect t).Mem p ↔ s.Mem p ∧ t.Mem p := by
  unfold Support1D.Mem Support1D.intersect
  split <;> split <;> simp only <;> omega

theorem C34_intersect (s t : Support) (p : Int × Int) :
    (s.intersect t).Mem p ↔ s.Mem p ∧ t.Mem p := by
  unfold Support.Mem Support.intersect
  simp only [C34_intersect1]
  constructor
  · rintro ⟨⟨a, b⟩, c, d⟩; exact ⟨⟨a, c⟩, b, d⟩
  · rintro ⟨⟨a, c⟩, b, d⟩; exact ⟨⟨a, b⟩, c, d⟩

/-- **C34.**  Truncation is intersection with the range. -/
theorem C34_truncate (s : Support1D) (a b p : Int) :
    (s.truncate a b).Mem p ↔ s.Mem p ∧ a ≤ p ∧ p < b := by
  unfold Support1D.Mem Support1D.truncate
  split <;> split <;> simp only <;> omega

/-- **C34.**  A support is reported empty exactly when it has no pixel. -/
theorem C34_empty1 (s : Support1D) : s.isEmpty = true ↔ ∀ p, ¬ s.Mem p := by
  unfold Support1D.isEmpty Support1D.Mem
  simp only [decide_eq_true_eq]
  constructor
  · intro h p; omega
  · intro h; have := h s.start; omega

theorem C34_empty (s : Support) : s.isEmpty = true ↔ ∀ p, ¬ s.Mem p := by
  unfold Support.isEmpty Support.Mem
  rw [Bool.or_eq_true, C34_empty1, C34_empty1]
  constructor
  · rintro (h | h) p ⟨h1, h2⟩
    · exact h _ h1
    · exact h _ h2
  · intro h
    by_cases hx : ∃ x, s.sx.Mem x
    · obtain ⟨x, hx⟩ := hx
      right
      intro y hy
      exact h (x, y) ⟨hx, hy⟩
    · left
      intro x hx'
      exact hx ⟨x, hx'⟩

/-- **C34, partial.**  A support that is not empty is in a range exactly when all
its pixels are.  Missing: empty supports (`C34_inRange_violated`). -/
theorem C34_inRange1_partial (s : Support1D) (a b : Int) (hs : s.isEmpty = false) :
    s.inRange a b = true ↔ ∀ p, s.Mem p → a ≤ p ∧ p < b := by
  unfold Support1D.isEmpty at hs
  unfold Support1D.inRange Support1D.Mem
  simp only [decide_eq_false_iff_not] at hs
  simp only [Bool.and_eq_true, decide_eq_true_eq]
  constructor
  · intro h p; omega
  · intro h
    have h1 := h s.start
    have h2 := h (s.stop - 1)
    omega

theorem C34_inRange_partial (s : Support) (a b c d : Int) (hs : s.isEmpty = false) :
    s.inRange a b c d = true ↔
      ∀ p, s.Mem p → (a ≤ p.1 ∧ p.1 < b) ∧ (c ≤ p.2 ∧ p.2 < d) := by
  unfold Support.isEmpty at hs
  rw [Bool.or_eq_false_iff] at hs
  unfold Support.inRange
  rw [Bool.and_eq_true, C34_inRange1_partial _ _ _ hs.1, C34_inRange1_partial _ _ _ hs.2]
  have ex : ∃ x, s.sx.Mem x := by
    by_contra h
    have := (C34_empty1 s.sx).mpr (fun p hp => h ⟨p, hp⟩)
    rw [hs.1] at this; exact absurd this (by simp)
  have ey : ∃ y, s.sy.Mem y := by
    by_contra h
    have := (C34_empty1 s.sy).mpr (fun p hp => h ⟨p, hp⟩)
    rw [hs.2] at this; exact absurd this (by simp)
  obtain ⟨x0, hx0⟩ := ex
  obtain ⟨y0, hy0⟩ := ey
  constructor
  · rintro ⟨h1, h2⟩ p ⟨hp1, hp2⟩
    exact ⟨h1 _ hp1, h2 _ hp2⟩
  · intro h
    exact ⟨fun x hx => (h (x, y0) ⟨hx, hy0⟩).1, fun y hy => (h (x0, y) ⟨hx0, hy⟩).2⟩

/-- **C34, partial.**  For a range that is not empty, the support is reported to
meet it exactly when they have a pixel in common.  Missing: empty ranges
(`C34_intersectsRange_violated`). -/
theorem C34_intersectsRange1_partial (s : Support1D) (a b : Int) (hab : a < b) :
    s.intersectsRange a b = true ↔ ∃ p, s.Mem p ∧ a ≤ p ∧ p < b := by
  unfold Support1D.intersectsRange Support1D.isEmpty Support1D.Mem
  simp only [Bool.and_eq_true, Bool.not_eq_true', Bool.or_eq_false_iff, decide_eq_false_iff_not]
  constructor
  · intro h
    refine ⟨max s.start a, ?_⟩
    omega
  · rintro ⟨p, h⟩
    omega

theorem C34_intersectsRange_partial (s : Support) (a b c d : Int) (hab : a < b) (hcd : c < d) :
    s.intersectsRange a b c d = true ↔
      ∃ p, s.Mem p ∧ (a ≤ p.1 ∧ p.1 < b) ∧ (c ≤ p.2 ∧ p.2 < d) := by
  unfold Support.intersectsRange
  rw [Bool.and_eq_true, C34_intersectsRange1_partial _ _ _ hab,
    C34_intersectsRange1_partial _ _ _ hcd]
  constructor
  · rintro ⟨⟨x, hx, h1⟩, y, hy, h2⟩
    exact ⟨(x, y), ⟨hx, hy⟩, h1, h2⟩
  · rintro ⟨p, ⟨hx, hy⟩, h1, h2⟩
    exact ⟨⟨p.1, hx, h1⟩, p.2, hy, h2⟩

/-- **C34, partial.**  The area of a support that is not reversed in either
direction is its number of pixels.  Missing: reversed supports, which
`intersect` produces (`C34_area_violated`). -/
theorem C34_area_partial (s : Support) (hx : s.sx.start ≤ s.sx.stop)
    (hy : s.sy.start ≤ s.sy.stop) :
    ∃ l : List (Int × Int), l.Nodup ∧ (∀ p, p ∈ l ↔ s.Mem p) ∧ (l.length : Int) = s.area := by
  refine ⟨((Finset.Ico s.sx.start s.sx.stop) ×ˢ (Finset.Ico s.sy.start s.sy.stop)).toList,
    Finset.nodup_toList _, ?_, ?_⟩
  · intro p
    simp [Support.Mem, Support1D.Mem]
  · rw [Finset.length_toList, Finset.card_product, Int.card_Ico, Int.card_Ico]
    unfold Support.area Support1D.range
    push_cast
    rw [Int.toNat_of_nonneg (by omega), Int.toNat_of_nonneg (by omega)]

/-- **C34 fails**: an empty support beside a range is not in it. -/
theorem C34_inRange_violated : ∃ s : Support1D, (∀ p, s.Mem p → (0 : Int) ≤ p ∧ p < 5) ∧
    s.inRange 0 5 = false := by
  refine ⟨⟨7, 7⟩, ?_, by decide⟩
  intro p hp
  unfold Support1D.Mem at hp
  simp only at hp
  omega

/-- **C34 fails**: an empty range inside a support is reported to meet it. -/
theorem C34_intersectsRange_violated : ∃ s : Support1D,
    (¬ ∃ p, s.Mem p ∧ (5 : Int) ≤ p ∧ p < 5) ∧ s.intersectsRange 5 5 = true := by
  refine ⟨⟨0, 10⟩, ?_, by decide⟩
  rintro ⟨p, _, h⟩
  omega

/-- **C34 fails**: the intersection of two supports apart in both directions is
empty but has a positive area. -/
theorem C34_area_violated : ∃ s t : Support, (∀ p, ¬ (s.intersect t).Mem p) ∧
    (s.intersect t).area = 9 := by
  refine ⟨.mk4 0 2 0 2, .mk4 5 8 5 8, ?_, by decide⟩
  rw [← C34_empty]
  decide

example : ((Support.mk4 0 10 0 10).intersect (.mk4 5 20 (-3) 2)) = .mk4 5 10 0 2 := by decide

end Verif.Tex
