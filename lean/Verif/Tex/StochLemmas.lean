import Verif.Tex.StochSteps

/-!
Lemmas about random pixels of a region
-/

namespace Verif.Tex.Stoch

open Verif.Tex.Tile

namespace Spec

/-- All pixels of the image that lie in the region. -/
noncomputable def pixels (A : Arr) (s : Support) : Finset (Int × Int) :=
  (Finset.Ico s.sx.start s.sx.stop ×ˢ Finset.Ico s.sy.start s.sy.stop) ∩ (Finset.Ico 0 A.width ×ˢ Finset.Ico 0 A.height)

/-- Those of them in one tile. -/
noncomputable def pixelsOfTile (A : Arr) (s : Support) (a b : Int) : Finset (Int × Int) :=
  (pixels A s).filter fun p => p.1 / A.tw = a ∧ p.2 / A.th = b

/-- What random number generators give: numbers from 0 to 1, the table's below 1. -/
structure InRange (D : Draws) : Prop where
  coin : ∀ k, 0 ≤ D.coin k
  tabX : ∀ k, 0 ≤ D.tabX k ∧ D.tabX k < 1
  tabY : ∀ k, 0 ≤ D.tabY k ∧ D.tabY k < 1
  offX : ∀ k, 0 ≤ D.offX k ∧ D.offX k ≤ 1
  offY : ∀ k, 0 ≤ D.offY k ∧ D.offY k ≤ 1

end Spec

open Spec

theorem inRange_fair {D : Draws} (h : InRange D) : Fair D := ⟨h.coin, h.tabX, h.tabY, h.offX, h.offY⟩

/-- The region cut to the image. -/
def cut (A : Arr) (s : Support) : Support := s.intersect (Support.mk4 0 A.width 0 A.height)

theorem cut_facts (A : Arr) (s : Support) : (cut A s).sx.start = max s.sx.start 0 ∧ (cut A s).sx.stop = min s.sx.stop A.width ∧
    (cut A s).sy.start = max s.sy.start 0 ∧ (cut A s).sy.stop = min s.sy.stop A.height := by
  unfold cut Support.intersect Support1D.intersect Support.mk4
  simp only
  refine ⟨?_, ?_, ?_, ?_⟩ <;> split <;> omega

theorem cut_mem (A : Arr) (s : Support) (p : Int × Int) : (cut A s).Mem p ↔ p ∈ pixels A s := by
  obtain ⟨h1, h2, h3, h4⟩ := cut_facts A s
  unfold Support.Mem Support1D.Mem pixels
  rw [h1, h2, h3, h4]
  simp only [Finset.mem_inter, Finset.mem_product, Finset.mem_Ico]
  omega

theorem cut_pixels (A : Arr) (s : Support) : pixels A s =
    Finset.Ico (cut A s).sx.start (cut A s).sx.stop ×ˢ Finset.Ico (cut A s).sy.start (cut A s).sy.stop := by
  ext p
  rw [← cut_mem]
  unfold Support.Mem Support1D.Mem
  simp only [Finset.mem_product, Finset.mem_Ico]

theorem cut_good (A : Arr) (s : Support) (htw : 0 < A.tw) (hth : 0 < A.th) (hne : (pixels A s).Nonempty) : Good A (cut A s) := by
  obtain ⟨p, hp⟩ := hne
  rw [← cut_mem] at hp
  obtain ⟨h1, h2, h3, h4⟩ := cut_facts A s
  unfold Support.Mem Support1D.Mem at hp
  exact ⟨htw, hth, by omega, by omega, by omega, by omega, by omega, by omega⟩

theorem tile_card (A : Arr) (s : Support) (g : Good A (cut A s)) (a b : Int) (a0 : (cut A s).sx.start / A.tw ≤ a)
    (a1 : a < ((cut A s).sx.stop - 1) / A.tw + 1) (b0 : (cut A s).sy.start / A.th ≤ b)
    (b1 : b < ((cut A s).sy.stop - 1) / A.th + 1) : ((pixelsOfTile A s a b).card : Int) = tileArea A (cut A s) a b := by
  have hset : pixelsOfTile A s a b =
      Finset.Ico (max (cut A s).sx.start (a * A.tw)) (min (cut A s).sx.stop ((a + 1) * A.tw)) ×ˢ
        Finset.Ico (max (cut A s).sy.start (b * A.th)) (min (cut A s).sy.stop ((b + 1) * A.th)) := by
    have hdiv : ∀ (w p t : Int), 0 < w → (p / w = t ↔ (t * w ≤ p ∧ p < (t + 1) * w)) := by
      intro w p t hw
      constructor
      · rintro rfl
        exact ⟨Int.ediv_mul_le p (by omega), Int.lt_ediv_add_one_mul_self p hw⟩
      · rintro ⟨g1, g2⟩
        have a1 := Int.le_ediv_of_mul_le hw g1
        have a2 := Int.ediv_lt_of_lt_mul hw g2
        omega
    ext p
    unfold pixelsOfTile
    rw [cut_pixels]
    simp only [Finset.mem_filter, Finset.mem_product, Finset.mem_Ico, hdiv _ _ _ g.tw, hdiv _ _ _ g.th]
    omega
  have e1 : (cut A s).sx.start < (a + 1) * A.tw := Int.lt_mul_of_ediv_lt g.tw (by omega)
  have e2 : a * A.tw ≤ (cut A s).sx.stop - 1 := Int.mul_le_of_le_ediv g.tw (by omega)
  have e3 : (cut A s).sy.start < (b + 1) * A.th := Int.lt_mul_of_ediv_lt g.th (by omega)
  have e4 : b * A.th ≤ (cut A s).sy.stop - 1 := Int.mul_le_of_le_ediv g.th (by omega)
  have e5 : (a + 1) * A.tw = a * A.tw + A.tw := by ring
  have e6 : (b + 1) * A.th = b * A.th + A.th := by ring
  have gtw := g.tw
  have gth := g.th
  have gx := g.x
  have gy := g.y
  rw [hset, Finset.card_product, Int.card_Ico, Int.card_Ico]
  push_cast
  rw [Int.toNat_of_nonneg (by omega), Int.toNat_of_nonneg (by omega)]
  unfold tileArea Support.area Support.intersect Support1D.intersect Support1D.range Support.mk4
  simp only
  congr 1
  · split <;> split <;> omega
  · split <;> split <;> omega

theorem pixels_card (A : Arr) (s : Support) (g : Good A (cut A s)) : ((pixels A s).card : Int) = (cut A s).area := by
  have gx := g.x
  have gy := g.y
  rw [cut_pixels, Finset.card_product, Int.card_Ico, Int.card_Ico]
  push_cast
  rw [Int.toNat_of_nonneg (by omega), Int.toNat_of_nonneg (by omega)]
  rfl

theorem tile_none (A : Arr) (s : Support) (g : Good A (cut A s)) (a b : Int) (h : ¬ ((cut A s).sx.start / A.tw ≤ a ∧
    a < ((cut A s).sx.stop - 1) / A.tw + 1 ∧ (cut A s).sy.start / A.th ≤ b ∧ b < ((cut A s).sy.stop - 1) / A.th + 1))
    (p : Int × Int) (hp : (cut A s).Mem p) : ¬ (p.1 / A.tw = a ∧ p.2 / A.th = b) := by
  rintro ⟨rfl, rfl⟩
  obtain ⟨⟨h1, h2⟩, h3, h4⟩ := hp
  apply h
  have q1 := Int.ediv_le_ediv g.tw h1
  have q2 := Int.ediv_le_ediv g.tw (show p.1 ≤ (cut A s).sx.stop - 1 by omega)
  have q3 := Int.ediv_le_ediv g.th h3
  have q4 := Int.ediv_le_ediv g.th (show p.2 ≤ (cut A s).sy.stop - 1 by omega)
  exact ⟨q1, by omega, q3, by omega⟩

/-- The iterator before its first tile. -/
def first (A : Arr) (s : Support) (N : Int) : Iter :=
  { support := cut A s, tileX0 := (cut A s).sx.start.tdiv A.tw, tileXEnd := ((cut A s).sx.stop - 1).tdiv A.tw + 1,
    tileYEnd := ((cut A s).sy.stop - 1).tdiv A.th + 1, tileX := (cut A s).sx.start.tdiv A.tw - 1,
    tileY := (cut A s).sy.start.tdiv A.th, remainingArea := (cut A s).area, remainingSamples := N, curr := none, coins := 0,
    turns := 0 }

theorem begin_eq (D : Draws) (A : Arr) (s : Support) (N : Int) (f : Nat) (g : Good A (cut A s)) :
    begin D A s N f = nextTile D A f (first A s N) := by
  have he : (cut A s).isEmpty = false := by
    have := g.x
    have := g.y
    simp only [Support.isEmpty, Support1D.isEmpty, Bool.or_eq_false_iff, decide_eq_false_iff_not]
    omega
  unfold begin
  have hc : s.intersect (Support.mk4 0 A.width 0 A.height) = cut A s := rfl
  simp only [hc, he]
  rfl

theorem first_inv (A : Arr) (s : Support) (N : Int) (g : Good A (cut A s)) (hN : 0 ≤ N) : Inv A (cut A s) (first A s N) := by
  have gx := g.x
  have gy := g.y
  have e1 : (cut A s).sx.start.tdiv A.tw = (cut A s).sx.start / A.tw := Int.tdiv_eq_ediv_of_nonneg g.xs
  have e2 : ((cut A s).sx.stop - 1).tdiv A.tw = ((cut A s).sx.stop - 1) / A.tw :=
    Int.tdiv_eq_ediv_of_nonneg (by have := g.xs; omega)
  have e3 : (cut A s).sy.start.tdiv A.th = (cut A s).sy.start / A.th := Int.tdiv_eq_ediv_of_nonneg g.ys
  have e4 : ((cut A s).sy.stop - 1).tdiv A.th = ((cut A s).sy.stop - 1) / A.th :=
    Int.tdiv_eq_ediv_of_nonneg (by have := g.ys; omega)
  have q2 := Int.ediv_le_ediv g.tw (show (cut A s).sx.start ≤ (cut A s).sx.stop - 1 by omega)
  have q4 := Int.ediv_le_ediv g.th (show (cut A s).sy.start ≤ (cut A s).sy.stop - 1 by omega)
  have ha : (first A s N).remainingArea = rest A (cut A s) (first A s N).tileX (first A s N).tileY := by
    show (cut A s).area = rest A (cut A s) ((cut A s).sx.start.tdiv A.tw - 1) ((cut A s).sy.start.tdiv A.th)
    rw [e1, e3]
    unfold rest
    rw [sub_add_cancel, left_first A.tw _ _ g.tw g.x, left_first A.th _ _ g.th g.y]
    unfold Support.area Support1D.range
    ring
  refine ⟨rfl, e1, by show _ + 1 = _; rw [e2], by show _ + 1 = _; rw [e4], ?_, ?_, ?_, ?_, ha, hN, ?_⟩
  · show _ ≤ (cut A s).sx.start.tdiv A.tw - 1
    rw [e1]
  · show (cut A s).sx.start.tdiv A.tw - 1 < _
    rw [e1]
    omega
  · show _ ≤ (cut A s).sy.start.tdiv A.th
    rw [e3]
  · show (cut A s).sy.start.tdiv A.th < _
    rw [e3]
    omega
  · intro e
    have : (cut A s).area = 0 := e
    exfalso
    have hp : 0 < (cut A s).area := by
      unfold Support.area Support1D.range
      exact mul_pos (by omega) (by omega)
    omega

theorem visit_empty {α : Type} (fetch : Int → Int → α) (D : Draws) (A : Arr) (s : Support) (N : Int)
    (hne : ¬ (pixels A s).Nonempty) (f : Nat) (hf : 1 ≤ f) : visit fetch D A s N f = .ok [] := by
  have he : (cut A s).isEmpty = true := by
    rw [C34_empty]
    intro p hp
    exact hne ⟨p, (cut_mem A s p).mp hp⟩
  obtain ⟨f, rfl⟩ : ∃ m, f = m + 1 := ⟨f - 1, by omega⟩
  unfold visit begin
  have hc : s.intersect (Support.mk4 0 A.width 0 A.height) = cut A s := rfl
  simp only [hc, he, if_true]
  rw [loop]
  simp only [Iter.inSupport, lt_irrefl, decide_false, Bool.false_eq_true, if_false]

end Verif.Tex.Stoch
