import Verif.Tex.StochLemmas

/-!
C96: random pixels of a region
-/

namespace Verif.Tex.Stoch

open Verif.Tex.Tile
open Spec

/-- **C96.** Random pixels of a region, for every image, size of tiles, region, number of samples and numbers drawn: the loop ends
without a failed assertion; if the region shares a pixel with the image exactly the wanted number of samples is taken, all of them
pixels of the image in the region, with the image's values there; otherwise none is. -/
theorem C96_count {α : Type} (fetch : Int → Int → α) (D : Draws) (hD : InRange D) (A : Arr) (s : Support) (htw : 0 < A.tw)
    (hth : 0 < A.th) (N : Nat) :
    ∃ F, ∀ f ≥ F, ∃ l, visit fetch D A s N f = .ok l ∧ l.length = (if (pixels A s).Nonempty then N else 0) ∧
      ∀ q ∈ l, q.1 ∈ pixels A s ∧ q.2 = fetch q.1.1 q.1.2 := by
  by_cases hne : (pixels A s).Nonempty
  · have g := cut_good A s htw hth hne
    have hI := first_inv A s N g (by omega)
    refine ⟨(tilesAfter A (cut A s) (first A s N).tileX (first A s N).tileY).toNat + N + 1, ?_⟩
    intro f hf
    rw [if_pos hne]
    unfold visit
    rw [begin_eq D A s N f g]
    by_cases hN : N = 0
    · obtain ⟨f, rfl⟩ : ∃ m, f = m + 1 := ⟨f - 1, by omega⟩
      subst hN
      refine ⟨[], ?_, rfl, by simp⟩
      unfold nextTile
      rw [if_pos (by show ((0 : Nat) : Int) = 0; rfl)]
      simp only
      rw [loop]
      simp only [Iter.inSupport, lt_irrefl, decide_false, Bool.false_eq_true, if_false]
    · obtain ⟨j, p, e, hj, _, ht, hT⟩ := nextTile_spec g D (inRange_fair hD) f _ hI (by omega)
        (by show (0 : Int) < (N : Int); omega)
      rw [e]
      obtain ⟨l, e1, e2, e3⟩ := loop_spec fetch g D (inRange_fair hD) f N f j p hj ht hT (by omega)
      exact ⟨l, e1, e2, fun q hq => ⟨(cut_mem A s q.1).mp (e3 q hq).1, (e3 q hq).2⟩⟩
  · exact ⟨1, fun f hf => ⟨[], visit_empty fetch D A s N hne f hf, by rw [if_neg hne]; rfl, by simp⟩⟩

/-- **C96.** If the number of samples is `k` for each pixel of the region in the image, then in each tile just `k` samples are taken
for each of its pixels in the region. -/
theorem C96_shares {α : Type} (fetch : Int → Int → α) (D : Draws) (hD : InRange D) (A : Arr) (s : Support) (htw : 0 < A.tw)
    (hth : 0 < A.th) (k : Nat) :
    ∃ F, ∀ f ≥ F, ∃ l, visit fetch D A s ((k * (pixels A s).card : Nat) : Int) f = .ok l ∧
      ∀ a b, (l.filter fun q => decide (q.1.1 / A.tw = a ∧ q.1.2 / A.th = b)).length = k * (pixelsOfTile A s a b).card := by
  by_cases hk : k = 0
  · subst hk
    obtain ⟨F, hF⟩ := C96_count fetch D hD A s htw hth 0
    refine ⟨F, fun f hf => ?_⟩
    obtain ⟨l, e1, e2, _⟩ := hF f hf
    rw [ite_self] at e2
    obtain rfl := List.length_eq_zero_iff.mp e2
    refine ⟨[], ?_, by simp⟩
    rw [Nat.zero_mul]
    exact e1
  by_cases hne : (pixels A s).Nonempty
  · have g := cut_good A s htw hth hne
    have hcard := pixels_card A s g
    have hpos : 0 < (pixels A s).card := Finset.card_pos.mpr hne
    generalize hN : k * (pixels A s).card = N
    have hNpos : 0 < N := by rw [← hN]; positivity
    have hNe : (N : Int) = k * (cut A s).area := by rw [← hN, ← hcard]; push_cast; ring
    have hI := first_inv A s N g (by omega)
    refine ⟨(tilesAfter A (cut A s) (first A s N).tileX (first A s N).tileY).toNat + N + 1, ?_⟩
    intro f hf
    unfold visit
    rw [begin_eq D A s N f g]
    obtain ⟨j, p, e, hj, p0, ht, hT, hja, hjn, hje⟩ := nextTile_exact g D (inRange_fair hD) f _ hI k (by omega)
      (by show (0 : Int) < (N : Int); omega) hNe (by omega)
    rw [e]
    obtain ⟨l, e1, e2, e3⟩ := loop_spec fetch g D (inRange_fair hD) f N f j p hj ht hT (by omega)
    refine ⟨l, e1, ?_⟩
    intro a b
    by_cases hab : (cut A s).sx.start / A.tw ≤ a ∧ a < ((cut A s).sx.stop - 1) / A.tw + 1 ∧ (cut A s).sy.start / A.th ≤ b ∧
        b < ((cut A s).sy.stop - 1) / A.th + 1
    · obtain ⟨a0, a1, b0, b1⟩ := hab
      obtain ⟨l', e1', e4⟩ := loop_exact fetch g D (inRange_fair hD) f k (by omega) a b a0 a1 b1 N f j p hj ht hT (by omega) hje
      have hll : l' = l := by
        have := e1'.symm.trans e1
        injection this
      rw [hll] at e4
      have hz : ((l.filter fun q => decide (q.1.1 / A.tw = a ∧ q.1.2 / A.th = b)).length : Int) =
          k * tileArea A (cut A s) a b := by
        have e4' : ((l.filter fun q => decide (q.1.1 / A.tw = a ∧ q.1.2 / A.th = b)).length : Int) = _ := e4
        rw [e4', hjn, p0]
        have hl := later_after (A := A) (s := cut A s) (first A s N).tileX (first A s N).tileY a b hI.tx1 a0 a1
        rw [← hja] at hl
        simp only [Prod.mk.injEq] at hl
        have hfirst : Later (first A s N).tileX (first A s N).tileY a b := by
          show Later ((cut A s).sx.start.tdiv A.tw - 1) ((cut A s).sy.start.tdiv A.th) a b
          rw [Int.tdiv_eq_ediv_of_nonneg g.xs, Int.tdiv_eq_ediv_of_nonneg g.ys]
          unfold Later
          omega
        have hl' := hl.mp hfirst
        by_cases hc : j.tileX = a ∧ j.tileY = b
        · obtain ⟨rfl, rfl⟩ := hc
          rw [if_pos ⟨rfl, rfl⟩, if_neg (by unfold Later; omega)]
          simp
        · rw [if_neg hc, if_pos]
          · ring
          · rcases hl' with ⟨q1, q2⟩ | q
            · exact absurd ⟨q1.symm, q2.symm⟩ hc
            · exact q
      rw [← tile_card A s g a b a0 a1 b0 b1] at hz
      exact_mod_cast hz
    · have h0 := tile_none A s g a b hab
      have hpx : (pixelsOfTile A s a b) = ∅ := by
        unfold pixelsOfTile
        rw [Finset.filter_eq_empty_iff]
        intro p hp
        exact h0 p ((cut_mem A s p).mpr hp)
      rw [hpx, Finset.card_empty, mul_zero, List.length_eq_zero_iff, List.filter_eq_nil_iff]
      intro q hq
      have := h0 q.1 (e3 q hq).1
      simpa using this
  · refine ⟨1, fun f hf => ⟨[], visit_empty fetch D A s _ hne f hf, ?_⟩⟩
    intro a b
    have : pixels A s = ∅ := Finset.not_nonempty_iff_eq_empty.mp hne
    unfold pixelsOfTile
    rw [this]
    simp

/-- **C96.** The number of samples of a tile is less than one off its share of the remaining ones, and on the average over the
coins `0, 1/R, …, (R-1)/R` (`R` pixels remaining) it is just the share. -/
theorem C96_average (rem area R : Nat) (hR : 0 < R) :
    (∀ coin, 0 ≤ coin → |(share rem area R coin : ℚ) - rem * area / R| < 1) ∧
      (∑ j ∈ Finset.range R, (share rem area R ((j : ℚ) / R) : ℚ)) / R = rem * area / R := by
  have hR' : (0 : ℚ) < R := by exact_mod_cast hR
  obtain ⟨Q, M, hdm, hM⟩ : ∃ Q M : Nat, rem * area = R * Q + M ∧ M < R :=
    ⟨rem * area / R, rem * area % R, (Nat.div_add_mod _ _).symm, Nat.mod_lt _ hR⟩
  have hdm' : (rem : ℚ) * area = R * Q + M := by exact_mod_cast hdm
  have hM' : (M : ℚ) < R := by exact_mod_cast hM
  have hd : (rem : ℚ) * area / R = Q + M / R := by
    rw [hdm']
    field_simp
  have hu0 : (0 : ℚ) ≤ M / R := by positivity
  have hu1 : (M : ℚ) / R < 1 := by rw [div_lt_one hR']; exact hM'
  have hd2 : ((rem : Int) : ℚ) * ((area : Int) : ℚ) / ((R : Int) : ℚ) = Q + M / R := by
    rw [← hd]
    push_cast
    ring
  have hfl : ⌊(Q : ℚ) + M / R⌋ = (Q : Int) := by
    rw [Int.floor_eq_iff]
    push_cast
    constructor <;> linarith
  have hsh : ∀ coin, (share rem area R coin : ℚ) = Q + (if coin < (M : ℚ) / R then 1 else 0) := by
    intro coin
    unfold share
    simp only
    rw [hd2, hfl]
    have : (Q : ℚ) + M / R - ((Q : Int) : ℚ) = M / R := by push_cast; ring
    rw [this]
    by_cases hc : coin < (M : ℚ) / R
    · rw [if_pos hc, if_pos hc]; push_cast; ring
    · rw [if_neg hc, if_neg hc]; push_cast; ring
  constructor
  · intro coin hc0
    rw [hsh, hd, abs_lt]
    by_cases hc : coin < (M : ℚ) / R
    · rw [if_pos hc]; constructor <;> linarith
    · rw [if_neg hc]; constructor <;> linarith
  · have hone : ∀ j ∈ Finset.range R, (share rem area R ((j : ℚ) / R) : ℚ) = (Q : ℚ) + (if j < M then 1 else 0) := by
      intro j _
      rw [hsh]
      have hiff : ((j : ℚ) / R < (M : ℚ) / R) ↔ j < M := by
        rw [div_lt_div_iff_of_pos_right hR']
        exact_mod_cast Iff.rfl
      simp only [hiff]
    rw [Finset.sum_congr rfl hone, Finset.sum_add_distrib, Finset.sum_const, Finset.card_range, ← Finset.sum_filter,
      Finset.sum_const]
    have hc : ((Finset.range R).filter fun j => j < M).card = M := by
      have : ((Finset.range R).filter fun j => j < M) = Finset.range M := by
        ext j
        simp only [Finset.mem_filter, Finset.mem_range]
        omega
      rw [this, Finset.card_range]
    rw [hc, hdm']
    simp only [nsmul_eq_mul, mul_one]

/-- **C96.** What percentage closer filtering looks at: with a number of samples that is not negative never more pixels than that, and
with a negative one, or if the whole region is not larger than that number, each pixel of the image in the region just once. -/
theorem C96_pcf {α : Type} (fetch : Int → Int → α) (D : Draws) (hD : InRange D) (A : Arr) (s : Support) (hW : 0 < A.width)
    (hH : 0 < A.height) (htw : 0 < A.tw) (hth : 0 < A.th) (hsx : s.sx.start ≤ s.sx.stop) (hsy : s.sy.start ≤ s.sy.stop) (N : Int) :
    ∃ F, ∀ f ≥ F, ∃ l, pcfPixels fetch D A s N f = .ok l ∧ (0 ≤ N → (l.length : Int) ≤ N) ∧
      (∀ q ∈ l, q.1 ∈ pixels A s ∧ q.2 = fetch q.1.1 q.1.2) ∧
      ((N < 0 ∨ ((s.sx.stop - s.sx.start) * (s.sy.stop - s.sy.start) ≤ N)) →
        (l.map (·.1)).Nodup ∧ ∀ p ∈ pixels A s, p ∈ l.map (·.1)) := by
  have harea : s.area = (s.sx.stop - s.sx.start) * (s.sy.stop - s.sy.start) := rfl
  by_cases hc : s.area ≤ N ∨ N < 0
  · obtain ⟨F, l, hnd, hmem, hv⟩ := C33_visit fetch A s hW hH htw hth
    have hpx : ∀ p : Int × Int, p ∈ l ↔ p ∈ pixels A s := by
      rintro ⟨x, y⟩
      rw [hmem]
      unfold pixels
      simp only [Finset.mem_inter, Finset.mem_product, Finset.mem_Ico]
      tauto
    have hmap : (l.map fun p => (p, fetch p.1 p.2)).map (·.1) = l := by
      rw [List.map_map]
      exact List.map_id' l
    refine ⟨F, fun f hf => ⟨l.map fun p => (p, fetch p.1 p.2), ?_, ?_, ?_, ?_⟩⟩
    · unfold pcfPixels
      rw [if_pos hc, hv f hf]
    · intro hN
      rw [List.length_map]
      have hle : l.length ≤ (Finset.Ico s.sx.start s.sx.stop ×ˢ Finset.Ico s.sy.start s.sy.stop).card := by
        rw [← List.toFinset_card_of_nodup hnd]
        apply Finset.card_le_card
        intro p hp
        have := (hpx p).mp (List.mem_toFinset.mp hp)
        exact (Finset.mem_inter.mp this).1
      rw [Finset.card_product, Int.card_Ico, Int.card_Ico] at hle
      have hle' : (l.length : Int) ≤ (s.sx.stop - s.sx.start) * (s.sy.stop - s.sy.start) := by
        have : (l.length : Int) ≤ (((s.sx.stop - s.sx.start).toNat * (s.sy.stop - s.sy.start).toNat : Nat) : Int) := by
          exact_mod_cast hle
        push_cast at this
        rw [Int.toNat_of_nonneg (by omega), Int.toNat_of_nonneg (by omega)] at this
        exact this
      rw [harea] at hc
      rcases hc with hc | hc
      · exact hle'.trans hc
      · omega
    · intro q hq
      obtain ⟨p, hp, rfl⟩ := List.mem_map.mp hq
      exact ⟨(hpx p).mp hp, rfl⟩
    · intro _
      rw [hmap]
      exact ⟨hnd, fun p hp => (hpx p).mpr hp⟩
  · have hN : 0 ≤ N := by omega
    obtain ⟨n, rfl⟩ := Int.eq_ofNat_of_zero_le hN
    obtain ⟨F, hF⟩ := C96_count fetch D hD A s htw hth n
    refine ⟨F, fun f hf => ?_⟩
    obtain ⟨l, e1, e2, e3⟩ := hF f hf
    refine ⟨l, by unfold pcfPixels; rw [if_neg hc]; exact e1, fun _ => ?_, e3, fun h => ?_⟩
    · rw [e2]
      split
      · exact le_refl _
      · omega
    · rw [← harea] at h
      exact absurd (Or.symm h) hc

/-- Numbers for the example: the middle of everything. -/
def middle : Draws := ⟨fun _ => 1 / 2, fun k => (k % 4 : Nat) / 4, fun k => (k % 2 : Nat) / 2, fun _ => 1 / 2, fun _ => 0⟩

-- Not vacuous: ten samples in a region of three by three pixels that crosses tiles of two by two pixels.
example : (match visit (fun x y => x + 10 * y) middle ⟨5, 5, 2, 2⟩ ⟨⟨-1, 3⟩, ⟨0, 3⟩⟩ 10 20 with
    | .ok l => l.map (·.2)
    | _ => []) = [1, 11, 0, 10, 2, 12, 21, 21, 20, 22] := by
  decide +kernel

example : InRange middle := by
  refine ⟨fun _ => by norm_num [middle], fun k => ?_, fun k => ?_, fun _ => by norm_num [middle], fun _ => by norm_num [middle]⟩
  · have : k % 4 < 4 := Nat.mod_lt _ (by norm_num)
    refine ⟨by simp only [middle]; positivity, ?_⟩
    simp only [middle]
    rw [div_lt_one (by norm_num)]
    exact_mod_cast this
  · have : k % 2 < 2 := Nat.mod_lt _ (by norm_num)
    refine ⟨by simp only [middle]; positivity, ?_⟩
    simp only [middle]
    rw [div_lt_one (by norm_num)]
    exact_mod_cast this

example : (pixels ⟨5, 5, 2, 2⟩ ⟨⟨-1, 3⟩, ⟨0, 3⟩⟩).card = 9 := by decide +kernel

end Verif.Tex.Stoch
