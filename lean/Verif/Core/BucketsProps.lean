import Verif.Core.Buckets
import Mathlib.Tactic.Linarith
import Mathlib.Tactic.SplitIfs
import Mathlib.Tactic.NormNum
import Mathlib.Tactic.Push
/-!
# The bucket grid and its order (C45)
-/
namespace Verif.Core.Buckets

theorem rowLoop_get (xRes bw row y h : Int) (n : Nat) (c p : Int) (i : Nat) :
    (rowLoop xRes bw row y h n c p)[i]? =
      if i < n then some ⟨c + i, row, p + i * bw, y, min (xRes - (p + i * bw)) bw, h⟩ else none := by
  induction n generalizing c p i with
  | zero => simp [rowLoop]
  | succ n ih =>
    rw [rowLoop]
    cases i with
    | zero =>
      simp only [List.getElem?_cons_zero, Nat.zero_lt_succ, if_true]
      congr 1
      have : (if xRes - p > bw then bw else xRes - p) = min (xRes - p) bw := by
        split_ifs <;> omega
      simp [this]
    | succ i =>
      rw [List.getElem?_cons_succ, ih]
      have e : p + bw + (i : Int) * bw = p + ((i + 1 : Nat) : Int) * bw := by push_cast; ring
      have e2 : c + 1 + (i : Int) = c + ((i + 1 : Nat) : Int) := by push_cast; ring
      rw [e, e2]
      simp only [Nat.add_lt_add_iff_right]

theorem gridLoop_get (xRes yRes bw bh : Int) (nx n : Nat) (r p : Int) (j : Nat) :
    (gridLoop xRes yRes bw bh nx n r p)[j]? =
      if j < n then some (rowLoop xRes bw (r + j) (p + j * bh) (min (yRes - (p + j * bh)) bh) nx 0 0)
      else none := by
  induction n generalizing r p j with
  | zero => simp [gridLoop]
  | succ n ih =>
    rw [gridLoop]
    cases j with
    | zero =>
      simp only [List.getElem?_cons_zero, Nat.zero_lt_succ, if_true]
      congr 1
      have : (if yRes - p > bh then bh else yRes - p) = min (yRes - p) bh := by
        split_ifs <;> omega
      simp [this]
    | succ i =>
      rw [List.getElem?_cons_succ, ih]
      have e : p + bh + (i : Int) * bh = p + ((i + 1 : Nat) : Int) * bh := by push_cast; ring
      have e2 : r + 1 + (i : Int) = r + ((i + 1 : Nat) : Int) := by push_cast; ring
      rw [e, e2]
      simp only [Nat.add_lt_add_iff_right]

theorem numBuckets_eq {res size : Int} (hr : 0 < res) (hs : 0 < size) :
    numBuckets res size = (res - 1) / size + 1 := by
  rw [numBuckets, Int.tdiv_eq_ediv_of_nonneg (by omega)]

theorem lt_numBuckets {res size : Int} (hr : 0 < res) (hs : 0 < size) (c : Int) :
    c < numBuckets res size ↔ c * size < res := by
  rw [numBuckets_eq hr hs, Int.lt_add_one_iff, Int.le_ediv_iff_mul_le hs]
  omega

/-- The bucket at `c`, `r`, exactly. -/
theorem bucketAt_iff {xRes yRes bw bh : Int} (hx : 0 < xRes) (hy : 0 < yRes) (hw : 0 < bw) (hh : 0 < bh)
    (c r : Int) (b : Bucket) :
    bucketAt (grid xRes yRes bw bh) c r = some b ↔
      0 ≤ c ∧ 0 ≤ r ∧ c * bw < xRes ∧ r * bh < yRes ∧
      b = ⟨c, r, c * bw, r * bh, min (xRes - c * bw) bw, min (yRes - r * bh) bh⟩ := by
  have hcx := lt_numBuckets hx hw c
  have hry := lt_numBuckets hy hh r
  rw [bucketAt]
  by_cases hneg : c < 0 ∨ r < 0
  · rw [if_pos hneg]
    constructor
    · intro h; cases h
    · rintro ⟨h1, h2, -⟩; omega
  · rw [if_neg hneg, grid, gridLoop_get]
    have h1 : ((c.toNat : Nat) : Int) = c := by omega
    have h2 : ((r.toNat : Nat) : Int) = r := by omega
    by_cases hr : r.toNat < (numBuckets yRes bh).toNat
    · rw [if_pos hr, Option.bind_some, rowLoop_get]
      by_cases hc : c.toNat < (numBuckets xRes bw).toNat
      · rw [if_pos hc, h1, h2]
        simp only [Int.zero_add, Option.some.injEq]
        constructor
        · intro e
          exact ⟨by omega, by omega, hcx.1 (by omega), hry.1 (by omega), e.symm⟩
        · rintro ⟨-, -, -, -, e⟩; exact e.symm
      · rw [if_neg hc]
        constructor
        · intro h; cases h
        · rintro ⟨_, _, h, _⟩; have := hcx.2 h; omega
    · rw [if_neg hr]
      constructor
      · intro h; cases h
      · rintro ⟨_, _, _, h, _⟩; have := hry.2 h; omega

/-- Pixel `(px, py)` belongs to the bucket. -/
def Covers (b : Bucket) (px py : Int) : Prop :=
  b.x ≤ px ∧ px < b.x + b.w ∧ b.y ≤ py ∧ py < b.y + b.h

theorem covers_1d {res size p c : Int} (hs : 0 < size) (_hp : 0 ≤ p) (hpr : p < res) :
    (c * size ≤ p ∧ p < c * size + min (res - c * size) size) ↔ c = p / size := by
  constructor
  · rintro ⟨h1, h2⟩
    apply le_antisymm
    · exact (Int.le_ediv_iff_mul_le hs).2 h1
    · apply Int.lt_add_one_iff.1
      rw [Int.ediv_lt_iff_lt_mul hs]
      rw [Int.add_mul]; omega
  · rintro rfl
    have h1 := Int.ediv_mul_le p (ne_of_gt hs)
    have h2 := Int.lt_ediv_add_one_mul_self p hs
    rw [Int.add_mul] at h2
    omega

/-- C45: every pixel of the image lies in exactly one bucket, and each bucket knows its place, is not
empty, is no larger than the bucket size and lies inside the image. -/
theorem C45_tiles {xRes yRes bw bh : Int} (hx : 0 < xRes) (hy : 0 < yRes) (hw : 0 < bw) (hh : 0 < bh) :
    (∀ px py, 0 ≤ px → px < xRes → 0 ≤ py → py < yRes →
      ∃ c r b, (bucketAt (grid xRes yRes bw bh) c r = some b ∧ Covers b px py) ∧
        ∀ c' r' b', bucketAt (grid xRes yRes bw bh) c' r' = some b' → Covers b' px py →
          c' = c ∧ r' = r ∧ b' = b) ∧
    (∀ c r b, bucketAt (grid xRes yRes bw bh) c r = some b →
      b.col = c ∧ b.row = r ∧ 0 ≤ b.x ∧ 0 ≤ b.y ∧ 0 < b.w ∧ 0 < b.h ∧ b.w ≤ bw ∧ b.h ≤ bh ∧
      b.x + b.w ≤ xRes ∧ b.y + b.h ≤ yRes) := by
  constructor
  · intro px py h1 h2 h3 h4
    have hcx := (covers_1d (c := px / bw) hw h1 h2).2 rfl
    have hcy := (covers_1d (c := py / bh) hh h3 h4).2 rfl
    refine ⟨px / bw, py / bh, ⟨px / bw, py / bh, px / bw * bw, py / bh * bh,
      min (xRes - px / bw * bw) bw, min (yRes - py / bh * bh) bh⟩, ⟨?_, ?_⟩, ?_⟩
    · rw [bucketAt_iff hx hy hw hh]
      exact ⟨Int.ediv_nonneg h1 hw.le, Int.ediv_nonneg h3 hh.le, by omega, by omega, rfl⟩
    · exact ⟨hcx.1, hcx.2, hcy.1, hcy.2⟩
    · intro c' r' b' hb hcov
      rw [bucketAt_iff hx hy hw hh] at hb
      obtain ⟨_, _, _, _, rfl⟩ := hb
      obtain ⟨a1, a2, a3, a4⟩ := hcov
      have e1 := (covers_1d hw h1 h2).1 ⟨a1, a2⟩
      have e2 := (covers_1d hh h3 h4).1 ⟨a3, a4⟩
      subst e1 e2
      exact ⟨rfl, rfl, rfl⟩
  · intro c r b hb
    rw [bucketAt_iff hx hy hw hh] at hb
    obtain ⟨h1, h2, h3, h4, rfl⟩ := hb
    have := Int.mul_nonneg h1 hw.le
    have := Int.mul_nonneg h2 hh.le
    refine ⟨rfl, rfl, ?_, ?_, ?_, ?_, ?_, ?_, ?_, ?_⟩ <;> simp only <;> omega

example : bucketAt (grid 20 9 16 16) 1 0 = some ⟨1, 0, 16, 0, 4, 9⟩ := by decide +kernel

/-- Bucket `(c, r)` is in the region of buckets to render. -/
def InRegion (g : Region) (c r : Int) : Prop := g.xMin ≤ c ∧ c < g.xMax ∧ g.yMin ≤ r ∧ r < g.yMax

theorem region_1d {res size lo hi c : Int} (hs : 0 < size) (h0 : 0 ≤ lo) (h1 : lo < hi) (h2 : hi ≤ res) :
    (lo.tdiv size ≤ c ∧ c < (hi - 1).tdiv size + 1) ↔
      0 ≤ c ∧ c * size < res ∧ ∃ p, lo ≤ p ∧ p < hi ∧ c * size ≤ p ∧
        p < c * size + min (res - c * size) size := by
  rw [Int.tdiv_eq_ediv_of_nonneg h0, Int.tdiv_eq_ediv_of_nonneg (by omega)]
  constructor
  · rintro ⟨a, b⟩
    have a' : lo < (c + 1) * size := (Int.ediv_lt_iff_lt_mul hs).1 (by omega)
    have b' : c * size ≤ hi - 1 := (Int.le_ediv_iff_mul_le hs).1 (by omega)
    rw [Int.add_mul] at a'
    have hc : 0 ≤ c := le_trans (Int.ediv_nonneg h0 hs.le) a
    exact ⟨hc, by omega, max lo (c * size), by omega, by omega, by omega, by omega⟩
  · rintro ⟨_, _, p, a1, a2, a3, a4⟩
    have e := (covers_1d hs (by omega) (by omega : p < res)).1 ⟨a3, a4⟩
    subst e
    constructor
    · exact Int.ediv_le_ediv hs a1
    · have := Int.ediv_le_ediv hs (show p ≤ hi - 1 by omega); omega

/-- C45: when the crop window contains a pixel, the region of buckets to render consists of exactly the
buckets with a pixel inside the crop window. -/
theorem C45_region_partial {xRes yRes bw bh : Int} (hw : 0 < bw) (hh : 0 < bh) (crop : Region)
    (hx0 : 0 ≤ crop.xMin) (hx1 : crop.xMin < crop.xMax) (hx2 : crop.xMax ≤ xRes)
    (hy0 : 0 ≤ crop.yMin) (hy1 : crop.yMin < crop.yMax) (hy2 : crop.yMax ≤ yRes) (c r : Int) :
    InRegion (bucketRegion crop bw bh) c r ↔
      ∃ b, bucketAt (grid xRes yRes bw bh) c r = some b ∧ ∃ px py, Covers b px py ∧
        crop.xMin ≤ px ∧ px < crop.xMax ∧ crop.yMin ≤ py ∧ py < crop.yMax := by
  have ex := region_1d (res := xRes) (c := c) hw hx0 hx1 hx2
  have ey := region_1d (res := yRes) (c := r) hh hy0 hy1 hy2
  have hx : 0 < xRes := by omega
  have hy : 0 < yRes := by omega
  constructor
  · rintro ⟨a1, a2, a3, a4⟩
    obtain ⟨c1, c2, px, p1, p2, p3, p4⟩ := ex.1 ⟨a1, a2⟩
    obtain ⟨r1, r2, py, q1, q2, q3, q4⟩ := ey.1 ⟨a3, a4⟩
    exact ⟨_, (bucketAt_iff hx hy hw hh c r _).2 ⟨c1, r1, c2, r2, rfl⟩, px, py,
      ⟨p3, p4, q3, q4⟩, p1, p2, q1, q2⟩
  · rintro ⟨b, hb, px, py, ⟨p3, p4, q3, q4⟩, p1, p2, q1, q2⟩
    rw [bucketAt_iff hx hy hw hh] at hb
    obtain ⟨c1, r1, c2, r2, rfl⟩ := hb
    have hX := ex.2 ⟨c1, c2, px, p1, p2, p3, p4⟩
    have hY := ey.2 ⟨r1, r2, py, q1, q2, q3, q4⟩
    exact ⟨hX.1, hX.2, hY.1, hY.2⟩

example : bucketRegion ⟨10, 0, 20, 9⟩ 16 16 = ⟨0, 0, 2, 1⟩ := by decide

/-- Row-major order. -/
def Before (p q : Int × Int) : Prop := p.2 < q.2 ∨ (p.2 = q.2 ∧ p.1 < q.1)

/-- Number of buckets from `p` on to the end of the region. -/
def left (g : Region) (p : Int × Int) : Int := (g.yMax - 1 - p.2) * (g.xMax - g.xMin) + (g.xMax - p.1)

theorem visits_spec (g : Region) (hx : g.xMin < g.xMax) (n : Nat) (p : Int × Int)
    (hp : InRegion g p.1 p.2) (hn : left g p ≤ n) :
    (visits g n p).Pairwise Before ∧
      ∀ q, q ∈ visits g n p ↔ InRegion g q.1 q.2 ∧ (q = p ∨ Before p q) := by
  induction n generalizing p with
  | zero =>
    exfalso
    obtain ⟨h1, h2, h3, h4⟩ := hp
    have : 0 ≤ (g.yMax - 1 - p.2) * (g.xMax - g.xMin) := Int.mul_nonneg (by omega) (by omega)
    simp only [left, Nat.cast_zero] at hn
    omega
  | succ n ih =>
    obtain ⟨pc, pr⟩ := p
    obtain ⟨h1, h2, h3, h4⟩ := hp
    simp only at h1 h2 h3 h4
    rw [visits]
    simp only [nextBucket]
    by_cases hc : pc + 1 ≥ g.xMax
    · rw [if_pos hc]
      by_cases hr : pr + 1 ≥ g.yMax
      · rw [if_pos hr]
        refine ⟨List.pairwise_singleton _ _, ?_⟩
        rintro ⟨qc, qr⟩
        simp only [List.mem_singleton, Prod.mk.injEq, InRegion, Before]
        omega
      · rw [if_neg hr]
        have hl : left g (g.xMin, pr + 1) ≤ n := by
          have e : (g.yMax - 1 - pr) * (g.xMax - g.xMin) =
            (g.yMax - 1 - (pr + 1)) * (g.xMax - g.xMin) + (g.xMax - g.xMin) := by ring
          simp only [left] at hn ⊢
          push_cast at hn
          omega
        obtain ⟨i1, i2⟩ := ih (g.xMin, pr + 1) ⟨le_refl _, hx, by simp only; omega, by simp only; omega⟩ hl
        refine ⟨List.pairwise_cons.2 ⟨?_, i1⟩, ?_⟩
        · rintro ⟨qc, qr⟩ hq
          have := (i2 _).1 hq
          simp only [Prod.mk.injEq, InRegion, Before] at this ⊢
          omega
        · rintro ⟨qc, qr⟩
          rw [List.mem_cons, i2]
          simp only [Prod.mk.injEq, InRegion, Before]
          omega
    · rw [if_neg hc]
      have hl : left g (pc + 1, pr) ≤ n := by
        simp only [left] at hn ⊢
        push_cast at hn
        omega
      obtain ⟨i1, i2⟩ := ih (pc + 1, pr) ⟨by simp only; omega, by simp only; omega, h3, h4⟩ hl
      refine ⟨List.pairwise_cons.2 ⟨?_, i1⟩, ?_⟩
      · rintro ⟨qc, qr⟩ hq
        have := (i2 _).1 hq
        simp only [Prod.mk.injEq, InRegion, Before] at this ⊢
        omega
      · rintro ⟨qc, qr⟩
        rw [List.mem_cons, i2]
        simp only [Prod.mk.injEq, InRegion, Before]
        omega

/-- C45: for a region that is not empty, rendering processes exactly the buckets of the region, each
once, row by row from the top and from left to right. -/
theorem C45_order_partial (g : Region) (hx : g.xMin < g.xMax) (hy : g.yMin < g.yMax) (n : Nat)
    (hn : (g.xMax - g.xMin) * (g.yMax - g.yMin) ≤ n) :
    (∀ q, q ∈ visits g n (g.xMin, g.yMin) ↔ InRegion g q.1 q.2) ∧
    (visits g n (g.xMin, g.yMin)).Nodup ∧
    (visits g n (g.xMin, g.yMin)).Pairwise
      (fun p q => p.2 < q.2 ∨ (p.2 = q.2 ∧ p.1 < q.1)) := by
  have hl : left g (g.xMin, g.yMin) ≤ n := by
    have : left g (g.xMin, g.yMin) = (g.xMax - g.xMin) * (g.yMax - g.yMin) := by
      simp only [left]; ring
    omega
  obtain ⟨h1, h2⟩ := visits_spec g hx n (g.xMin, g.yMin) ⟨le_refl _, hx, le_refl _, hy⟩ hl
  refine ⟨?_, ?_, h1⟩
  · rintro ⟨qc, qr⟩
    rw [h2]
    simp only [Prod.mk.injEq, InRegion, Before]
    omega
  · refine h1.imp ?_
    rintro ⟨a, b⟩ ⟨c, d⟩ h e
    simp only [Before, Prod.mk.injEq] at h e
    omega

example : visits ⟨1, 0, 3, 2⟩ 9 (1, 0) = [(1, 0), (2, 0), (1, 1), (2, 1)] := by decide

/-- C45, negation: `CropWindow 0.99 1 0 1` passes the argument checks (libs/riutil/ricxx_validate.cpp:
725-771), but at 16 by 16 pixels no pixel is left, and the first bucket processed does not exist
(`m_Buckets[0][1]` is read out of range). -/
theorem C45_empty_crop_violated :
    ∃ x0 x1 y0 y1 : ℚ, 0 ≤ x0 ∧ x0 < x1 ∧ x1 ≤ 1 ∧ 0 ≤ y0 ∧ y0 < y1 ∧ y1 ≤ 1 ∧
      ∃ c r, (visits (bucketRegion (cropWindow 16 16 x0 x1 y0 y1) 16 16) 1
        ((bucketRegion (cropWindow 16 16 x0 x1 y0 y1) 16 16).xMin,
         (bucketRegion (cropWindow 16 16 x0 x1 y0 y1) 16 16).yMin)).head? = some (c, r) ∧
        bucketAt (grid 16 16 16 16) c r = none := by
  refine ⟨99 / 100, 1, 0, 1, by norm_num, by norm_num, by norm_num, by norm_num, by norm_num, by norm_num,
    1, 0, ?_, ?_⟩ <;> decide +kernel

/-- C45: a non-empty crop window lies inside the image. -/
theorem C45_crop {res : Int} (hr : 0 ≤ res) (c0 c1 : ℚ) (h : c0 < c1) :
    0 ≤ cropPixel res c0 ∧ cropPixel res c0 ≤ cropPixel res c1 ∧ cropPixel res c1 ≤ res ∧
    (∀ p : Int, 0 ≤ p → p < res →
      ((cropPixel res c0 ≤ p ∧ p < cropPixel res c1) ↔ (res * c0 ≤ p ∧ (p : ℚ) < res * c1))) := by
  have hm : (res : ℚ) * c0 ≤ res * c1 :=
    mul_le_mul_of_nonneg_left h.le (by exact_mod_cast hr)
  have hc := Int.ceil_mono hm
  have A : ∀ c, cropPixel res c = max 0 (min ⌈(res : ℚ) * c⌉ res) := by
    intro c; rw [cropPixel, clamp]; split_ifs <;> omega
  rw [A, A]
  refine ⟨by omega, by omega, by omega, ?_⟩
  intro p h0 h1
  rw [← Int.ceil_le, ← Int.lt_ceil]
  omega

example : cropPixel 100 (1/4) = 25 := by decide +kernel

end Verif.Core.Buckets
