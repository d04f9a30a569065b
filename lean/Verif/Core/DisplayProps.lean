import Mathlib.Tactic.NormNum
import Mathlib.Algebra.Order.Field.Rat
import Verif.Core.BucketsProps
import Verif.Core.DisplayLemmas
/-!
# C69: from the finished buckets to the display
-/
namespace Verif.Core.Display
open Verif.Core.Buckets (Region)

/-! ## Buckets -/

/-- The display region of the bucket in column `p.1` and row `p.2`. -/
def regionOf (xRes yRes bw bh : Int) (p : Int × Int) : Region :=
  ⟨p.1 * bw, p.2 * bh, p.1 * bw + min (xRes - p.1 * bw) bw, p.2 * bh + min (yRes - p.2 * bh) bh⟩

/-- A crop window inside of the image that is not empty. -/
structure GoodCrop (xRes yRes : Int) (crop : Region) : Prop where
  x0 : 0 ≤ crop.xMin
  x1 : crop.xMin < crop.xMax
  x2 : crop.xMax ≤ xRes
  y0 : 0 ≤ crop.yMin
  y1 : crop.yMin < crop.yMax
  y2 : crop.yMax ≤ yRes

theorem region_nonempty {xRes yRes bw bh : Int} (hw : 0 < bw) (hh : 0 < bh) {crop : Region}
    (hc : GoodCrop xRes yRes crop) :
    (Buckets.bucketRegion crop bw bh).xMin < (Buckets.bucketRegion crop bw bh).xMax ∧
    (Buckets.bucketRegion crop bw bh).yMin < (Buckets.bucketRegion crop bw bh).yMax := by
  obtain ⟨a0, a1, a2, b0, b1, b2⟩ := hc
  simp only [Buckets.bucketRegion]
  rw [Int.tdiv_eq_ediv_of_nonneg a0, Int.tdiv_eq_ediv_of_nonneg b0,
    Int.tdiv_eq_ediv_of_nonneg (by omega), Int.tdiv_eq_ediv_of_nonneg (by omega)]
  have h1 := Int.ediv_le_ediv hw (show crop.xMin ≤ crop.xMax - 1 by omega)
  have h2 := Int.ediv_le_ediv hh (show crop.yMin ≤ crop.yMax - 1 by omega)
  omega

theorem regionOf_bucket {xRes yRes bw bh : Int} (hw : 0 < bw) (hh : 0 < bh) {crop : Region}
    (hc : GoodCrop xRes yRes crop) {p : Int × Int}
    (hp : Buckets.InRegion (Buckets.bucketRegion crop bw bh) p.1 p.2) :
    (Buckets.bucketAt (Buckets.grid xRes yRes bw bh) p.1 p.2).map bucketDisplay =
      some (regionOf xRes yRes bw bh p) ∧ Overlaps crop (regionOf xRes yRes bw bh p) := by
  obtain ⟨b, hb, px, py, ⟨c1, c2, c3, c4⟩, d1, d2, d3, d4⟩ :=
    (Buckets.C45_region_partial (xRes := xRes) (yRes := yRes) hw hh crop hc.x0 hc.x1 hc.x2 hc.y0 hc.y1
      hc.y2 p.1 p.2).1 hp
  have hb' := hb
  rw [Buckets.bucketAt_iff (by have := hc.x0; have := hc.x1; have := hc.x2; omega)
    (by have := hc.y0; have := hc.y1; have := hc.y2; omega) hw hh] at hb'
  obtain ⟨_, _, _, _, rfl⟩ := hb'
  rw [hb]
  refine ⟨rfl, ?_⟩
  simp only at c1 c2 c3 c4
  simp only [Overlaps, regionOf]
  omega

theorem renderedRegions_eq {xRes yRes bw bh : Int} (hw : 0 < bw) (hh : 0 < bh) {crop : Region}
    (hc : GoodCrop xRes yRes crop) (n : Nat)
    (hn : ((Buckets.bucketRegion crop bw bh).xMax - (Buckets.bucketRegion crop bw bh).xMin) *
      ((Buckets.bucketRegion crop bw bh).yMax - (Buckets.bucketRegion crop bw bh).yMin) ≤ n) :
    renderedRegions xRes yRes bw bh crop n =
      some ((Buckets.visits (Buckets.bucketRegion crop bw bh) n
        ((Buckets.bucketRegion crop bw bh).xMin, (Buckets.bucketRegion crop bw bh).yMin)).map
          (regionOf xRes yRes bw bh)) := by
  obtain ⟨g1, g2⟩ := region_nonempty hw hh hc
  obtain ⟨v1, -, -⟩ := Buckets.C45_order_partial _ g1 g2 n hn
  unfold renderedRegions
  dsimp only
  apply mapM_some_of
  intro p hp
  exact (regionOf_bucket hw hh hc ((v1 p).1 hp)).1

theorem part_mono {res size c c' : Int} (hs : 0 < size) (h : c ≤ c') :
    min (res - c' * size) size ≤ min (res - c * size) size := by
  have := mul_le_mul_of_nonneg_right h hs.le
  omega

/-- C69: when the display takes the buckets as they come, the file holds at the end, for every pixel of
the crop window, the pixel of the picture, and no access leaves its block of memory; `n` is at least
the number of buckets. -/
theorem C69_buckets {α : Type} {xRes yRes bw bh : Int} (hw : 0 < bw) (hh : 0 < bh) (crop : Region)
    (hx0 : 0 ≤ crop.xMin) (hx1 : crop.xMin < crop.xMax) (hx2 : crop.xMax ≤ xRes)
    (hy0 : 0 ≤ crop.yMin) (hy1 : crop.yMin < crop.yMax) (hy2 : crop.yMax ≤ yRes)
    (pic : Int → Int → α) (n : Nat)
    (hn : ((Buckets.bucketRegion crop bw bh).xMax - (Buckets.bucketRegion crop bw bh).xMin) *
      ((Buckets.bucketRegion crop bw bh).yMax - (Buckets.bucketRegion crop bw bh).yMin) ≤ n) :
    ∃ f, renderToFile xRes yRes bw bh crop false pic n = some f ∧
      f.width = crop.xMax - crop.xMin ∧ f.height = crop.yMax - crop.yMin ∧
      ∀ x y, crop.xMin ≤ x → x < crop.xMax → crop.yMin ≤ y → y < crop.yMax →
        f.mem ((y - crop.yMin) * (crop.xMax - crop.xMin) + (x - crop.xMin)) = some (pic x y) := by
  have hc : GoodCrop xRes yRes crop := ⟨hx0, hx1, hx2, hy0, hy1, hy2⟩
  obtain ⟨g1, g2⟩ := region_nonempty hw hh hc
  obtain ⟨v1, -, -⟩ := Buckets.C45_order_partial _ g1 g2 n hn
  unfold renderToFile
  rw [renderedRegions_eq hw hh hc n hn, Option.bind_some]
  obtain ⟨r', m', e1, e2⟩ := sendAll_buckets crop hx1.le pic
    (area (regionOf xRes yRes bw bh
      ((Buckets.bucketRegion crop bw bh).xMin, (Buckets.bucketRegion crop bw bh).yMin)))
    ((Buckets.visits (Buckets.bucketRegion crop bw bh) n
        ((Buckets.bucketRegion crop bw bh).xMin, (Buckets.bucketRegion crop bw bh).yMin)).map
          (regionOf xRes yRes bw bh)) (by
      intro reg hreg
      obtain ⟨p, hp, rfl⟩ := List.mem_map.1 hreg
      have hp' := (v1 p).1 hp
      obtain ⟨-, ho⟩ := regionOf_bucket hw hh hc hp'
      refine ⟨ho, ?_⟩
      obtain ⟨p1, p2, p3, p4⟩ := hp'
      obtain ⟨o1, o2, -⟩ := ho
      have m1 := part_mono (res := xRes) hw p1
      have m2 := part_mono (res := yRes) hh p3
      simp only [area, regionOf] at o1 o2 ⊢
      simp only [add_sub_cancel_left]
      exact mul_le_mul m1 m2 (by omega) (by omega))
    (openReq α crop false) (openImage α xRes yRes crop) rfl (Or.inr ⟨rfl, by
      intro reg hreg
      cases n with
      | zero =>
        exfalso
        have := mul_pos (sub_pos.2 g1) (sub_pos.2 g2)
        omega
      | succ n =>
        simp only [Buckets.visits, List.map_cons, List.head?_cons, Option.some.injEq] at hreg
        rw [← hreg]⟩) ⟨rfl, rfl, rfl, rfl⟩ (by
      rintro ⟨a, b⟩
      simp only [openImage] at a b ⊢
      omega)
  rw [e1]
  refine ⟨_, rfl, rfl, rfl, ?_⟩
  intro x y a1 a2 a3 a4
  obtain ⟨k1, -⟩ := e2 (x - crop.xMin) (y - crop.yMin) (by omega) (by simp only [openImage]; omega)
    (by omega) (by simp only [openImage]; omega)
  have := k1 (by
    have hx : 0 < xRes := by omega
    have hy : 0 < yRes := by omega
    obtain ⟨tiles, -⟩ := Buckets.C45_tiles hx hy hw hh
    obtain ⟨c, r, b, ⟨hb, hcov⟩, -⟩ := tiles x y (by omega) (by omega) (by omega) (by omega)
    have hin := (Buckets.C45_region_partial (xRes := xRes) (yRes := yRes) hw hh crop hx0 hx1 hx2 hy0 hy1
      hy2 c r).2 ⟨b, hb, x, y, hcov, a1, a2, a3, a4⟩
    refine ⟨_, List.mem_map.2 ⟨(c, r), (v1 (c, r)).2 hin, rfl⟩, ?_⟩
    rw [Buckets.bucketAt_iff hx hy hw hh] at hb
    obtain ⟨_, _, _, _, rfl⟩ := hb
    obtain ⟨q1, q2, q3, q4⟩ := hcov
    simp only [openImage, Inside, regionOf] at q1 q2 q3 q4 ⊢
    omega)
  simp only [openImage] at this
  rw [show x - crop.xMin + crop.xMin = x by omega, show y - crop.yMin + crop.yMin = y by omega] at this
  exact this

example : (renderToFile 5 4 2 3 ⟨1, 1, 4, 4⟩ false (fun x y => (x, y)) 10).map
    (fun f => (intRange 0 10).map f.mem) =
    some [some (1, 1), some (2, 1), some (3, 1), some (1, 2), some (2, 2), some (3, 2),
      some (1, 3), some (2, 3), some (3, 3), none] := by decide +kernel

/-! ## Scan lines -/

theorem numBuckets_region (xRes yRes bw bh : Int) :
    Buckets.bucketRegion ⟨0, 0, xRes, yRes⟩ bw bh =
      ⟨0, 0, Buckets.numBuckets xRes bw, Buckets.numBuckets yRes bh⟩ := by
  simp [Buckets.bucketRegion, Buckets.numBuckets]

/-- What holds when the bucket `p` is the next one: the block of lines is filled to the left of it, the
file is filled above it. -/
structure Inv {α : Type} (xRes yRes bw bh : Int) (pic : Int → Int → α) (p : Int × Int) (r : Req α)
    (f : File α) : Prop where
  req : r.width = xRes ∧ r.height = yRes ∧ r.scanline = true
  cap : r.bucketCap.getD (area (regionOf xRes yRes bw bh p)) = area (regionOf xRes yRes bw bh (0, 0))
  file : f.width = xRes ∧ f.height = yRes ∧ f.ox = 0 ∧ f.oy = 0
  row : ∀ x y, 0 ≤ x → x < p.1 * bw → x < xRes → p.2 * bh ≤ y →
    y < p.2 * bh + min (yRes - p.2 * bh) bh → r.row ((y - p.2 * bh) * xRes + x) = some (pic x y)
  mem : ∀ x y, 0 ≤ x → x < xRes → 0 ≤ y → y < p.2 * bh → y < yRes →
    f.mem (y * xRes + x) = some (pic x y)

theorem sendAll_lines {α : Type} {xRes yRes bw bh : Int} (hx : 0 < xRes) (hy : 0 < yRes) (hw : 0 < bw)
    (hh : 0 < bh) (pic : Int → Int → α) (n : Nat) (p : Int × Int)
    (hp : Buckets.InRegion ⟨0, 0, Buckets.numBuckets xRes bw, Buckets.numBuckets yRes bh⟩ p.1 p.2)
    (hn : Buckets.left ⟨0, 0, Buckets.numBuckets xRes bw, Buckets.numBuckets yRes bh⟩ p ≤ n)
    (r : Req α) (f : File α) (hi : Inv xRes yRes bw bh pic p r f) :
    ∃ r' f', sendAll ⟨0, 0, xRes, yRes⟩ pic
        ((Buckets.visits ⟨0, 0, Buckets.numBuckets xRes bw, Buckets.numBuckets yRes bh⟩ n p).map
          (regionOf xRes yRes bw bh)) r f = some (r', f') ∧
      f'.width = xRes ∧ f'.height = yRes ∧
      ∀ x y, 0 ≤ x → x < xRes → 0 ≤ y → y < yRes → f'.mem (y * xRes + x) = some (pic x y) := by
  induction n generalizing p r f with
  | zero =>
    exfalso
    obtain ⟨h1, h2, h3, h4⟩ := hp
    simp only at h1 h2 h3 h4
    have : 0 ≤ (Buckets.numBuckets yRes bh - 1 - p.2) * (Buckets.numBuckets xRes bw - 0) :=
      Int.mul_nonneg (by omega) (by omega)
    simp only [Buckets.left, Nat.cast_zero] at hn
    omega
  | succ n ih =>
    obtain ⟨pc, pr⟩ := p
    obtain ⟨h1, h2, h3, h4⟩ := hp
    simp only at h1 h2 h3 h4
    have lx : ∀ c, c < Buckets.numBuckets xRes bw ↔ c * bw < xRes := Buckets.lt_numBuckets hx hw
    have ly : ∀ c, c < Buckets.numBuckets yRes bh ↔ c * bh < yRes := Buckets.lt_numBuckets hy hh
    have bx := (lx pc).1 h2
    have bY := (ly pr).1 h4
    have b0 := mul_nonneg h1 hw.le
    have b1 := mul_nonneg h3 hh.le
    have ex : (pc + 1) * bw = pc * bw + bw := by ring
    have ey : (pr + 1) * bh = pr * bh + bh := by ring
    obtain ⟨q1, q2, q3, q4, q5⟩ := hi
    obtain ⟨row', s1, line, s2, s3⟩ := displayBucket_row xRes yRes (regionOf xRes yRes bw bh (pc, pr)) pic r
      (area (regionOf xRes yRes bw bh (0, 0))) q1 q2 (by
        have m1 := part_mono (res := xRes) hw h1
        have m2 := part_mono (res := yRes) hh h3
        simp only [area, regionOf, add_sub_cancel_left] at m1 m2 ⊢
        exact mul_le_mul m1 m2 (by omega) (by omega))
      (by simp only [regionOf]; omega) (by simp only [regionOf]; omega) (by simp only [regionOf]; omega)
      (by simp only [regionOf]; omega) (by simp only [regionOf]; omega) (by simp only [regionOf]; omega)
    -- the block of lines is filled up to the right edge of the bucket
    have hrow : ∀ x y, 0 ≤ x → x < (pc + 1) * bw → x < xRes → pr * bh ≤ y →
        y < pr * bh + min (yRes - pr * bh) bh → row' ((y - pr * bh) * xRes + x) = some (pic x y) := by
      intro x y a1 a2 a3 a4 a5
      obtain ⟨k1, k2⟩ := s1 x y a1 a3 a4 a5
      by_cases hin : (regionOf xRes yRes bw bh (pc, pr)).xMin ≤ x ∧
          x < (regionOf xRes yRes bw bh (pc, pr)).xMax
      · exact k1 hin
      · have e := k2 hin
        simp only [regionOf] at e hin
        rw [e]
        exact q4 x y a1 (by simp only; omega) a3 a4 a5
    rw [Buckets.visits]
    simp only [Buckets.nextBucket]
    by_cases hc : pc + 1 ≥ Buckets.numBuckets xRes bw
    · -- the last bucket of the row
      have hfull : xRes ≤ (pc + 1) * bw := by
        by_contra hlt
        have := (lx (pc + 1)).2 (by omega)
        omega
      have hxm : (regionOf xRes yRes bw bh (pc, pr)).xMax ≥ xRes := by
        simp only [regionOf]; omega
      rw [if_pos hxm] at s2
      obtain ⟨m', t1, t2⟩ := imageCalls_lines pic line
        (intRange (regionOf xRes yRes bw bh (pc, pr)).yMin (regionOf xRes yRes bw bh (pc, pr)).yMax) f
        ⟨q3.2.2.1, q3.2.2.2⟩ (by omega) (by
          intro y hyin
          rw [mem_intRange] at hyin
          obtain ⟨u1, u2, u3, u4, u5⟩ := s3 y hyin.1 hyin.2
          refine ⟨u1, by rw [u2, q3.1], u3, u4, ?_⟩
          intro x a1 a2
          rw [u5 x a1 (by omega)]
          have := hrow x y a1 (by omega) (by omega) hyin.1 hyin.2
          simp only [regionOf]
          rw [this])
      have hmem : ∀ x y, 0 ≤ x → x < xRes → 0 ≤ y → y < (pr + 1) * bh → y < yRes →
          m' (y * xRes + x) = some (pic x y) := by
        intro x y a1 a2 a3 a4 a5
        obtain ⟨k1, k2⟩ := t2 x y a1 (by omega) a3 (by omega)
        rw [q3.1] at k1 k2
        rw [mem_intRange] at k1 k2
        by_cases hin : (regionOf xRes yRes bw bh (pc, pr)).yMin ≤ y ∧
            y < (regionOf xRes yRes bw bh (pc, pr)).yMax
        · exact k1 hin
        · rw [k2 hin]
          simp only [regionOf] at hin
          exact q5 x y a1 a2 a3 (by simp only; omega) a5
      rw [if_pos hc]
      by_cases hr : pr + 1 ≥ Buckets.numBuckets yRes bh
      · rw [if_pos hr]
        have hfull' : yRes ≤ (pr + 1) * bh := by
          by_contra hlt
          have := (ly (pr + 1)).2 (by omega)
          omega
        refine ⟨{ r with bucketCap := some (area (regionOf xRes yRes bw bh (0, 0))), row := row' },
          { f with mem := m' }, ?_, q3.1, q3.2.1, ?_⟩
        · simp only [List.map_cons, List.map_nil]
          unfold sendAll
          rw [s2, Option.bind_some]
          simp only
          rw [t1, Option.bind_some]
          rfl
        · intro x y a1 a2 a3 a4
          exact hmem x y a1 a2 a3 (by omega) a4
      · rw [if_neg hr]
        obtain ⟨r', f', i1, i2⟩ := ih (0, pr + 1) ⟨le_refl _, by simp only; omega, by simp only; omega,
            by simp only; omega⟩ (by
            have e : (Buckets.numBuckets yRes bh - 1 - pr) * (Buckets.numBuckets xRes bw - 0) =
              (Buckets.numBuckets yRes bh - 1 - (pr + 1)) * (Buckets.numBuckets xRes bw - 0) +
                Buckets.numBuckets xRes bw := by ring
            simp only [Buckets.left] at hn ⊢
            push_cast at hn
            omega)
          { r with bucketCap := some (area (regionOf xRes yRes bw bh (0, 0))), row := row' }
          { f with mem := m' } ⟨q1, rfl, q3, by
            intro x y a1 a2
            simp only [Int.zero_mul] at a2
            omega, fun x y a1 a2 a3 a4 a5 => hmem x y a1 a2 a3 a4 a5⟩
        refine ⟨r', f', ?_, i2⟩
        rw [List.map_cons]
        unfold sendAll
        rw [s2, Option.bind_some]
        simp only
        rw [t1, Option.bind_some]
        exact i1
    · -- not yet the last one
      have hlt := (lx (pc + 1)).1 (by omega)
      have hxm : ¬ (regionOf xRes yRes bw bh (pc, pr)).xMax ≥ xRes := by
        simp only [regionOf]; omega
      rw [if_neg hxm] at s2
      rw [if_neg hc]
      obtain ⟨r', f', i1, i2⟩ := ih (pc + 1, pr) ⟨by simp only; omega, by simp only; omega, h3, h4⟩ (by
          simp only [Buckets.left] at hn ⊢
          push_cast at hn
          omega)
        { r with bucketCap := some (area (regionOf xRes yRes bw bh (0, 0))), row := row' } f
        ⟨q1, rfl, q3, hrow, q5⟩
      refine ⟨r', f', ?_, i2⟩
      rw [List.map_cons]
      unfold sendAll
      rw [s2, Option.bind_some]
      exact i1

/-- C69: when the display wants scan lines and the image is not cropped, the file holds the whole
picture at the end, and no access leaves its block of memory. What is missing: crop windows, see
`C69_scanline_crop_violated`. -/
theorem C69_scanline_partial {α : Type} {xRes yRes bw bh : Int} (hx : 0 < xRes) (hy : 0 < yRes)
    (hw : 0 < bw) (hh : 0 < bh) (pic : Int → Int → α) (n : Nat)
    (hn : ((xRes - 1) / bw + 1) * ((yRes - 1) / bh + 1) ≤ n) :
    ∃ f, renderToFile xRes yRes bw bh ⟨0, 0, xRes, yRes⟩ true pic n = some f ∧
      f.width = xRes ∧ f.height = yRes ∧
      ∀ x y, 0 ≤ x → x < xRes → 0 ≤ y → y < yRes → f.mem (y * xRes + x) = some (pic x y) := by
  have hc : GoodCrop xRes yRes ⟨0, 0, xRes, yRes⟩ := ⟨le_rfl, hx, le_rfl, le_rfl, hy, le_rfl⟩
  rw [← Buckets.numBuckets_eq hx hw, ← Buckets.numBuckets_eq hy hh] at hn
  have hg := region_nonempty hw hh hc
  unfold renderToFile
  rw [renderedRegions_eq hw hh hc n (by rw [numBuckets_region]; simpa using hn), Option.bind_some]
  rw [numBuckets_region] at hg ⊢
  simp only at hg
  obtain ⟨r', f', e1, e2, e3, e4⟩ := sendAll_lines hx hy hw hh pic n (0, 0)
    ⟨le_rfl, hg.1, le_rfl, hg.2⟩ (by
      have : Buckets.left ⟨0, 0, Buckets.numBuckets xRes bw, Buckets.numBuckets yRes bh⟩ (0, 0) =
        Buckets.numBuckets xRes bw * Buckets.numBuckets yRes bh := by
        simp only [Buckets.left]; ring
      omega)
    (openReq α ⟨0, 0, xRes, yRes⟩ true) (openImage α xRes yRes ⟨0, 0, xRes, yRes⟩)
    ⟨by simp [openReq], rfl, by simp [openImage], by
      intro x y a1 a2
      simp only [Int.zero_mul] at a2
      omega, by
      intro x y a1 a2 a3 a4
      simp only [Int.zero_mul] at a4
      omega⟩
  simp only [e1]
  exact ⟨f', rfl, e2, e3, e4⟩

example : (renderToFile 3 4 2 3 ⟨0, 0, 3, 4⟩ true (fun x y => (x, y)) 10).map
    (fun f => (intRange 0 13).map f.mem) =
    some [some (0, 0), some (1, 0), some (2, 0), some (0, 1), some (1, 1), some (2, 1),
      some (0, 2), some (1, 2), some (2, 2), some (0, 3), some (1, 3), some (2, 3), none] := by
  decide +kernel

/-- C69, negation: with a crop window, a display that wants scan lines (`Display "f" "file" "rgb" "int
scanlineorder" [1]`) makes the renderer write outside of its block, or pixels are missing.  The buckets
are put into the block of lines at their position in the whole image, although the block is only as
wide as the crop window.  In the first example (image of 8 by 2, buckets of 2 by 2, the right half) the
block is left; in the second (image of 6 by 2, buckets of 4 by 1, columns 1 to 4) pixel (4, 0) of the
crop window never reaches the file. -/
theorem C69_scanline_crop_violated :
    (GoodCrop 8 2 ⟨4, 0, 8, 2⟩ ∧
      (renderToFile 8 2 2 2 ⟨4, 0, 8, 2⟩ true (fun x y => (x, y)) 10).isNone = true) ∧
    (GoodCrop 6 2 ⟨1, 0, 5, 2⟩ ∧
      (renderToFile 6 2 4 1 ⟨1, 0, 5, 2⟩ true (fun x y => (x, y)) 10).map
        (fun f => f.mem ((0 - 0) * (5 - 1) + (4 - 1))) = some none) := by
  refine ⟨⟨⟨?_, ?_, ?_, ?_, ?_, ?_⟩, ?_⟩, ⟨⟨?_, ?_, ?_, ?_, ?_, ?_⟩, ?_⟩⟩ <;> decide +kernel

/-! ## Quantization -/

/-- The integers of a format. -/
def range : Fmt → Option (Int × Int)
  | .f32 => none
  | .u32 => some (0, 2^32 - 1)
  | .s32 => some (-2^31, 2^31 - 1)
  | .u16 => some (0, 2^16 - 1)
  | .s16 => some (-2^15, 2^15 - 1)
  | .u8 => some (0, 2^8 - 1)
  | .s8 => some (-2^7, 2^7 - 1)

/-- The size of a format in bits. -/
def bits : Fmt → Nat
  | .f32 | .u32 | .s32 => 32
  | .u16 | .s16 => 16
  | .u8 | .s8 => 8

/-- All integers from `lo` to `hi` are numbers of the format. -/
def Fits (f : Fmt) (lo hi : Int) : Prop := ∃ a b, range f = some (a, b) ∧ a ≤ lo ∧ hi ≤ b

/-- C69: the format chosen for a quantized display holds all integers from min to max if 32 bits are
enough, and no smaller one does. -/
theorem C69_select (one : ℚ) (h1 : one ≠ 0) (lo hi : Int)
    (hfit : Fits .u32 lo hi ∨ Fits .s32 lo hi) :
    Fits (selectDataFormat one lo hi) lo hi ∧
      ∀ g, Fits g lo hi → bits (selectDataFormat one lo hi) ≤ bits g := by
  have key : lo < 0 → hi ≤ 2^31 - 1 ∧ -2^31 ≤ lo := by
    intro hneg
    rcases hfit with ⟨a, b, e, h, h'⟩ | ⟨a, b, e, h, h'⟩ <;>
    · simp only [range, Option.some.injEq, Prod.mk.injEq] at e
      omega
  have key2 : hi ≤ 2^32 - 1 := by
    rcases hfit with ⟨a, b, e, h, h'⟩ | ⟨a, b, e, h, h'⟩ <;>
    · simp only [range, Option.some.injEq, Prod.mk.injEq] at e
      omega
  have c1 : ((0 : ℚ) ≤ (lo : ℚ)) ↔ 0 ≤ lo := by exact_mod_cast Iff.rfl
  have c2 : ((hi : ℚ) ≤ 255) ↔ hi ≤ 255 := by exact_mod_cast Iff.rfl
  have c3 : ((hi : ℚ) ≤ 65535) ↔ hi ≤ 65535 := by exact_mod_cast Iff.rfl
  have c4 : ((-128 : ℚ) ≤ (lo : ℚ)) ↔ -128 ≤ lo := by exact_mod_cast Iff.rfl
  have c5 : ((hi : ℚ) ≤ 127) ↔ hi ≤ 127 := by exact_mod_cast Iff.rfl
  have c6 : ((-32768 : ℚ) ≤ (lo : ℚ)) ↔ -32768 ≤ lo := by exact_mod_cast Iff.rfl
  have c7 : ((hi : ℚ) ≤ 32767) ↔ hi ≤ 32767 := by exact_mod_cast Iff.rfl
  unfold selectDataFormat
  rw [if_neg h1]
  simp only [c1, c2, c3, c4, c5, c6, c7]
  split_ifs with d1 d2 d3 d4 d5 <;> refine ⟨⟨_, _, rfl, ?_, ?_⟩, ?_⟩ <;> try omega
  all_goals
    intro g hg
    obtain ⟨a, b, e, h, h'⟩ := hg
    cases g <;> simp only [range, Option.some.injEq, Prod.mk.injEq, reduceCtorEq] at e <;>
      simp only [bits] <;> omega

example : selectDataFormat 255 0 255 = .u8 ∧ selectDataFormat 1 (-200) 5 = .s16 := by decide +kernel

/-- C69: without quantization the display gets floats, and the values as they are. -/
theorem C69_float (q : Quant) (h : q.one = 0) (s v : ℚ) :
    formatValue q (selectDataFormat q.one q.min q.max) s v = some v := by
  unfold formatValue quantize selectDataFormat
  rw [if_neg (by simpa using h), if_pos h]
  rfl

example : formatValue ⟨0, 0, 0, 0, 0⟩ (selectDataFormat 0 0 0) 0 (1/3) = some (1/3) := by decide +kernel

theorem lround_spec {t : ℚ} (h : |t| ≤ 2^62) :
    ∃ k : Int, lround t = some k ∧ |(k : ℚ) - t| ≤ 1/2 := by
  obtain ⟨ha, hb⟩ := abs_le.1 h
  have hr : ∃ k : Int, (if 0 ≤ t then ⌊t + 1/2⌋ else ⌈t - 1/2⌉) = k ∧ |(k : ℚ) - t| ≤ 1/2 := by
    split_ifs with h0
    · refine ⟨_, rfl, ?_⟩
      have a1 := Int.floor_le (t + 1/2)
      have a2 := Int.lt_floor_add_one (t + 1/2)
      rw [abs_le]
      constructor <;> linarith
    · refine ⟨_, rfl, ?_⟩
      have a1 := Int.le_ceil (t - 1/2)
      have a2 := Int.ceil_lt_add_one (t - 1/2)
      rw [abs_le]
      constructor <;> linarith
  obtain ⟨k, e, hk⟩ := hr
  refine ⟨k, ?_, hk⟩
  obtain ⟨k1, k2⟩ := abs_le.1 hk
  unfold lround
  dsimp only
  rw [e, if_pos]
  constructor
  · have : (-2^63 : ℚ) ≤ (k : ℚ) := by norm_num at *; linarith
    exact_mod_cast this
  · have : (k : ℚ) < (2^63 : ℚ) := by norm_num at *; linarith
    exact_mod_cast this

theorem castTo_int {a b k : Int} (h : a ≤ k) (h' : k ≤ b) : castTo a b (k : ℚ) = some k := by
  unfold castTo
  simp only [Int.floor_intCast, Int.ceil_intCast, ite_self]
  rw [if_pos ⟨h, h'⟩]

theorem clampQ_int {k a b : Int} (h : a ≤ k) (h' : k ≤ b) : clampQ (k : ℚ) a b = k := by
  have h1 : (a : ℚ) ≤ k := by exact_mod_cast h
  have h2 : (k : ℚ) ≤ b := by exact_mod_cast h'
  unfold clampQ
  rw [if_neg (by linarith), if_neg (by linarith)]

theorem store_int {f : Fmt} {lo hi k : Int} (hf : Fits f lo hi) (h : lo ≤ k) (h' : k ≤ hi) :
    store f (k : ℚ) = some (k : ℚ) := by
  obtain ⟨a, b, e, ha, hb⟩ := hf
  cases f <;> simp only [range, Option.some.injEq, Prod.mk.injEq, reduceCtorEq] at e <;>
    obtain ⟨rfl, rfl⟩ := e <;> simp only [store]
  · have := clampQ_int (k := k) (a := 0) (b := 4294967295) (by omega) (by omega)
    push_cast at this
    rw [this, castTo_int (by omega) (by omega)]
    rfl
  · have := clampQ_int (k := k) (a := -2147483648) (b := 2147483647) (by omega) (by omega)
    push_cast at this
    rw [this, castTo_int (by omega) (by omega)]
    rfl
  all_goals
    rw [castTo_int (by omega) (by omega)]
    rfl

/-- C69: if min and max are integers within 32 bits, a quantized value in the format that the renderer
chooses is an integer from min to max: the nearest to `zero + value * (one - zero) + dither * s` when
that lies between them, otherwise the nearer limit. `s` is the random number of the pixel. -/
theorem C69_quantize (q : Quant) (h1 : q.one ≠ 0) (lo hi : Int) (hlo : q.min = lo) (hhi : q.max = hi)
    (hle : lo ≤ hi) (hfit : Fits .u32 lo hi ∨ Fits .s32 lo hi) (s v t : ℚ)
    (ht : t = q.zero + v * (q.one - q.zero) + q.dither * s) (hbig : |t| ≤ 2^62) :
    ∃ k : Int, formatValue q (selectDataFormat q.one q.min q.max) s v = some (k : ℚ) ∧
      lo ≤ k ∧ k ≤ hi ∧ ((lo : ℚ) ≤ t → t ≤ hi → |(k : ℚ) - t| ≤ 1/2) ∧
      (t ≤ lo → k = lo) ∧ ((hi : ℚ) ≤ t → k = hi) := by
  obtain ⟨j, ej, hj⟩ := lround_spec hbig
  obtain ⟨j1, j2⟩ := abs_le.1 hj
  have hq : quantize q s v = some (clampQ (j : ℚ) lo hi) := by
    unfold quantize
    rw [if_pos h1, ← ht, ej, hlo, hhi]
    rfl
  have hfits := (C69_select q.one h1 lo hi hfit).1
  have fin : ∀ k : Int, clampQ (j : ℚ) lo hi = (k : ℚ) → lo ≤ k → k ≤ hi →
      formatValue q (selectDataFormat q.one q.min q.max) s v = some (k : ℚ) := by
    intro k e a b
    unfold formatValue
    rw [hq, Option.bind_some, e, hlo, hhi]
    exact store_int hfits a b
  by_cases c1 : j < lo
  · have c1' : (j : ℚ) + 1 ≤ lo := by exact_mod_cast c1
    refine ⟨lo, fin lo (by unfold clampQ; rw [if_pos (by exact_mod_cast c1)]) le_rfl hle, le_rfl, hle, ?_,
      fun _ => rfl, ?_⟩
    · intro a b
      linarith
    · intro a
      have : (lo : ℚ) ≤ hi := by exact_mod_cast hle
      linarith
  · by_cases c2 : j > hi
    · have c2' : (hi : ℚ) + 1 ≤ j := by exact_mod_cast c2
      have c1' : (lo : ℚ) ≤ j := by exact_mod_cast not_lt.1 c1
      refine ⟨hi, fin hi (by
        unfold clampQ
        rw [if_neg (by linarith), if_pos (by exact_mod_cast c2)]) hle le_rfl, hle, le_rfl, ?_, ?_,
        fun _ => rfl⟩
      · intro a b
        linarith
      · intro a
        have : (lo : ℚ) ≤ hi := by exact_mod_cast hle
        linarith
    · refine ⟨j, fin j (clampQ_int (by omega) (by omega)) (by omega) (by omega), by omega, by omega,
        fun _ _ => hj, ?_, ?_⟩
      · intro a
        have : (j : ℚ) < lo + 1 := by linarith
        have : j < lo + 1 := by exact_mod_cast this
        omega
      · intro a
        have : (hi : ℚ) < j + 1 := by linarith
        have : hi < j + 1 := by exact_mod_cast this
        omega

example : formatValue ⟨0, 255, 0, 255, 1/2⟩ (selectDataFormat 255 0 255) (1/2) (1/2) = some 128 ∧
    formatValue ⟨0, 255, 0, 255, 1/2⟩ (selectDataFormat 255 0 255) (1/2) 2 = some 255 := by
  decide +kernel

theorem lround_mono {a b : ℚ} {j k : Int} (hab : a ≤ b) (ha : lround a = some j) (hb : lround b = some k) :
    j ≤ k := by
  unfold lround at ha hb
  dsimp only at ha hb
  split_ifs at ha hb with h1 h2 h3 h4 h5 <;> simp only [Option.some.injEq] at ha hb <;> subst ha hb
  · exact Int.floor_le_floor (by linarith)
  · linarith
  · apply Int.ceil_le.2
    have : (0 : ℤ) ≤ ⌊b + 1/2⌋ := Int.floor_nonneg.2 (by linarith)
    have : (0 : ℚ) ≤ (⌊b + 1/2⌋ : ℤ) := by exact_mod_cast this
    linarith
  · exact Int.ceil_le_ceil (by linarith)

theorem castTo_mono {lo hi : Int} {a b : ℚ} {j k : Int} (hab : a ≤ b) (ha : castTo lo hi a = some j)
    (hb : castTo lo hi b = some k) : j ≤ k := by
  unfold castTo at ha hb
  dsimp only at ha hb
  split_ifs at ha hb with h1 h2 h3 h4 h5 <;> simp only [Option.some.injEq] at ha hb <;> subst ha hb
  · exact Int.floor_le_floor hab
  · linarith
  · apply Int.ceil_le.2
    have : (0 : ℤ) ≤ ⌊b⌋ := Int.floor_nonneg.2 (by assumption)
    have : (0 : ℚ) ≤ (⌊b⌋ : ℤ) := by exact_mod_cast this
    linarith
  · exact Int.ceil_le_ceil hab

theorem clampQ_mono {a b lo hi : ℚ} (hle : lo ≤ hi) (hab : a ≤ b) : clampQ a lo hi ≤ clampQ b lo hi := by
  unfold clampQ
  split_ifs <;> linarith

theorem store_mono {f : Fmt} {a b x y : ℚ} (hab : a ≤ b) (ha : store f a = some x) (hb : store f b = some y) :
    x ≤ y := by
  cases f <;> simp only [store, Option.map_eq_some_iff, Option.some.injEq] at ha hb
  · subst ha hb; exact hab
  all_goals
    obtain ⟨j, hj, rfl⟩ := ha
    obtain ⟨k, hk, rfl⟩ := hb
    have := castTo_mono (by first | exact hab | exact clampQ_mono (by norm_num) hab) hj hk
    exact_mod_cast this

/-- C69: a larger value never gives a smaller number in the display (with the same random number), in any
format. -/
theorem C69_monotone (q : Quant) (hz : q.zero ≤ q.one) (hm : q.min ≤ q.max) (f : Fmt) (s v v' a b : ℚ)
    (hv : v ≤ v') (ha : formatValue q f s v = some a) (hb : formatValue q f s v' = some b) : a ≤ b := by
  unfold formatValue at ha hb
  rw [Option.bind_eq_some_iff] at ha hb
  obtain ⟨x, hx, ha⟩ := ha
  obtain ⟨y, hy, hb⟩ := hb
  refine store_mono ?_ ha hb
  unfold quantize at hx hy
  split_ifs at hx hy with h1
  · rw [Option.map_eq_some_iff] at hx hy
    obtain ⟨j, hj, rfl⟩ := hx
    obtain ⟨k, hk, rfl⟩ := hy
    apply clampQ_mono hm
    have := mul_le_mul_of_nonneg_right hv (sub_nonneg.2 hz)
    exact_mod_cast lround_mono (by linarith) hj hk
  · simp only [Option.some.injEq] at hx hy
    subst hx hy
    exact hv

example : formatValue ⟨0, 255, 0, 255, 0⟩ .u8 0 (1/4) = some 64 ∧
    formatValue ⟨0, 255, 0, 255, 0⟩ .u8 0 (1/2) = some 128 := by decide +kernel

/-- C69, negation: a depth display with `"float[4] quantize" [0 255 0 255]` where nothing was hit. The
depth is the largest float, and `lround` of it times 255 is unspecified. -/
theorem C69_depth_violated :
    formatValue ⟨0, 255, 0, 255, 0⟩ (selectDataFormat 255 0 255) 0 ((2^24 - 1) * 2^104) = none := by
  decide +kernel

/-- C69, negation: with a negative min the renderer chooses a signed format, which the file driver
replaces by the unsigned one of the same size; negative values are then converted to a type that
cannot hold them. -/
theorem C69_signed_violated :
    ∃ q : Quant, ∃ v : ℚ, q.one ≠ 0 ∧ q.min = -128 ∧ q.max = 127 ∧
      (formatValue q (selectDataFormat q.one q.min q.max) 0 v = some (-1)) ∧
      (openFile (stdChannels true false false (selectDataFormat q.one q.min q.max))).map
        (fun l => l.map fun c => formatValue q c.fmt 0 v) = some [none, none, none] := by
  refine ⟨⟨0, 127, -128, 127, 0⟩, -1/127, ?_⟩
  decide +kernel

/-- C69, negation: if min is not an integer the stored number can be less than it: with min 1/2 and max
255, black is stored as 0. -/
theorem C69_fraction_violated :
    ∃ q : Quant, q.min = 1/2 ∧ q.max = 255 ∧ q.one = 255 ∧
      formatValue q (selectDataFormat q.one q.min q.max) 0 0 = some 0 := by
  refine ⟨⟨0, 255, 1/2, 255, 0⟩, ?_⟩
  decide +kernel

/-! ## Options -/

/-- C69: quantization given with the display wins over the option `Quantize`, which wins over the
defaults; the same for the dither amplitude by itself. -/
theorem C69_options (c : Option (ℚ × ℚ × ℚ × ℚ)) (d : Option ℚ) (o : Option (ℚ × ℚ × ℚ × ℚ)) (aov : Bool) :
    (∀ x, c = some x → ((chooseQuant c d o aov).zero, (chooseQuant c d o aov).one,
      (chooseQuant c d o aov).min, (chooseQuant c d o aov).max) = x) ∧
    (∀ x, c = none → o = some x → (chooseQuant c d o aov).zero = 0 ∧
      ((chooseQuant c d o aov).one, (chooseQuant c d o aov).min, (chooseQuant c d o aov).max) =
        (x.1, x.2.1, x.2.2.1)) ∧
    (c = none → o = none → aov = true → (chooseQuant c d o aov).one = 0) ∧
    (∀ x, d = some x → (chooseQuant c d o aov).dither = x) ∧
    (∀ x, d = none → o = some x → (chooseQuant c d o aov).dither = x.2.2.2) ∧
    (d = none → o = none → (chooseQuant c d o aov).dither = 0) := by
  refine ⟨?_, ?_, ?_, ?_, ?_, ?_⟩
  · rintro ⟨z, o', lo, hi⟩ rfl; rfl
  · rintro ⟨o', lo, hi, di⟩ rfl rfl; exact ⟨rfl, rfl⟩
  · rintro rfl rfl rfl; rfl
  · rintro x rfl; rfl
  · rintro ⟨o', lo, hi, di⟩ rfl rfl; rfl
  · rintro rfl rfl; rfl

/-! ## Channels -/

/-- The order in which the file wants the channels, with what they show. -/
def wanted (a z : Bool) : List (String × Nat) :=
  [("Ci", 0), ("Ci", 1), ("Ci", 2)] ++ (if a then [("a", 0)] else []) ++ (if z then [("z", 0)] else [])

/-- The unsigned format of the same size. -/
def unsigned : Fmt → Fmt
  | .s8 => .u8
  | .s16 => .u16
  | .s32 => .u32
  | f => f

/-- C69: a file of colour, with opacity or with opacity and depth, has its channels in the order red,
green, blue, opacity, depth, each filled from its variable; the formats of the first four are unsigned
and of the size chosen by the renderer.  What is missing: the other combinations, which the driver
refuses, see `C69_channels_violated`. -/
theorem C69_channels_partial (a z : Bool) (h : z = true → a = true) (f : Fmt) :
    (openFile (stdChannels true a z f)).map (fun l => l.map (·.src)) = some (wanted a z) ∧
    (openFile (stdChannels true a z f)).map (fun l => (l.take 4).map (·.fmt)) =
      some (((wanted a z).take 4).map fun _ => unsigned f) := by
  revert h
  revert a z f
  have : ∀ f ∈ [Fmt.f32, .u32, .s32, .u16, .s16, .u8, .s8], ∀ a ∈ [true, false], ∀ z ∈ [true, false],
      (z = true → a = true) →
      (openFile (stdChannels true a z f)).map (fun l => l.map (·.src)) = some (wanted a z) ∧
      (openFile (stdChannels true a z f)).map (fun l => (l.take 4).map (·.fmt)) =
        some (((wanted a z).take 4).map fun _ => unsigned f) := by decide +kernel
  intro a z f h
  exact this f (by cases f <;> simp) a (by cases a <;> simp) z (by cases z <;> simp) h

/-- C69, negation: the modes `rgbz`, `a`, `z` and `az` are refused by the file driver. -/
theorem C69_channels_violated :
    openFile (stdChannels true false true .u8) = none ∧ openFile (stdChannels false true false .u8) = none ∧
    openFile (stdChannels false false true .u8) = none ∧
    openFile (stdChannels false true true .u8) = none := by decide +kernel

/-- C69: a file of another variable of one to four components has them in order. -/
theorem C69_aov (mode : String) (size : Nat) (h1 : 1 ≤ size) (h4 : size ≤ 4) (f : Fmt) :
    (openFile (aovChannels mode size f)).map (fun l => l.map fun c => (c.src, c.fmt)) =
      some ((List.range size).map fun i => ((mode, i), unsigned f)) := by
  obtain rfl | rfl | rfl | rfl : size = 1 ∨ size = 2 ∨ size = 3 ∨ size = 4 := by omega
  all_goals
    cases f <;>
      simp [openFile, aovChannels, widest, reorderLoop, findChan, Fmt.code, unsigned, List.range_succ]

end Verif.Core.Display
