import Verif.Core.BucketsProps
import Mathlib.Data.List.Nodup
/-!
# Surfaces and micropolygons reach the buckets they touch (C46, C47)
-/
namespace Verif.Core.Buckets

theorem scanRow_spec (f : Int → Int → Bool) (yb xMax : Int) (n : Nat) (xb : Int)
    (hn : xMax + 1 - xb ≤ n) :
    (∀ p, scanRow f yb xMax n xb = some p →
      p.2 = yb ∧ xb ≤ p.1 ∧ p.1 ≤ xMax ∧ f p.1 p.2 = false ∧ ∀ x, xb ≤ x → x < p.1 → f x yb = true) ∧
    (scanRow f yb xMax n xb = none → ∀ x, xb ≤ x → x ≤ xMax → f x yb = true) := by
  induction n generalizing xb with
  | zero =>
    rw [scanRow]
    refine ⟨fun p h => (by cases h), fun _ x h1 h2 => ?_⟩
    simp only [Nat.cast_zero] at hn
    omega
  | succ n ih =>
    rw [scanRow]
    by_cases hx : xb ≤ xMax
    · rw [if_pos hx]
      by_cases hf : f xb yb = false
      · rw [if_pos hf]
        refine ⟨fun p h => ?_, fun h => (by cases h)⟩
        cases h
        exact ⟨rfl, le_refl _, hx, hf, fun x h1 h2 => by simp only at h2; omega⟩
      · rw [if_neg hf]
        have hf' : f xb yb = true := by simpa using hf
        obtain ⟨i1, i2⟩ := ih (xb + 1) (by push_cast at hn; omega)
        constructor
        · intro p h
          obtain ⟨a1, a2, a3, a4, a5⟩ := i1 p h
          refine ⟨a1, by omega, a3, a4, fun x h1 h2 => ?_⟩
          rcases eq_or_lt_of_le h1 with rfl | h1
          · exact hf'
          · exact a5 x (by omega) h2
        · intro h x h1 h2
          rcases eq_or_lt_of_le h1 with rfl | h1
          · exact hf'
          · exact i2 h x (by omega) h2
    · rw [if_neg hx]
      exact ⟨fun p h => (by cases h), fun _ x h1 h2 => by omega⟩

theorem scanRows_spec (f : Int → Int → Bool) (xMin xMax yMax : Int) (n : Nat) (xb yb : Int)
    (hn : yMax + 1 - yb ≤ n) (hxb : xMin ≤ xb) :
    (∀ p, scanRows f xMin xMax yMax n xb yb = some p →
      yb ≤ p.2 ∧ p.2 ≤ yMax ∧ xMin ≤ p.1 ∧ p.1 ≤ xMax ∧ f p.1 p.2 = false ∧
      ∀ x y, xMin ≤ x → x ≤ xMax → ((y = yb ∧ xb ≤ x) ∨ yb < y) → Before (x, y) p → f x y = true) ∧
    (scanRows f xMin xMax yMax n xb yb = none →
      ∀ x y, xMin ≤ x → x ≤ xMax → ((y = yb ∧ xb ≤ x) ∨ yb < y) → y ≤ yMax → f x y = true) := by
  induction n generalizing xb yb with
  | zero =>
    rw [scanRows]
    refine ⟨fun p h => (by cases h), fun _ x y h1 h2 h3 h4 => ?_⟩
    simp only [Nat.cast_zero] at hn
    omega
  | succ n ih =>
    rw [scanRows]
    by_cases hy : yb ≤ yMax
    · rw [if_pos hy]
      obtain ⟨s1, s2⟩ := scanRow_spec f yb xMax (xMax + 1 - xb).toNat xb (by omega)
      cases hs : scanRow f yb xMax (xMax + 1 - xb).toNat xb with
      | some p =>
        obtain ⟨a1, a2, a3, a4, a5⟩ := s1 p hs
        refine ⟨fun q h => ?_, fun h => (by cases h)⟩
        cases h
        refine ⟨by omega, by omega, by omega, a3, a4, fun x y h1 h2 h3 h4 => ?_⟩
        simp only [Before] at h4
        have : y = yb := by omega
        subst this
        exact a5 x (by omega) (by omega)
      | none =>
        have b := s2 hs
        obtain ⟨i1, i2⟩ := ih xMin (yb + 1) (by push_cast at hn; omega) (le_refl _)
        constructor
        · intro p h
          obtain ⟨a1, a2, a3, a4, a5, a6⟩ := i1 p h
          refine ⟨by omega, a2, a3, a4, a5, fun x y h1 h2 h3 h4 => ?_⟩
          rcases h3 with ⟨rfl, h3⟩ | h3
          · exact b x h3 h2
          · exact a6 x y h1 h2 (by omega) h4
        · intro h x y h1 h2 h3 h4
          rcases h3 with ⟨rfl, h3⟩ | h3
          · exact b x h3 h2
          · exact i2 h x y h1 h2 (by omega) h4
    · rw [if_neg hy]
      exact ⟨fun p h => (by cases h), fun _ x y h1 h2 h3 h4 => by omega⟩

theorem trunc_le_iff {q : ℚ} {c : Int} (hc : 0 ≤ c) : trunc q ≤ c ↔ q < c + 1 := by
  rw [trunc]
  split_ifs with h
  · rw [← Int.lt_add_one_iff, Int.floor_lt]; push_cast; rfl
  · have h : q < 0 := lt_of_not_ge h
    have h1 : ⌈q⌉ ≤ 0 := Int.ceil_le.2 (by exact_mod_cast h.le)
    have h2 : (0 : ℚ) ≤ c := by exact_mod_cast hc
    constructor
    · intro _; linarith
    · intro _; omega

theorem le_trunc_iff {q : ℚ} {c : Int} (hq : 0 ≤ q) : c ≤ trunc q ↔ (c : ℚ) ≤ q := by
  rw [trunc, if_pos hq, Int.le_floor]

theorem tdiv_nonpos' {a s : Int} (h : a ≤ 0) (hs : 0 < s) : a.tdiv s ≤ 0 := by
  have h1 := Int.tdiv_nonneg (a := -a) (b := s) (by omega) hs.le
  rw [Int.neg_tdiv] at h1
  omega

theorem trunc_tdiv_le {q : ℚ} {c s : Int} (hs : 0 < s) (hc : 0 ≤ c) (h : q < ((c + 1) * s : Int)) :
    (trunc q).tdiv s ≤ c := by
  have h1 : trunc q ≤ (c + 1) * s - 1 := by
    rw [trunc_le_iff]
    · push_cast at h ⊢; linarith
    · have := Int.mul_le_mul_of_nonneg_right (show 1 ≤ c + 1 by omega) hs.le
      omega
  by_cases h0 : 0 ≤ trunc q
  · rw [Int.tdiv_eq_ediv_of_nonneg h0]
    apply Int.lt_add_one_iff.1
    rw [Int.ediv_lt_iff_lt_mul hs]; omega
  · exact le_trans (tdiv_nonpos' (by omega) hs) hc

theorem le_trunc_tdiv {q : ℚ} {c s : Int} (hs : 0 < s) (hc : 0 ≤ c) (h : ((c * s : Int) : ℚ) ≤ q) :
    c ≤ (trunc q).tdiv s := by
  have h0 : 0 ≤ c * s := Int.mul_nonneg hc hs.le
  have hq : 0 ≤ q := le_trans (by exact_mod_cast h0) h
  have h1 : c * s ≤ trunc q := (le_trunc_iff hq).2 h
  rw [Int.tdiv_eq_ediv_of_nonneg (by omega)]
  exact (Int.le_ediv_iff_mul_le hs).2 h1

theorem floor_tdiv_le {q : ℚ} {c s : Int} (hs : 0 < s) (hc : 0 ≤ c) (h : q < ((c + 1) * s : Int)) :
    ⌊q⌋.tdiv s ≤ c := by
  have h1 : ⌊q⌋ < (c + 1) * s := Int.floor_lt.2 h
  by_cases h0 : 0 ≤ ⌊q⌋
  · rw [Int.tdiv_eq_ediv_of_nonneg h0]
    apply Int.lt_add_one_iff.1
    rw [Int.ediv_lt_iff_lt_mul hs]; omega
  · exact le_trans (tdiv_nonpos' (by omega) hs) hc

/-- The bound touches the bucket. -/
def Touches (b : Bound) (k : Bucket) : Prop :=
  b.xMin < ((k.x + k.w : Int) : ℚ) ∧ ((k.x : Int) : ℚ) ≤ b.xMax ∧
  b.yMin < ((k.y + k.h : Int) : ℚ) ∧ ((k.y : Int) : ℚ) ≤ b.yMax

/-- A surface in bucket `p` gets into bucket `q` when every bucket on the way finds it hidden and
passes it on. -/
inductive Reaches (g : List (List Bucket)) (reg : Region) (bw : Int) (b : Bound) :
    Int × Int → Int × Int → Prop
  | here (p) : Reaches g reg bw b p p
  | pass {p p' q : Int × Int} {old : Bucket} : bucketAt g p.1 p.2 = some old →
      repostSurface reg bw old b = some p' → Reaches g reg bw b p' q → Reaches g reg bw b p q

theorem cast_le_of {a b : Int} {q : ℚ} (h : a ≤ b) (h' : (b : ℚ) ≤ q) : (a : ℚ) ≤ q :=
  le_trans (by exact_mod_cast h) h'

theorem reaches_of_after {xRes yRes bw bh : Int} (hx : 0 < xRes) (hy : 0 < yRes) (hw : 0 < bw)
    (hh : 0 < bh) (reg : Region) (h0x : 0 ≤ reg.xMin) (h0y : 0 ≤ reg.yMin)
    (h1x : ∀ c, c < reg.xMax → c * bw < xRes) (h1y : ∀ c, c < reg.yMax → c * bh < yRes)
    (b : Bound) (q : Int × Int) (k : Bucket) (hq : InRegion reg q.1 q.2)
    (hk : bucketAt (grid xRes yRes bw bh) q.1 q.2 = some k) (ht : Touches b k)
    (n : Nat) (p : Int × Int) (hp : InRegion reg p.1 p.2) (hn : left reg p ≤ n)
    (hpq : q = p ∨ Before p q) : Reaches (grid xRes yRes bw bh) reg bw b p q := by
  induction n generalizing p with
  | zero =>
    exfalso
    obtain ⟨h1, h2, h3, h4⟩ := hp
    have : 0 ≤ (reg.yMax - 1 - p.2) * (reg.xMax - reg.xMin) := Int.mul_nonneg (by omega) (by omega)
    simp only [left, Nat.cast_zero] at hn
    omega
  | succ n ih =>
    rcases hpq with rfl | hpq
    · exact .here _
    · obtain ⟨pc, pr⟩ := p
      obtain ⟨qc, qr⟩ := q
      obtain ⟨p1, p2, p3, p4⟩ := hp
      obtain ⟨q1, q2, q3, q4⟩ := hq
      simp only [Before] at hpq p1 p2 p3 p4 q1 q2 q3 q4 hk
      rw [bucketAt_iff hx hy hw hh] at hk
      obtain ⟨k1, k2, k3, k4, rfl⟩ := hk
      obtain ⟨t1, t2, t3, t4⟩ := ht
      simp only at t1 t2 t3 t4
      have hold := (bucketAt_iff hx hy hw hh pc pr _).2
        ⟨by omega, by omega, h1x _ p2, h1y _ p4, rfl⟩
      by_cases hr : pc + 1 < reg.xMax ∧
          b.xMax ≥ ((pc * bw + min (xRes - pc * bw) bw : Int) : ℚ)
      · refine .pass hold (p' := (pc + 1, pr)) ?_ (ih _ ⟨by simp only; omega, hr.1, p3, p4⟩ ?_ ?_)
        · rw [repostSurface, if_pos hr]
        · simp only [left] at hn ⊢
          push_cast at hn
          omega
        · simp only [Before, Prod.mk.injEq]; omega
      · -- the next row
        have hrow : pr < qr := by
          rcases hpq with h | ⟨rfl, h⟩
          · exact h
          · exfalso
            apply hr
            refine ⟨by omega, cast_le_of ?_ t2⟩
            have := Int.mul_le_mul_of_nonneg_right (show pc + 1 ≤ qc by omega) hw.le
            rw [Int.add_mul] at this
            omega
        have hnx : ⌊b.xMin⌋.tdiv bw ≤ qc := by
          apply floor_tdiv_le hw k1
          refine lt_of_lt_of_le t1 ?_
          have : qc * bw + min (xRes - qc * bw) bw ≤ (qc + 1) * bw := by rw [Int.add_mul]; omega
          exact_mod_cast this
        have hyy : b.yMax ≥ ((pr * bh + min (yRes - pr * bh) bh : Int) : ℚ) := by
          refine cast_le_of ?_ t4
          have := Int.mul_le_mul_of_nonneg_right (show pr + 1 ≤ qr by omega) hh.le
          rw [Int.add_mul] at this
          omega
        refine .pass hold (p' := (max reg.xMin (⌊b.xMin⌋.tdiv bw), pr + 1)) ?_
          (ih _ ⟨by simp only; omega, by simp only; omega, by simp only; omega, by simp only; omega⟩ ?_ ?_)
        · rw [repostSurface, if_neg hr]
          simp only
          rw [if_pos ⟨by omega, by omega, hyy⟩]
        · have e : (reg.yMax - 1 - pr) * (reg.xMax - reg.xMin) =
            (reg.yMax - 1 - (pr + 1)) * (reg.xMax - reg.xMin) + (reg.xMax - reg.xMin) := by ring
          simp only [left] at hn ⊢
          push_cast at hn
          omega
        · simp only [Before, Prod.mk.injEq]; omega

theorem clamp_eq (v lo hi : Int) (h : lo ≤ hi) : clamp v lo hi = max lo (min v hi) := by
  rw [clamp]; split_ifs <;> omega

/-- The image, the crop window and the bucket size are sensible: the crop window contains a pixel. -/
structure Setup (xRes yRes bw bh : Int) (crop : Region) : Prop where
  hw : 0 < bw
  hh : 0 < bh
  x0 : 0 ≤ crop.xMin
  x1 : crop.xMin < crop.xMax
  x2 : crop.xMax ≤ xRes
  y0 : 0 ≤ crop.yMin
  y1 : crop.yMin < crop.yMax
  y2 : crop.yMax ≤ yRes

theorem reg_1d {res size lo hi : Int} (hs : 0 < size) (h0 : 0 ≤ lo) (h1 : lo < hi) (h2 : hi ≤ res) :
    0 ≤ lo.tdiv size ∧ lo.tdiv size < (hi - 1).tdiv size + 1 ∧
      ∀ c, c < (hi - 1).tdiv size + 1 → c * size < res := by
  rw [Int.tdiv_eq_ediv_of_nonneg h0, Int.tdiv_eq_ediv_of_nonneg (by omega)]
  refine ⟨Int.ediv_nonneg h0 hs.le, ?_, fun c hc => ?_⟩
  · have := Int.ediv_le_ediv hs (show lo ≤ hi - 1 by omega); omega
  · have := (Int.le_ediv_iff_mul_le hs).1 (show c ≤ (hi - 1) / size by omega); omega

/-- C46: a surface that can be projected is put into a bucket of the region that is not processed yet,
as soon as its bound touches one; and from there, passed on by each bucket that finds it hidden, it
gets into every bucket of the region that its bound touches and that was not processed when the
surface was posted. -/
theorem C46_visits_partial {xRes yRes bw bh : Int} {crop : Region} (S : Setup xRes yRes bw bh crop)
    (processed : Int → Int → Bool) (b : Bound) (c r : Int) (k : Bucket)
    (hreg : InRegion (bucketRegion crop bw bh) c r)
    (hk : bucketAt (grid xRes yRes bw bh) c r = some k) (ht : Touches b k)
    (hun : processed c r = false) :
    ∃ p, postSurface (bucketRegion crop bw bh) bw bh processed false b = some p ∧
      InRegion (bucketRegion crop bw bh) p.1 p.2 ∧ processed p.1 p.2 = false ∧
      Reaches (grid xRes yRes bw bh) (bucketRegion crop bw bh) bw b p (c, r) := by
  obtain ⟨hw, hh, x0, x1, x2, y0, y1, y2⟩ := S
  obtain ⟨rx0, rx1, rx2⟩ := reg_1d hw x0 x1 x2
  obtain ⟨ry0, ry1, ry2⟩ := reg_1d hh y0 y1 y2
  have hx : 0 < xRes := by omega
  have hy : 0 < yRes := by omega
  generalize hR : bucketRegion crop bw bh = R at *
  have e1 : crop.xMin.tdiv bw = R.xMin := by rw [← hR]; rfl
  have e2 : (crop.xMax - 1).tdiv bw + 1 = R.xMax := by rw [← hR]; rfl
  have e3 : crop.yMin.tdiv bh = R.yMin := by rw [← hR]; rfl
  have e4 : (crop.yMax - 1).tdiv bh + 1 = R.yMax := by rw [← hR]; rfl
  rw [e1] at rx0 rx1
  rw [e2] at rx1 rx2
  rw [e3] at ry0 ry1
  rw [e4] at ry1 ry2
  suffices H : ∃ p, postSurface R bw bh processed false b = some p ∧ InRegion R p.1 p.2 ∧
      processed p.1 p.2 = false ∧ ((c, r) = p ∨ Before p (c, r)) by
    obtain ⟨p, h1, h2, h3, h4⟩ := H
    exact ⟨p, h1, h2, h3, reaches_of_after hx hy hw hh R rx0 ry0 rx2 ry2 b (c, r) k hreg hk ht
      (left R p).toNat p h2 (by omega) h4⟩
  rw [bucketAt_iff hx hy hw hh] at hk
  obtain ⟨k1, k2, k3, k4, rfl⟩ := hk
  obtain ⟨t1, t2, t3, t4⟩ := ht
  simp only at t1 t2 t3 t4
  have a1 : (trunc b.xMin).tdiv bw ≤ c := by
    apply trunc_tdiv_le hw k1
    refine lt_of_lt_of_le t1 ?_
    have : c * bw + min (xRes - c * bw) bw ≤ (c + 1) * bw := by rw [Int.add_mul]; omega
    exact_mod_cast this
  have a2 : c ≤ (trunc b.xMax).tdiv bw := le_trunc_tdiv hw k1 t2
  have a3 : (trunc b.yMin).tdiv bh ≤ r := by
    apply trunc_tdiv_le hh k2
    refine lt_of_lt_of_le t3 ?_
    have : r * bh + min (yRes - r * bh) bh ≤ (r + 1) * bh := by rw [Int.add_mul]; omega
    exact_mod_cast this
  have a4 : r ≤ (trunc b.yMax).tdiv bh := le_trunc_tdiv hh k2 t4
  obtain ⟨r1, r2, r3, r4⟩ := hreg
  simp only [postSurface, Bool.false_eq_true, if_false]
  rw [clamp_eq _ _ _ (by omega), clamp_eq _ _ _ (by omega), clamp_eq _ _ _ (by omega),
    clamp_eq _ _ _ (by omega)]
  generalize hX0 : max R.xMin (min ((trunc b.xMin).tdiv bw) (R.xMax - 1)) = X0
  generalize hY0 : max R.yMin (min ((trunc b.yMin).tdiv bh) (R.yMax - 1)) = Y0
  generalize hX1 : max R.xMin (min ((trunc b.xMax).tdiv bw) (R.xMax - 1)) = X1
  generalize hY1 : max R.yMin (min ((trunc b.yMax).tdiv bh) (R.yMax - 1)) = Y1
  by_cases hp : processed X0 Y0 = true
  · rw [if_pos hp]
    obtain ⟨s1, s2⟩ := scanRows_spec processed X0 X1 Y1 (Y1 + 1 - Y0).toNat (X0 + 1) Y0 (by omega)
      (by omega)
    have hne : ¬ (c = X0 ∧ r = Y0) := by
      rintro ⟨rfl, rfl⟩
      rw [hun] at hp; cases hp
    cases hs : scanRows processed X0 X1 Y1 (Y1 + 1 - Y0).toNat (X0 + 1) Y0 with
    | none =>
      have := s2 hs c r (by omega) (by omega) (by omega) (by omega)
      rw [hun] at this; cases this
    | some p =>
      obtain ⟨b1, b2, b3, b4, b5, b6⟩ := s1 p hs
      refine ⟨p, rfl, ⟨by omega, by omega, by omega, by omega⟩, b5, ?_⟩
      have hnb : ¬ Before (c, r) p := by
        intro hb
        have := b6 c r (by omega) (by omega) (by omega) hb
        rw [hun] at this; cases this
      obtain ⟨pc, pr⟩ := p
      simp only [Before, Prod.mk.injEq] at hnb ⊢
      omega
  · rw [if_neg hp]
    refine ⟨(X0, Y0), rfl, ⟨by simp only; omega, by simp only; omega, by simp only; omega,
      by simp only; omega⟩, by simpa using hp, ?_⟩
    simp only [Before, Prod.mk.injEq]
    omega

/-- Non-vacuity: a bound over four buckets, posted while the second one is current. -/
example : postSurface ⟨0, 0, 2, 2⟩ 16 16 (fun c r => decide (r = 0 ∧ c = 0)) false ⟨1, 1, 20, 20⟩ =
    some (1, 0) := by decide +kernel

example : repostSurface ⟨0, 0, 2, 2⟩ 16 ⟨1, 0, 16, 0, 16, 16⟩ ⟨1, 1, 20, 20⟩ = some (0, 1) := by
  decide +kernel

/-- C46: a surface is only ever passed on to a bucket of the region that comes later in the order of
processing, so never to one that is processed. -/
theorem C46_repost_forward (reg : Region) (bw : Int) (old : Bucket) (b : Bound)
    (hold : InRegion reg old.col old.row) (p : Int × Int) (h : repostSurface reg bw old b = some p) :
    InRegion reg p.1 p.2 ∧ (old.row < p.2 ∨ (old.row = p.2 ∧ old.col < p.1)) := by
  obtain ⟨h1, h2, h3, h4⟩ := hold
  rw [repostSurface] at h
  by_cases hr : old.col + 1 < reg.xMax ∧ b.xMax ≥ ((old.x + old.w : Int) : ℚ)
  · rw [if_pos hr] at h
    cases h
    exact ⟨⟨by simp only; omega, hr.1, h3, h4⟩, Or.inr ⟨rfl, by simp only; omega⟩⟩
  · rw [if_neg hr] at h
    simp only at h
    split_ifs at h with hc
    cases h
    exact ⟨⟨by simp only; omega, hc.1, by simp only; omega, hc.2.1⟩, by simp only; omega⟩

/-- C46: a surface is thrown away only when no point of its bound, moved by up to half the filter width,
lies in the crop window; otherwise its bound is enlarged by half the filter width. -/
theorem C46_cull (crop : Region) (fx fy : ℚ) (hfx : 0 ≤ fx) (hfy : 0 ≤ fy) (b : Bound)
    (hbx : b.xMin ≤ b.xMax) (hby : b.yMin ≤ b.yMax)
    (hcx : crop.xMin ≤ crop.xMax) (hcy : crop.yMin ≤ crop.yMax) :
    (cullSurface crop fx fy b = none ↔
      ¬ ∃ px py qx qy : ℚ, b.xMin ≤ px ∧ px ≤ b.xMax ∧ b.yMin ≤ py ∧ py ≤ b.yMax ∧
        px - fx / 2 ≤ qx ∧ qx ≤ px + fx / 2 ∧ py - fy / 2 ≤ qy ∧ qy ≤ py + fy / 2 ∧
        crop.xMin ≤ qx ∧ qx ≤ crop.xMax ∧ crop.yMin ≤ qy ∧ qy ≤ crop.yMax) ∧
    (∀ b', cullSurface crop fx fy b = some b' →
      b'.xMin = b.xMin - fx / 2 ∧ b'.xMax = b.xMax + fx / 2 ∧
      b'.yMin = b.yMin - fy / 2 ∧ b'.yMax = b.yMax + fy / 2) := by
  have one : ∀ (lo hi f : ℚ) (a z : Int), 0 ≤ f → lo ≤ hi → a ≤ z → ¬ (lo - f / 2 > z) →
      ¬ (hi + f / 2 < a) → ∃ p q : ℚ, lo ≤ p ∧ p ≤ hi ∧ p - f / 2 ≤ q ∧ q ≤ p + f / 2 ∧ a ≤ q ∧ q ≤ z := by
    intro lo hi f a z hf h haz h1 h2
    have haz : (a : ℚ) ≤ z := by exact_mod_cast haz
    push Not at h1 h2
    refine ⟨max lo (min hi a), max (max lo (min hi a) - f / 2) (min (max lo (min hi a) + f / 2) a), ?_⟩
    rcases le_total hi (a : ℚ) with g1 | g1
    · rw [min_eq_left g1, max_eq_right h, min_eq_right h2, max_eq_right (by linarith)]
      exact ⟨h, le_refl _, by linarith, h2, le_refl _, haz⟩
    · rw [min_eq_right g1]
      rcases le_total lo (a : ℚ) with g2 | g2
      · rw [max_eq_right g2, min_eq_right (by linarith), max_eq_right (by linarith)]
        exact ⟨g2, g1, by linarith, by linarith, le_refl _, haz⟩
      · rw [max_eq_left g2, min_eq_right (by linarith)]
        rcases le_total (lo - f / 2) (a : ℚ) with g3 | g3
        · rw [max_eq_right g3]
          exact ⟨le_refl _, h, g3, by linarith, le_refl _, haz⟩
        · rw [max_eq_left g3]
          exact ⟨le_refl _, h, le_refl _, by linarith, g3, h1⟩
  rw [cullSurface]
  simp only
  split_ifs with hc
  · refine ⟨⟨fun _ => ?_, fun _ => rfl⟩, fun b' h => by cases h⟩
    rintro ⟨px, py, qx, qy, h1, h2, h3, h4, h5, h6, h7, h8, h9, h10, h11, h12⟩
    rcases hc with hc | hc | hc | hc <;> linarith
  · push Not at hc
    obtain ⟨c1, c2, c3, c4⟩ := hc
    refine ⟨⟨fun h => (by cases h), fun h => ?_⟩, fun b' h => ?_⟩
    · exfalso
      obtain ⟨px, qx, a1, a2, a3, a4, a5, a6⟩ :=
        one b.xMin b.xMax fx crop.xMin crop.xMax hfx hbx hcx (by push Not; exact c1) (by push Not; exact c3)
      obtain ⟨py, qy, d1, d2, d3, d4, d5, d6⟩ :=
        one b.yMin b.yMax fy crop.yMin crop.yMax hfy hby hcy (by push Not; exact c2) (by push Not; exact c4)
      exact h ⟨px, py, qx, qy, a1, a2, d1, d2, a3, a4, d3, d4, a5, a6, d5, d6⟩
    · cases h
      exact ⟨rfl, rfl, rfl, rfl⟩

/-- C46, negation: the comment in `PostSurface` says that a surface crossing the plane of the eye is put
back into the current bucket; it is put into the first bucket of the region, and when that one is
processed the surface is dropped, although other buckets remain. -/
theorem C46_undiceable_violated :
    ∃ (reg : Region) (processed : Int → Int → Bool) (c r : Int),
      InRegion reg c r ∧ processed c r = false ∧
      ∀ b, postSurface reg 16 16 processed true b = none := by
  refine ⟨⟨0, 0, 2, 1⟩, fun c r => decide (r = 0 ∧ c = 0), 1, 0, ?_, ?_, ?_⟩
  · simp [InRegion]
  · decide
  · intro b
    simp only [postSurface, if_true]
    decide +kernel

theorem mem_box (f : Int → Int → Bool) (xa ya xb yb c r : Int) :
    (c, r) ∈ ((List.range (xb + 1 - xa).toNat).flatMap fun i : Nat =>
        (List.range (yb + 1 - ya).toNat).filterMap fun j : Nat =>
          if f (xa + (i : Int)) (ya + (j : Int)) = false then some (xa + (i : Int), ya + (j : Int))
          else none) ↔
      xa ≤ c ∧ c ≤ xb ∧ ya ≤ r ∧ r ≤ yb ∧ f c r = false := by
  simp only [List.mem_flatMap, List.mem_range, List.mem_filterMap]
  constructor
  · rintro ⟨i, hi, j, hj, h⟩
    split_ifs at h with hp
    simp only [Option.some.injEq, Prod.mk.injEq] at h
    obtain ⟨rfl, rfl⟩ := h
    exact ⟨by omega, by omega, by omega, by omega, hp⟩
  · rintro ⟨h1, h2, h3, h4, hp⟩
    refine ⟨(c - xa).toNat, by omega, (r - ya).toNat, by omega, ?_⟩
    rw [Int.toNat_of_nonneg (by omega), Int.toNat_of_nonneg (by omega), add_sub_cancel,
      add_sub_cancel, if_pos hp]

theorem nodup_box (f : Int → Int → Bool) (xa ya xb yb : Int) :
    ((List.range (xb + 1 - xa).toNat).flatMap fun i : Nat =>
        (List.range (yb + 1 - ya).toNat).filterMap fun j : Nat =>
          if f (xa + (i : Int)) (ya + (j : Int)) = false then some (xa + (i : Int), ya + (j : Int))
          else none).Nodup := by
  rw [List.nodup_flatMap]
  constructor
  · intro i _
    refine List.Nodup.filterMap ?_ List.nodup_range
    intro j j' q h h'
    simp only [Option.mem_def] at h h'
    split_ifs at h h'
    cases h
    simp only [Option.some.injEq, Prod.mk.injEq] at h'
    omega
  · refine List.Pairwise.imp ?_ List.nodup_range
    intro i i' hne q hq hq'
    simp only [List.mem_filterMap] at hq hq'
    obtain ⟨j, _, h⟩ := hq
    obtain ⟨j', _, h'⟩ := hq'
    split_ifs at h h'
    cases h
    simp only [Option.some.injEq, Prod.mk.injEq] at h'
    omega

/-- C47: the buckets a micropolygon is added to, exactly (its bound, enlarged by the whole pixels of half
the filter width, is not entirely to the left of or above the image). -/
theorem C47_exact_partial (crop reg : Region) {bw bh : Int} (hw : 0 < bw) (hh : 0 < bh) (fx fy : ℚ)
    (processed : Int → Int → Bool) (b : Bound) (h0x : 0 ≤ reg.xMin) (h0y : 0 ≤ reg.yMin)
    (hbx : 0 ≤ b.xMax + (⌊fx / 2⌋ : Int)) (hby : 0 ≤ b.yMax + (⌊fy / 2⌋ : Int)) (c r : Int) :
    (c, r) ∈ addMPG crop reg bw bh fx fy processed b ↔
      InRegion reg c r ∧ processed c r = false ∧
      (crop.xMin - fx / 2 ≤ b.xMax ∧ crop.yMin - fy / 2 ≤ b.yMax ∧
        b.xMin ≤ crop.xMax + fx / 2 ∧ b.yMin ≤ crop.yMax + fy / 2) ∧
      ((c * bw : Int) : ℚ) ≤ b.xMax + (⌊fx / 2⌋ : Int) ∧
      b.xMin - (⌊fx / 2⌋ : Int) < (((c + 1) * bw : Int) : ℚ) ∧
      ((r * bh : Int) : ℚ) ≤ b.yMax + (⌊fy / 2⌋ : Int) ∧
      b.yMin - (⌊fy / 2⌋ : Int) < (((r + 1) * bh : Int) : ℚ) := by
  have hwq : (0 : ℚ) < bw := by exact_mod_cast hw
  have hhq : (0 : ℚ) < bh := by exact_mod_cast hh
  have lo : ∀ (s : Int) (hs : (0 : ℚ) < s) (q : ℚ) (c : Int), 0 ≤ c →
      (trunc (q / s) ≤ c ↔ q < (((c + 1) * s : Int) : ℚ)) := by
    intro s hs q c hc
    rw [trunc_le_iff hc, div_lt_iff₀ hs]; push_cast; rfl
  have hi : ∀ (s : Int) (hs : (0 : ℚ) < s) (q : ℚ) (c : Int), 0 ≤ q →
      (c ≤ trunc (q / s) ↔ ((c * s : Int) : ℚ) ≤ q) := by
    intro s hs q c hq
    rw [le_trunc_iff (div_nonneg hq hs.le), le_div_iff₀ hs]; push_cast; rfl
  rw [addMPG]
  by_cases hd : b.xMax < crop.xMin - fx / 2 ∨ b.yMax < crop.yMin - fy / 2 ∨
      b.xMin > crop.xMax + fx / 2 ∨ b.yMin > crop.yMax + fy / 2
  · rw [if_pos hd]
    constructor
    · intro h; cases h
    · rintro ⟨-, -, ⟨h1, h2, h3, h4⟩, -⟩
      rcases hd with h | h | h | h <;> linarith
  · rw [if_neg hd]
    push Not at hd
    simp only
    rw [← hi bw hwq _ c hbx, ← hi bh hhq _ r hby]
    by_cases hcr : 0 ≤ c ∧ 0 ≤ r
    · rw [← lo bw hwq _ c hcr.1, ← lo bh hhq _ r hcr.2]
      generalize trunc ((b.xMin - (⌊fx / 2⌋ : Int)) / bw) = xa
      generalize trunc ((b.yMin - (⌊fy / 2⌋ : Int)) / bh) = ya
      generalize trunc ((b.xMax + (⌊fx / 2⌋ : Int)) / bw) = xb
      generalize trunc ((b.yMax + (⌊fy / 2⌋ : Int)) / bh) = yb
      by_cases hout : xb < reg.xMin ∨ yb < reg.yMin ∨ xa ≥ reg.xMax ∨ ya ≥ reg.yMax
      · rw [if_pos hout]
        constructor
        · intro h; cases h
        · rintro ⟨⟨_, _, _, _⟩, _, _, _, _, _, _⟩; omega
      · rw [if_neg hout, mem_box]
        constructor
        · rintro ⟨h1, h2, h3, h4, hp⟩
          split_ifs at h1 h2 h3 h4 <;>
            exact ⟨⟨by omega, by omega, by omega, by omega⟩, hp, hd, by omega, by omega, by omega,
              by omega⟩
        · rintro ⟨⟨g1, g2, g3, g4⟩, hp, _, k1, k2, k3, k4⟩
          exact ⟨by split_ifs <;> omega, by split_ifs <;> omega, by split_ifs <;> omega,
            by split_ifs <;> omega, hp⟩
    · constructor
      · intro h
        exfalso
        apply hcr
        split_ifs at h
        all_goals first
          | cases h
          | (rw [mem_box] at h; omega)
      · rintro ⟨⟨h1, h2, h3, h4⟩, -⟩
        exfalso; exact hcr ⟨by omega, by omega⟩

/-- C47: a micropolygon is never added to a bucket twice. -/
theorem C47_once (crop reg : Region) (bw bh : Int) (fx fy : ℚ) (processed : Int → Int → Bool) (b : Bound) :
    (addMPG crop reg bw bh fx fy processed b).Nodup := by
  rw [addMPG]
  split_ifs with h1
  · exact List.nodup_nil
  · simp only
    split_ifs <;> first | exact List.nodup_nil | exact nodup_box _ _ _ _ _

/-- C47: no sample is missed.  A bucket takes samples in its own pixels and in those up to the whole
pixels of half the filter width around it, as far as they are within that distance of the crop window.
If the bound of the micropolygon contains a point of these pixels, the micropolygon is added to the
bucket, provided that the bucket is in the region and not processed. -/
theorem C47_samples {xRes yRes bw bh : Int} {crop : Region} (S : Setup xRes yRes bw bh crop) {fx fy : ℚ}
    (processed : Int → Int → Bool) (b : Bound) (c r : Int) (k : Bucket)
    (hreg : InRegion (bucketRegion crop bw bh) c r)
    (hk : bucketAt (grid xRes yRes bw bh) c r = some k) (hun : processed c r = false) (px py : ℚ)
    (hb : b.xMin ≤ px ∧ px ≤ b.xMax ∧ b.yMin ≤ py ∧ py ≤ b.yMax)
    (hx : k.x - ⌊fx / 2⌋ ≤ px ∧ px < k.x + bw + ⌊fx / 2⌋)
    (hy : k.y - ⌊fy / 2⌋ ≤ py ∧ py < k.y + bh + ⌊fy / 2⌋)
    (hcx : crop.xMin - ⌊fx / 2⌋ ≤ px ∧ px ≤ crop.xMax + ⌊fx / 2⌋)
    (hcy : crop.yMin - ⌊fy / 2⌋ ≤ py ∧ py ≤ crop.yMax + ⌊fy / 2⌋) :
    (c, r) ∈ addMPG crop (bucketRegion crop bw bh) bw bh fx fy processed b := by
  obtain ⟨hw, hh, x0, x1, x2, y0, y1, y2⟩ := S
  obtain ⟨rx0, rx1, rx2⟩ := reg_1d hw x0 x1 x2
  obtain ⟨ry0, ry1, ry2⟩ := reg_1d hh y0 y1 y2
  rw [bucketAt_iff (by omega) (by omega) hw hh] at hk
  obtain ⟨k1, k2, k3, k4, rfl⟩ := hk
  simp only at hx hy
  have f1 := Int.floor_le (fx / 2)
  have f2 := Int.floor_le (fy / 2)
  have n1 : (0 : ℚ) ≤ ((c * bw : Int) : ℚ) := by exact_mod_cast Int.mul_nonneg k1 hw.le
  have n2 : (0 : ℚ) ≤ ((r * bh : Int) : ℚ) := by exact_mod_cast Int.mul_nonneg k2 hh.le
  have e1 : (((c + 1) * bw : Int) : ℚ) = ((c * bw : Int) : ℚ) + bw := by push_cast; ring
  have e2 : (((r + 1) * bh : Int) : ℚ) = ((r * bh : Int) : ℚ) + bh := by push_cast; ring
  rw [C47_exact_partial crop _ hw hh fx fy processed b rx0 ry0 (by linarith) (by linarith), e1, e2]
  exact ⟨hreg, hun, ⟨by linarith, by linarith, by linarith, by linarith⟩, by linarith, by linarith,
    by linarith, by linarith⟩

/-- Non-vacuity. -/
example : addMPG ⟨0, 0, 32, 32⟩ ⟨0, 0, 2, 2⟩ 16 16 2 2 (fun c r => decide (c = 0 ∧ r = 0))
    ⟨14, 3, 31/2, 4⟩ = [(1, 0)] := by decide +kernel

end Verif.Core.Buckets
