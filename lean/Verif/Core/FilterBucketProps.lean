import Verif.Core.FilterBucketLemmas
import Mathlib.Tactic.NormNum
import Mathlib.Tactic.FieldSimp
import Mathlib.Algebra.Order.BigOperators.Group.List
import Mathlib.Data.List.Perm.Basic

/-!
# C52: the pixels of a bucket are the weighted means of the samples under the filter
-/

namespace Verif.Core.FilterBucket

variable {c : Cfg} {b : Bucket} {S : ℤ → ℤ → Pixel} {filt : List ℚ} {far : ℚ} {valid : Bool}
  {rows : List (List Out)} {i j : Nat} {out : Out} {L : List (ℤ × ℤ × Nat)}

/-- The value of the filter for sample `s` of pixel `px`, `py` when pixel `x`, `y` is computed: the filter is
taken at the middle of the subpixel, it vanishes outside its width (rounded up). -/
def tap (c : Cfg) (x y px py : ℤ) (s : Nat) : ℚ :=
  let dx : ℚ := (px + ((s % c.xs : Nat) + 1 / 2) / c.xs) - (x + 1 / 2)
  let dy : ℚ := (py + ((s / c.xs : Nat) + 1 / 2) / c.ys) - (y + 1 / 2)
  if |dx| ≤ (⌈c.xw⌉ : ℚ) / 2 ∧ |dy| ≤ (⌈c.yw⌉ : ℚ) / 2 then c.f dx dy ⌈c.xw⌉ ⌈c.yw⌉ else 0

/-- The numbers of a sample, zero if nothing was hit. -/
def number (S : ℤ → ℤ → Pixel) (k : Nat) (i : ℤ × ℤ × Nat) : ℚ :=
  ((S i.1 i.2.1 i.2.2).hit.map fun d => d k).getD 0

/-- `L` lists each sample that lies under the filter of pixel `x`, `y` once: all samples of the image plane
within half the width (rounded up) of the pixel's centre. -/
structure Area (c : Cfg) (S : ℤ → ℤ → Pixel) (x y : ℤ) (L : List (ℤ × ℤ × Nat)) : Prop where
  nodup : L.Nodup
  mem : ∀ px py s, (px, py, s) ∈ L ↔ s < c.xs * c.ys ∧
    |(S px py s).x - ((x : ℚ) + 1 / 2)| ≤ (⌈c.xw⌉ : ℚ) / 2 ∧ |(S px py s).y - ((y : ℚ) + 1 / 2)| ≤ (⌈c.yw⌉ : ℚ) / 2

/-- Every sample lies inside its pixel. -/
def Inside (c : Cfg) (S : ℤ → ℤ → Pixel) : Prop := ∀ (px py : ℤ) (s : Nat), s < c.xs * c.ys →
  ((px : ℚ) < (S px py s).x ∧ (S px py s).x < px + 1) ∧ ((py : ℚ) < (S px py s).y ∧ (S px py s).y < py + 1)

/-- The number of pixels looked at on each side matches the width of the filter. -/
def Reaches (w : ℚ) : Prop := ⌊w / 2⌋ = ⌊(⌈w⌉ : ℚ) / 2⌋

/-- The pixel in row `j` and column `i`. -/
def pixel (rows : List (List Out)) (i j : Nat) : Option Out := rows[j]?.bind fun r => r[i]?

theorem mapM_some {α β : Type _} {f : α → Option β} {g : α → β} (L : List α) (h : ∀ x ∈ L, f x = some (g x)) :
    L.mapM f = some (L.map g) := by
  induction L with
  | nil => rfl
  | cons x L ih =>
    rw [List.mapM_cons, h x (by simp), ih fun y hy => h y (by simp [hy])]
    rfl

/-- What a run of `filterBucket` gives. -/
theorem filterBucket_eq (h : c.Ok) (hb : Holds c b S) (hf : initFilter c = some filt) :
    filterBucket c far filt valid b = some ((List.range b.h).map fun (j : Nat) => (List.range b.w).map fun (i : Nat) =>
      if valid then finish c far ((ids c).foldl (look c S (b.xMin + i) (b.yMin + j)) ⟨0, fun _ => 0, 0⟩)
      else blank far) := by
  rw [filterBucket]
  refine mapM_some _ fun j hj => ?_
  refine mapM_some _ fun i hi => ?_
  cases valid
  · rfl
  · simp only [if_true]
    rw [gather_eq h hb hf (List.mem_range.1 hi) (List.mem_range.1 hj)]
    rfl

/-- **C52.**  The filter table and the samples are never read or written out of bounds, and the result has the
size of the display region. -/
theorem C52_total (h : c.Ok) (hb : Holds c b S) : ∃ filt rows, initFilter c = some filt ∧
    filterBucket c far filt valid b = some rows ∧ rows.length = b.h ∧ ∀ r ∈ rows, r.length = b.w := by
  obtain ⟨filt, hf, -⟩ := initFilter_ok h
  refine ⟨filt, _, hf, filterBucket_eq h hb hf, by simp, ?_⟩
  intro r hr
  obtain ⟨j, -, rfl⟩ := List.mem_map.1 hr
  simp

theorem pixel_eq (h : c.Ok) (hb : Holds c b S) (hf : initFilter c = some filt)
    (hr : filterBucket c far filt valid b = some rows) (hp : pixel rows i j = some out) :
    i < b.w ∧ j < b.h ∧ out =
      if valid then finish c far ((ids c).foldl (look c S (b.xMin + i) (b.yMin + j)) ⟨0, fun _ => 0, 0⟩)
      else blank far := by
  rw [filterBucket_eq h hb hf] at hr
  cases hr
  rw [pixel, List.getElem?_map] at hp
  by_cases hj : j < b.h
  · rw [List.getElem?_range hj] at hp
    simp only [Option.map_some, Option.bind_some, List.getElem?_map] at hp
    by_cases hi : i < b.w
    · rw [List.getElem?_range hi] at hp
      simp only [Option.map_some, Option.some.injEq] at hp
      exact ⟨hi, hj, hp.symm⟩
    · rw [List.getElem?_eq_none (by simpa using hi)] at hp; simp at hp
  · rw [List.getElem?_eq_none (by simpa using hj)] at hp; simp at hp

/-! ### The samples the loops meet are those of the area -/

theorem within_iff {x y : ℤ} {p : Samp} : within c x y p ↔
    |p.x - ((x : ℚ) + 1 / 2)| ≤ (⌈c.xw⌉ : ℚ) / 2 ∧ |p.y - ((y : ℚ) + 1 / 2)| ≤ (⌈c.yw⌉ : ℚ) / 2 := by
  simp only [within, Cfg.xhalf, Cfg.yhalf, abs_le, ge_iff_le, mul_one_div]
  constructor
  · rintro ⟨h1, h2, h3, h4⟩; exact ⟨⟨h1, h3⟩, h2, h4⟩
  · rintro ⟨⟨h1, h3⟩, h2, h4⟩; exact ⟨h1, h2, h3, h4⟩

/-- The samples found by the loops. -/
def found (c : Cfg) (S : ℤ → ℤ → Pixel) (x y : ℤ) : List Id :=
  (ids c).filter fun i => decide (within c x y (samp S x y i))

theorem near {w p d : ℚ} {n : ℤ} (hr : Reaches w) (h1 : n < p) (h2 : p < n + 1) (hw : |p - (d + 1 / 2)| ≤ (⌈w⌉ : ℚ) / 2)
    (m : ℤ) (hd : d = m) : -⌊w / 2⌋ ≤ n - m ∧ n - m ≤ ⌊w / 2⌋ := by
  rw [Reaches] at hr
  rw [hr]
  rw [abs_le] at hw
  subst hd
  have ha : ((m - n : ℤ) : ℚ) < (⌈w⌉ : ℚ) / 2 + 1 / 2 := by push_cast; linarith [hw.1]
  have hb : ((n - m : ℤ) : ℚ) < (⌈w⌉ : ℚ) / 2 + 1 / 2 := by push_cast; linarith [hw.2]
  have key : ∀ k : ℤ, (k : ℚ) < (⌈w⌉ : ℚ) / 2 + 1 / 2 → k ≤ ⌊(⌈w⌉ : ℚ) / 2⌋ := by
    intro k hk
    rw [Int.le_floor]
    have : 2 * k < ⌈w⌉ + 1 := by
      have : ((2 * k : ℤ) : ℚ) < ((⌈w⌉ + 1 : ℤ) : ℚ) := by push_cast; linarith
      exact_mod_cast this
    have : ((2 * k : ℤ) : ℚ) ≤ (⌈w⌉ : ℚ) := by exact_mod_cast Int.lt_add_one_iff.1 this
    push_cast at this
    linarith
  have := key _ ha
  have := key _ hb
  omega

theorem found_perm (h : c.Ok) (hx : Reaches c.xw) (hy : Reaches c.yw) (hS : Inside c S) {x y : ℤ}
    (hL : Area c S x y L) :
    ((found c S x y).map fun i => (x + i.1, y + i.2.1, i.2.2)).Perm L := by
  refine (List.perm_ext_iff_of_nodup ?_ hL.nodup).2 ?_
  · refine List.Nodup.map ?_ ((nodup_ids c).filter _)
    rintro ⟨a, a', s⟩ ⟨b, b', t⟩ hab
    simp only [Prod.mk.injEq] at hab ⊢
    omega
  · rintro ⟨px, py, s⟩
    rw [hL.mem]
    simp only [List.mem_map, found, List.mem_filter, decide_eq_true_eq, Prod.mk.injEq, mem_ids, within_iff, samp]
    constructor
    · rintro ⟨⟨a, a', t⟩, ⟨⟨_, _, h3⟩, h4⟩, rfl, rfl, rfl⟩
      exact ⟨h3, h4⟩
    · rintro ⟨hs, hw⟩
      have hi := hS px py s hs
      refine ⟨(px - x, py - y, s), ⟨⟨?_, ?_, hs⟩, ?_⟩, by simp, by simp, rfl⟩
      · rw [mem_steps (xmax_nonneg h)]
        exact near hx hi.1.1 hi.1.2 hw.1 x rfl
      · rw [mem_steps (ymax_nonneg h)]
        exact near hy hi.2.1 hi.2.2 hw.2 y rfl
      · simpa using hw

theorem tap_eq (x y : ℤ) (i : Id) : tap c x y (x + i.1) (y + i.2.1) i.2.2 = wt c i := by
  have e1 : (((x + i.1 : ℤ) : ℚ) + ((i.2.2 % c.xs : Nat) + 1 / 2) / c.xs) - (x + 1 / 2) =
      (((i.2.2 % c.xs : Nat) : ℚ) + 1 / 2) / c.xs + i.1 - 1 / 2 := by push_cast; ring
  have e2 : (((y + i.2.1 : ℤ) : ℚ) + ((i.2.2 / c.xs : Nat) + 1 / 2) / c.ys) - (y + 1 / 2) =
      (((i.2.2 / c.xs : Nat) : ℚ) + 1 / 2) / c.ys + i.2.1 - 1 / 2 := by push_cast; ring
  simp only [tap, e1, e2, wt, weightAt, Cfg.xhalf, Cfg.yhalf, mul_one_div, abs_le, ge_iff_le]
  refine if_congr ?_ rfl rfl
  constructor
  · rintro ⟨⟨h1, h3⟩, h2, h4⟩; exact ⟨h1, h2, h3, h4⟩
  · rintro ⟨h1, h2, h3, h4⟩; exact ⟨⟨h1, h3⟩, h2, h4⟩

theorem val_eq (x y : ℤ) (k : Nat) (i : Id) : number S k (x + i.1, y + i.2.1, i.2.2) = val S x y k i := by
  simp only [number, val, samp]
  cases (S (x + i.1) (y + i.2.1) i.2.2).hit <;> rfl

/-- The sums of a pixel, in terms of the area. -/
theorem acc_eq (h : c.Ok) (hx : Reaches c.xw) (hy : Reaches c.yw) (hS : Inside c S) {x y : ℤ}
    (hL : Area c S x y L) :
    (ids c).foldl (look c S x y) ⟨0, fun _ => 0, 0⟩ =
      ⟨(L.map fun i => tap c x y i.1 i.2.1 i.2.2).sum,
       fun k => (L.map fun i => number S k i * tap c x y i.1 i.2.1 i.2.2).sum,
       L.countP fun i => (S i.1 i.2.1 i.2.2).hit.isSome⟩ := by
  have hp := found_perm h hx hy hS hL
  rw [foldl_look]
  simp only [Acc.mk.injEq, zero_add]
  refine ⟨?_, ?_, ?_⟩
  · rw [← (hp.map _).sum_eq, List.map_map]
    refine congrArg List.sum (List.map_congr_left fun i _ => ?_)
    exact (tap_eq x y i).symm
  · funext k
    rw [← (hp.map _).sum_eq, List.map_map]
    refine congrArg List.sum (List.map_congr_left fun i _ => ?_)
    simp only [Function.comp]
    rw [tap_eq x y i, val_eq]
  · rw [← hp.countP_eq, List.countP_map]
    rfl

/-- Everything known about the bucket when the theorems below speak about its pixels. -/
structure Run (c : Cfg) (far : ℚ) (b : Bucket) (S : ℤ → ℤ → Pixel) (valid : Bool) (rows : List (List Out)) :
    Prop where
  ok : c.Ok
  holds : Holds c b S
  inside : Inside c S
  reachX : Reaches c.xw
  reachY : Reaches c.yw
  run : ((initFilter c).bind fun filt => filterBucket c far filt valid b) = some rows
  /-- `m_hasValidSamples` is unset only if there is no valid sample in the bucket's data. -/
  valid : valid = false → ∀ px py s, (S px py s).hit = none

theorem Run.outEq (r : Run c far b S valid rows) (hp : pixel rows i j = some out)
    (hL : Area c S (b.xMin + i) (b.yMin + j) L) : out = finish c far
      ⟨(L.map fun t => tap c (b.xMin + i) (b.yMin + j) t.1 t.2.1 t.2.2).sum,
       fun k => (L.map fun t => number S k t * tap c (b.xMin + i) (b.yMin + j) t.1 t.2.1 t.2.2).sum,
       L.countP fun i => (S i.1 i.2.1 i.2.2).hit.isSome⟩ := by
  obtain ⟨filt, hf, -⟩ := initFilter_ok r.ok
  have hr := r.run
  rw [hf, Option.bind_some] at hr
  obtain ⟨-, -, he⟩ := pixel_eq r.ok r.holds hf hr hp
  rw [acc_eq r.ok r.reachX r.reachY r.inside hL] at he
  rw [he]
  cases hv : valid with
  | true => rfl
  | false =>
    have hn := r.valid hv
    have h0 : (L.countP fun i => (S i.1 i.2.1 i.2.2).hit.isSome) = 0 := by
      rw [List.countP_eq_zero]; intro a _; simp [hn]
    rw [finish]
    simp only [h0]
    simp

/-- **C52 (partial).**  A pixel with a hit under its filter gets, in every number, the mean of the samples under
the filter weighted by the filter; samples that hit nothing count as zero.  Only for filter widths that
reach as far as their rounded width (not, for example, 3/2), and unless the weights cancel. -/
theorem C52_mean_partial (r : Run c far b S valid rows) (hp : pixel rows i j = some out)
    (hL : Area c S (b.xMin + i) (b.yMin + j) L) (hit : ∃ t ∈ L, (S t.1 t.2.1 t.2.2).hit ≠ none)
    (hw : (L.map fun t => tap c (b.xMin + i) (b.yMin + j) t.1 t.2.1 t.2.2).sum ≠ 0) (k : Nat) :
    out.chan k = some ((L.map fun t => number S k t * tap c (b.xMin + i) (b.yMin + j) t.1 t.2.1 t.2.2).sum /
      (L.map fun t => tap c (b.xMin + i) (b.yMin + j) t.1 t.2.1 t.2.2).sum) := by
  rw [r.outEq hp hL, finish]
  have h0 : (L.countP fun i => (S i.1 i.2.1 i.2.2).hit.isSome) ≠ 0 := by
    obtain ⟨t, ht, h1⟩ := hit
    refine (List.countP_pos_iff.2 ⟨t, ht, ?_⟩).ne'
    exact Option.isSome_iff_ne_none.2 h1
  simp only [if_neg h0, withAlpha, if_neg hw, mul_one_div]

/-- **C52.**  A pixel without a hit under its filter is black, transparent, uncovered and infinitely far; and
this is also what a bucket marked as empty gives. -/
theorem C52_blank (r : Run c far b S valid rows) (hp : pixel rows i j = some out)
    (hL : Area c S (b.xMin + i) (b.yMin + j) L) (hit : ∀ t ∈ L, (S t.1 t.2.1 t.2.2).hit = none) :
    (∀ k, out.chan k = some (if k = 6 then far else 0)) ∧ out.alpha = some 0 ∧ out.coverage = 0 := by
  have h0 : (L.countP fun i => (S i.1 i.2.1 i.2.2).hit.isSome) = 0 := by
    rw [List.countP_eq_zero]; intro t ht; simp [hit t ht]
  rw [r.outEq hp hL, finish]
  simp only [h0, if_true]
  exact ⟨fun k => rfl, by simp [blank, withAlpha], rfl⟩

theorem sum_const {v : ℚ} (f g : ℤ × ℤ × Nat → ℚ) (L : List (ℤ × ℤ × Nat)) (h : ∀ t ∈ L, f t = v) :
    (L.map fun t => f t * g t).sum = v * (L.map g).sum := by
  induction L with
  | nil => simp
  | cons a L ih =>
    simp only [List.map_cons, List.sum_cons]
    rw [ih fun t ht => h t (by simp [ht]), h a (by simp)]
    ring

theorem own_mem (h : c.Ok) (hS : Inside c S) {x y : ℤ} (hL : Area c S x y L) {s : Nat} (hs : s < c.xs * c.ys) :
    (x, y, s) ∈ L := by
  rw [hL.mem]
  have hi := hS x y s hs
  have hx : (1 : ℚ) ≤ ⌈c.xw⌉ := by exact_mod_cast Int.one_le_ceil_iff.2 h.xw
  have hy : (1 : ℚ) ≤ ⌈c.yw⌉ := by exact_mod_cast Int.one_le_ceil_iff.2 h.yw
  refine ⟨hs, ?_, ?_⟩
  · rw [abs_le]; constructor <;> linarith [hi.1.1, hi.1.2]
  · rw [abs_le]; constructor <;> linarith [hi.2.1, hi.2.2]

/-- **C52.**  Where all samples under the filter agree, the pixel has their value. -/
theorem C52_constant (r : Run c far b S valid rows) (hp : pixel rows i j = some out)
    (hL : Area c S (b.xMin + i) (b.yMin + j) L) (k : Nat) (v : ℚ)
    (hit : ∀ t ∈ L, ∃ d, (S t.1 t.2.1 t.2.2).hit = some d ∧ d k = v)
    (hw : (L.map fun t => tap c (b.xMin + i) (b.yMin + j) t.1 t.2.1 t.2.2).sum ≠ 0) :
    out.chan k = some v := by
  have hne : L ≠ [] := by rintro rfl; simp at hw
  obtain ⟨t, L', rfl⟩ := List.exists_cons_of_ne_nil hne
  rw [C52_mean_partial r hp hL ⟨t, by simp, by obtain ⟨d, h, _⟩ := hit t (by simp); simp [h]⟩ hw]
  rw [sum_const (v := v)]
  · rw [mul_div_assoc, div_self hw, mul_one]
  · intro t ht
    obtain ⟨d, h1, h2⟩ := hit t ht
    simp [number, h1, h2]

theorem sum_mul_le {v : ℚ} (f g : ℤ × ℤ × Nat → ℚ) (L : List (ℤ × ℤ × Nat)) (hg : ∀ t ∈ L, 0 ≤ g t)
    (h : ∀ t ∈ L, f t ≤ v) : (L.map fun t => f t * g t).sum ≤ v * (L.map g).sum := by
  induction L with
  | nil => simp
  | cons a L ih =>
    simp only [List.map_cons, List.sum_cons]
    have h1 := ih (fun t ht => hg t (by simp [ht])) (fun t ht => h t (by simp [ht]))
    have h2 := mul_le_mul_of_nonneg_right (h a (by simp)) (hg a (by simp))
    rw [mul_add]
    exact add_le_add h2 h1

theorem le_sum_mul {v : ℚ} (f g : ℤ × ℤ × Nat → ℚ) (L : List (ℤ × ℤ × Nat)) (hg : ∀ t ∈ L, 0 ≤ g t)
    (h : ∀ t ∈ L, v ≤ f t) : v * (L.map g).sum ≤ (L.map fun t => f t * g t).sum := by
  have := sum_mul_le (v := -v) (fun t => -f t) g L hg (fun t ht => by linarith [h t ht])
  have e : (L.map fun t => -f t * g t).sum = -(L.map fun t => f t * g t).sum := by
    clear this h hg
    induction L with
    | nil => simp
    | cons a L ih => simp only [List.map_cons, List.sum_cons]; rw [ih]; ring
  rw [e] at this
  linarith

/-- **C52.**  A filter without negative lobes gives no value outside the range of the samples under it
(a missed sample counting as zero). -/
theorem C52_range (r : Run c far b S valid rows) (hp : pixel rows i j = some out)
    (hL : Area c S (b.xMin + i) (b.yMin + j) L) (hit : ∃ t ∈ L, (S t.1 t.2.1 t.2.2).hit ≠ none)
    (hf : ∀ x y w h, 0 ≤ c.f x y w h)
    (hw : (L.map fun t => tap c (b.xMin + i) (b.yMin + j) t.1 t.2.1 t.2.2).sum ≠ 0) (k : Nat) (lo hi : ℚ)
    (hlo : ∀ t ∈ L, lo ≤ number S k t) (hhi : ∀ t ∈ L, number S k t ≤ hi) :
    ∃ v, out.chan k = some v ∧ lo ≤ v ∧ v ≤ hi := by
  refine ⟨_, C52_mean_partial r hp hL hit hw k, ?_⟩
  have hg : ∀ t ∈ L, 0 ≤ tap c (b.xMin + i) (b.yMin + j) t.1 t.2.1 t.2.2 := by
    intro t _
    simp only [tap]
    split_ifs
    · exact hf _ _ _ _
    · exact le_refl _
  have hpos : 0 < (L.map fun t => tap c (b.xMin + i) (b.yMin + j) t.1 t.2.1 t.2.2).sum := by
    refine lt_of_le_of_ne (List.sum_nonneg ?_) hw.symm
    intro v hv
    obtain ⟨t, ht, rfl⟩ := List.mem_map.1 hv
    exact hg t ht
  constructor
  · rw [le_div_iff₀ hpos]
    exact le_sum_mul (fun t => number S k t) _ L hg hlo
  · rw [div_le_iff₀ hpos]
    exact sum_mul_le (fun t => number S k t) _ L hg hhi

theorem own_sub (h : c.Ok) (hS : Inside c S) {x y : ℤ} (hL : Area c S x y L) (q : ℤ × ℤ × Nat → Bool) :
    ((List.range (c.xs * c.ys)).countP fun s => q (x, y, s)) ≤ L.countP q := by
  have h1 : ((List.range (c.xs * c.ys)).map fun s => (x, y, s)).Subperm L := by
    refine List.subperm_of_subset ?_ ?_
    · refine List.Nodup.map ?_ List.nodup_range
      intro a b hab; simpa using hab
    · intro t ht
      obtain ⟨s, hs, rfl⟩ := List.mem_map.1 ht
      exact own_mem h hS hL (List.mem_range.1 hs)
  have := h1.countP_le q
  rwa [List.countP_map] at this

/-- **C52 (partial).**  Where all samples under the filter are hits, alpha is the mean of the filtered opacity and
the pixel is fully covered. -/
theorem C52_alpha_partial (r : Run c far b S valid rows) (hp : pixel rows i j = some out)
    (hL : Area c S (b.xMin + i) (b.yMin + j) L) (hit : ∀ t ∈ L, (S t.1 t.2.1 t.2.2).hit ≠ none)
    (o0 o1 o2 : ℚ) (h0 : out.chan 3 = some o0) (h1 : out.chan 4 = some o1) (h2 : out.chan 5 = some o2) :
    out.alpha = some ((o0 + o1 + o2) / 3) ∧ out.coverage = 1 := by
  have hc : c.sub ≤ L.countP fun i => (S i.1 i.2.1 i.2.2).hit.isSome := by
    refine le_trans ?_ (own_sub r.ok r.inside hL fun i => (S i.1 i.2.1 i.2.2).hit.isSome)
    refine le_of_eq ?_
    rw [List.countP_eq_length.2, List.length_range]
    · rfl
    intro s hs
    exact Option.isSome_iff_ne_none.2 (hit (b.xMin + i, b.yMin + j, s)
      (own_mem r.ok r.inside hL (List.mem_range.1 hs)))
  have hpos : 0 < c.sub := Nat.mul_pos r.ok.xs r.ok.ys
  have ho := r.outEq hp hL
  rw [finish, if_neg (by simp only; omega)] at ho
  subst ho
  simp only [withAlpha] at h0 h1 h2 ⊢
  rw [h0, h1, h2, if_pos hc]
  simp

/-- **C52 (partial).**  With a filter no wider than a pixel, the coverage is the part of the pixel's samples that hit
something. -/
theorem C52_coverage_partial (r : Run c far b S valid rows) (hp : pixel rows i j = some out)
    (hx : c.xw ≤ 1) (hy : c.yw ≤ 1) :
    out.coverage = (((List.range (c.xs * c.ys)).countP fun s =>
      (S (b.xMin + i) (b.yMin + j) s).hit.isSome : Nat) : ℚ) / (c.xs * c.ys : Nat) := by
  have hcx : ⌈c.xw⌉ = 1 := by
    rw [Int.ceil_eq_iff]; push_cast; exact ⟨by linarith [r.ok.xw], hx⟩
  have hcy : ⌈c.yw⌉ = 1 := by
    rw [Int.ceil_eq_iff]; push_cast; exact ⟨by linarith [r.ok.yw], hy⟩
  let x := b.xMin + (i : ℤ)
  let y := b.yMin + (j : ℤ)
  have hL : Area c S x y ((List.range (c.xs * c.ys)).map fun s => (x, y, s)) := by
    constructor
    · refine List.Nodup.map ?_ List.nodup_range
      intro a b hab; simpa using hab
    · intro px py s
      simp only [List.mem_map, List.mem_range, Prod.mk.injEq]
      constructor
      · rintro ⟨s', hs, rfl, rfl, rfl⟩
        have hi := r.inside x y s' hs
        refine ⟨hs, ?_, ?_⟩
        · rw [hcx, abs_le]; push_cast; constructor <;> linarith [hi.1.1, hi.1.2]
        · rw [hcy, abs_le]; push_cast; constructor <;> linarith [hi.2.1, hi.2.2]
      · rintro ⟨hs, h1, h2⟩
        have hi := r.inside px py s hs
        have n1 := near r.reachX hi.1.1 hi.1.2 h1 x rfl
        have n2 := near r.reachY hi.2.1 hi.2.2 h2 y rfl
        have e1 : ⌊c.xw / 2⌋ = 0 := by
          rw [Int.floor_eq_zero_iff]; exact ⟨by linarith [r.ok.xw], by linarith⟩
        have e2 : ⌊c.yw / 2⌋ = 0 := by
          rw [Int.floor_eq_zero_iff]; exact ⟨by linarith [r.ok.yw], by linarith⟩
        rw [e1] at n1
        rw [e2] at n2
        exact ⟨s, hs, by omega, by omega, rfl⟩
  have hn : (List.countP (fun i => (S i.1 i.2.1 i.2.2).hit.isSome)
      ((List.range (c.xs * c.ys)).map fun s => (x, y, s))) =
      (List.range (c.xs * c.ys)).countP fun s => (S x y s).hit.isSome := by
    rw [List.countP_map]; rfl
  have ho := r.outEq hp hL
  rw [hn] at ho
  have hle : ((List.range (c.xs * c.ys)).countP fun s => (S x y s).hit.isSome) ≤ c.sub := by
    refine le_trans List.countP_le_length ?_
    rw [List.length_range]; rfl
  have hpos : 0 < c.sub := Nat.mul_pos r.ok.xs r.ok.ys
  change out.coverage = (((List.range (c.xs * c.ys)).countP fun s => (S x y s).hit.isSome : Nat) : ℚ) / c.sub
  generalize ((List.range (c.xs * c.ys)).countP fun s => (S x y s).hit.isSome) = n at ho hle
  subst ho
  by_cases h0 : n = 0
  · rw [finish]
    simp only [h0, if_true, blank, withAlpha]
    simp
  · rw [finish]
    simp only [if_neg h0, withAlpha]
    by_cases h1 : n ≥ c.sub
    · have : n = c.sub := le_antisymm hle h1
      rw [if_pos h1, this, div_self (by exact_mod_cast hpos.ne')]
    · rw [if_neg h1]

/-- **C52.**  The early exits of the exposure change nothing: the colour is `(colour * gain) ^ (1 / gamma)`, also in an
empty bucket, where the colour is zero. -/
theorem C52_expose (pow : ℚ → ℚ → ℚ) (pow_one : ∀ x, pow x 1 = x) (pow_zero : ∀ y, 0 < y → pow 0 y = 0)
    (gain gamma v : ℚ) (hg : 0 < gamma) (valid imager : Bool) (he : valid = false → imager = false → v = 0) :
    expose pow gain gamma valid imager (some v) = some (pow (v * gain) (1 / gamma)) := by
  unfold expose
  by_cases h1 : valid = false ∧ imager = false
  · rw [if_pos h1, he h1.1 h1.2, zero_mul, pow_zero _ (by positivity)]
  · rw [if_neg h1]
    by_cases h2 : gain = 1 ∧ gamma = 1
    · rw [if_pos h2, h2.1, h2.2]; norm_num [pow_one]
    · rw [if_neg h2]
      by_cases h3 : gain = 1
      · have h4 : gamma ≠ 1 := fun h => h2 ⟨h3, h⟩
        simp [h3, h4]
      · by_cases h4 : gamma = 1
        · simp [h3, h4, pow_one]
        · simp [h3, h4]

/-! ### Where the pixels are wrong -/

/-- A box filter. -/
def box (_ _ _ _ : ℚ) : ℚ := 1

/-- Samples on a regular grid, the numbers of a hit being all `1` except for the depth. -/
def plane (xs ys : Nat) (depth : ℚ) (hit : ℤ → ℤ → Nat → Bool) (px py : ℤ) (s : Nat) : Samp :=
  { x := px + ((s % xs : Nat) + 1 / 2) / xs
    y := py + ((s / xs : Nat) + 1 / 2) / ys
    hit := if hit px py s then some fun k => if k = 6 then depth else 1 else none }

/-- A bucket of one pixel at the origin with its surroundings. -/
def single (c : Cfg) (S : ℤ → ℤ → Pixel) : Bucket :=
  { xMin := 0, yMin := 0, w := 1, h := 1
    image := (steps c.ymax).flatMap fun py => (steps c.xmax).map fun px => S px py }

/-- The result for that pixel. -/
def render (c : Cfg) (S : ℤ → ℤ → Pixel) : Option Out :=
  ((initFilter c).bind fun filt => filterBucket c 1000 filt true (single c S)).bind fun rows => pixel rows 0 0

private def half : Cfg := ⟨1, 1, 2, 1, box, 1, 1⟩
private def leftHit (_ _ : ℤ) (s : Nat) : Bool := s == 0

/-- **C52 violated.**  A pixel half covered by an opaque surface gets the mean opacity 1/2 but the alpha 1/4: the
coverage is counted twice. -/
theorem C52_alpha_violated : ∃ (c : Cfg) (S : ℤ → ℤ → Pixel), c.Ok ∧ Reaches c.xw ∧ Reaches c.yw ∧
    ((render c S).map fun o => (o.chan 3, o.chan 4, o.chan 5, o.alpha)) =
      some (some (1 / 2), some (1 / 2), some (1 / 2), some (1 / 4)) := by
  refine ⟨half, plane 2 1 10 leftHit, ⟨?_, ?_, ?_, ?_⟩, ?_, ?_, ?_⟩
  · norm_num [half]
  · norm_num [half]
  · norm_num [half]
  · norm_num [half]
  · unfold Reaches; decide +kernel
  · unfold Reaches; decide +kernel
  · decide +kernel

/-- **C52 violated.**  A pixel half covered by a surface at depth 10 gets the depth 5, nearer than the surface. -/
theorem C52_depth_violated : ∃ (c : Cfg) (S : ℤ → ℤ → Pixel), c.Ok ∧ Reaches c.xw ∧ Reaches c.yw ∧
    (∀ px py s d, (S px py s).hit = some d → d 6 = 10) ∧
    ((render c S).map fun o => o.chan 6) = some (some 5) := by
  refine ⟨half, plane 2 1 10 leftHit, ⟨?_, ?_, ?_, ?_⟩, ?_, ?_, ?_, ?_⟩
  · norm_num [half]
  · norm_num [half]
  · norm_num [half]
  · norm_num [half]
  · unfold Reaches; decide +kernel
  · unfold Reaches; decide +kernel
  · intro px py s d hd
    simp only [plane] at hd
    split_ifs at hd
    cases hd
    simp
  · decide +kernel

private def wide : Cfg := ⟨3, 3, 1, 1, box, 1, 1⟩
private def rightHit (px _ : ℤ) (_ : Nat) : Bool := px == 1

/-- **C52 violated.**  A pixel none of whose samples hits anything is fully covered if its neighbours are hit. -/
theorem C52_coverage_violated : ∃ (c : Cfg) (S : ℤ → ℤ → Pixel), c.Ok ∧ Reaches c.xw ∧ Reaches c.yw ∧
    (∀ s, (S 0 0 s).hit = none) ∧ ((render c S).map fun o => o.coverage) = some 1 := by
  refine ⟨wide, plane 1 1 10 rightHit, ⟨?_, ?_, ?_, ?_⟩, ?_, ?_, ?_, ?_⟩
  · norm_num [wide]
  · norm_num [wide]
  · norm_num [wide]
  · norm_num [wide]
  · unfold Reaches; decide +kernel
  · unfold Reaches; decide +kernel
  · intro s; simp [plane, rightHit]
  · decide +kernel

private def odd : Cfg := ⟨3 / 2, 3 / 2, 2, 1, box, 1, 1⟩
private def nextHit (px _ : ℤ) (s : Nat) : Bool := px == 1 && s == 0

/-- **C52 violated.**  With a filter of width 3/2 (evaluated as one of width 2) the neighbouring pixels are not looked
at: a sample 3/4 away from the centre, where the filter is 1, is left out. -/
theorem C52_reach_violated : ∃ (c : Cfg) (S : ℤ → ℤ → Pixel), c.Ok ∧ c.xw = 3 / 2 ∧
    (S 1 0 0).hit.isSome = true ∧ (S 1 0 0).x = 5 / 4 ∧ (S 1 0 0).y = 1 / 2 ∧ tap c 0 0 1 0 0 = 1 ∧
    ((render c S).map fun o => (o.chan 0, o.coverage)) = some (some 0, 0) := by
  refine ⟨odd, plane 2 1 10 nextHit, ⟨?_, ?_, ?_, ?_⟩, rfl, ?_, ?_, ?_, ?_, ?_⟩
  · norm_num [odd]
  · norm_num [odd]
  · norm_num [odd]
  · norm_num [odd]
  · decide +kernel
  · decide +kernel
  · decide +kernel
  · decide +kernel
  · decide +kernel

/-- The premises can be met. -/
example : ∃ rows, Run half 1000 (single half (plane 2 1 10 leftHit)) (plane 2 1 10 leftHit) true rows := by
  have hok : half.Ok := ⟨by norm_num [half], by norm_num [half], by norm_num [half], by norm_num [half]⟩
  have ex : half.xmax = 0 := by decide +kernel
  have ey : half.ymax = 0 := by decide +kernel
  have ei : (single half (plane 2 1 10 leftHit)).image = [plane 2 1 10 leftHit 0 0] := by
    rw [single]; simp only [ex, ey]; rfl
  have hb : Holds half (single half (plane 2 1 10 leftHit)) (plane 2 1 10 leftHit) := by
    refine ⟨le_refl _, le_refl _, by rw [ex, ey, ei]; rfl, ?_⟩
    intro px py h1 h2 h3 h4
    have h1 : (0 : ℤ) - half.xmax ≤ px := h1
    have h2 : px < (0 : ℤ) + 1 + half.xmax := h2
    have h3 : (0 : ℤ) - half.ymax ≤ py := h3
    have h4 : py < (0 : ℤ) + 1 + half.ymax := h4
    have e1 : px = 0 := by omega
    have e2 : py = 0 := by omega
    subst e1 e2
    rw [ex, ey, ei]
    rfl
  obtain ⟨filt, rows, h1, h2, -⟩ := C52_total (far := 1000) (valid := true) hok hb
  refine ⟨rows, hok, hb, ?_, ?_, ?_, by rw [h1]; exact h2, by simp⟩
  · intro px py s hs
    have : s = 0 ∨ s = 1 := by simp [half] at hs; omega
    rcases this with rfl | rfl <;> simp only [plane] <;> norm_num
  · unfold Reaches; decide +kernel
  · unfold Reaches; decide +kernel

/-- The widths in use: all whole numbers reach, for example, and 5/2, but not 3/2. -/
example : Reaches 1 ∧ Reaches 2 ∧ Reaches 3 ∧ Reaches (5 / 2) ∧ ¬ Reaches (3 / 2) := by
  unfold Reaches; decide +kernel

/-- A run the theorems speak about. -/
example : ((render wide (plane 1 1 10 fun _ _ _ => true)).map fun o => (o.chan 0, o.chan 6, o.alpha, o.coverage)) =
    some (some 1, some 10, some 1, 1) := by decide +kernel

example : ((render wide (plane 1 1 10 fun px py _ => px == 1 && py == 0)).map fun o => (o.chan 0, o.coverage)) =
    some (some (1 / 9), 1) := by decide +kernel

end Verif.Core.FilterBucket
