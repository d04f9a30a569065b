import Verif.Core.BucketCache
import Verif.Core.BucketPostProps
/-!
# Lemmas about passing samples from bucket to bucket
-/
namespace Verif.Core.BucketCache

open Verif.Core.Buckets

/-- Sensible parameters: a crop window with a pixel, inside the image, and bucket sizes of at least twice
the whole pixels of half the filter width. -/
structure Sane (P : Params) : Prop where
  hw : 0 < P.bw
  hh : 0 < P.bh
  x0 : 0 ≤ P.crop.xMin
  x1 : P.crop.xMin < P.crop.xMax
  x2 : P.crop.xMax ≤ P.xRes
  y0 : 0 ≤ P.crop.yMin
  y1 : P.crop.yMin < P.crop.yMax
  y2 : P.crop.yMax ≤ P.yRes
  sx0 : 0 ≤ P.sx
  sy0 : 0 ≤ P.sy
  sx1 : P.sx * 2 ≤ P.bw
  sy1 : P.sy * 2 ≤ P.bh

/-- A pixel that is needed: in the crop window or as near to it as the filter reaches. -/
def Needed (P : Params) (px py : Int) : Prop :=
  P.crop.xMin - P.sx ≤ px ∧ px < P.crop.xMax + P.sx ∧ P.crop.yMin - P.sy ≤ py ∧ py < P.crop.yMax + P.sy

/-- A cut of an image. -/
def cut (P : Params) (I : Image) (side : Side) : Image :=
  fun x y => if Inside (cacheRegion P side) (x + (cacheRegion P side).xMin) (y + (cacheRegion P side).yMin)
    then I (x + (cacheRegion P side).xMin) (y + (cacheRegion P side).yMin) else none

/-- The image still has the contents `I` on the side. -/
def Agrees (P : Params) (I img : Image) (side : Side) : Prop :=
  ∀ x y, Inside (cacheRegion P side) x y → img x y = I x y

theorem area_nonneg {P : Params} (S : Sane P) (side : Side) :
    ¬ ((cacheRegion P side).xMax - (cacheRegion P side).xMin) *
      ((cacheRegion P side).yMax - (cacheRegion P side).yMin) < 0 := by
  have h1 := S.sx0; have h2 := S.sy0; have h3 := S.sx1; have h4 := S.sy1
  rw [not_lt]
  apply Int.mul_nonneg <;> cases side <;> simp only [cacheRegion] <;> omega

theorem build_ok {P : Params} (S : Sane P) {side : Side} {I img : Image} (h : Agrees P I img side) :
    build P side img = .ok (cut P I side, fun x y => if Inside (cacheRegion P side) x y then none else img x y) := by
  rw [build]
  rw [if_neg (area_nonneg S side)]
  congr 2
  funext x y
  rw [cut]
  split_ifs with hi
  · exact h _ _ hi
  · rfl

theorem sides_disjoint {P : Params} (S : Sane P) {k k' : Side} (hne : k ≠ k') {x y : Int}
    (h : Inside (cacheRegion P k) x y) : ¬ Inside (cacheRegion P k') x y := by
  intro h'
  have h1 := S.sx1; have h2 := S.sy1
  cases k <;> cases k' <;>
    first
    | exact hne rfl
    | (simp only [cacheRegion, Inside] at h h'; omega)

/-- The variables of `postProcess` in terms of the image `I` at its start; `ax` lists the sides built. -/
def K (P : Params) (I : Image) (ax : Side → Prop) (s : Post) : Prop :=
  ∀ k, ax k ∨ (s.loc k = none ∧ Agrees P I s.img k) ∨ s.loc k = some (cut P I k)

/-- The segments after a corner is handed to a neighbour. -/
def giveCorner (P : Params) (I : Image) (nc nr : Int) (side nside : Side)
    (segs : Int → Int → Side → Option Image) : Int → Int → Side → Option Image :=
  fun c r k => if c = nc ∧ r = nr ∧ k = nside ∧ segs c r k = none then some (cut P I side) else segs c r k

theorem agrees_build {P : Params} (S : Sane P) {I img : Image} {k k' : Side} (hne : k' ≠ k) (h : Agrees P I img k') :
    Agrees P I (fun x y => if Inside (cacheRegion P k) x y then none else img x y) k' := by
  intro x y hi
  show (if Inside (cacheRegion P k) x y then none else img x y) = I x y
  rw [if_neg (sides_disjoint S hne hi)]
  exact h x y hi

theorem setSeg_ok {segs : Int → Int → Side → Option Image} {c r : Int} {k : Side} (h : segs c r k = none)
    (g : Image) : setSeg segs c r k g =
      .ok fun c' r' k' => if c' = c ∧ r' = r ∧ k' = k then some g else segs c' r' k' := by
  rw [setSeg, h]; rfl

theorem corner_ok {P : Params} (S : Sane P) {I : Image} {ax : Side → Prop} {s : Post} (hK : K P I ax s)
    (fresh : Bool) (nc nr : Int) (side nside : Side) (hax : ¬ ax side)
    (hfresh : fresh = true → s.loc side = none) :
    ∃ s', corner P fresh nc nr side nside s = .ok s' ∧ K P I ax s' ∧
      s'.segs = giveCorner P I nc nr side nside s.segs ∧ (∀ k, k ≠ side → s'.loc k = s.loc k) := by
  rw [corner]
  cases hs : s.segs nc nr nside with
  | some g =>
    refine ⟨s, by simp, hK, ?_, fun _ _ => rfl⟩
    funext c r k
    rw [giveCorner]
    split_ifs with h
    · obtain ⟨rfl, rfl, rfl, h⟩ := h
      rw [hs] at h; cases h
    · rfl
  | none =>
    have hgive : (fun c' r' k' => if c' = nc ∧ r' = nr ∧ k' = nside then some (cut P I side)
        else s.segs c' r' k') = giveCorner P I nc nr side nside s.segs := by
      funext c r k
      rw [giveCorner]
      by_cases h : c = nc ∧ r = nr ∧ k = nside
      · rw [if_pos h, if_pos]
        obtain ⟨rfl, rfl, rfl⟩ := h
        exact ⟨rfl, rfl, rfl, hs⟩
      · rw [if_neg h, if_neg]
        rintro ⟨h1, h2, h3, -⟩
        exact h ⟨h1, h2, h3⟩
    rw [if_neg (by simp)]
    have hk := (hK side).resolve_left hax
    cases hl : (if fresh = true then none else s.loc side) with
    | some g =>
      have hg : g = cut P I side := by
        split_ifs at hl
        rcases hk with ⟨h, -⟩ | h
        · rw [h] at hl; cases hl
        · rw [h] at hl; cases hl; rfl
      simp only [setSeg_ok hs]
      refine ⟨_, rfl, hK, ?_, fun _ _ => rfl⟩
      rw [hg]; exact hgive
    | none =>
      have hag : Agrees P I s.img side := by
        rcases hk with ⟨-, h⟩ | h
        · exact h
        · exfalso
          cases fresh
          · simp only [Bool.false_eq_true, if_false] at hl; rw [h] at hl; cases hl
          · have := hfresh rfl; rw [h] at this; cases this
      simp only [build_ok S hag, setSeg_ok hs]
      refine ⟨_, rfl, ?_, hgive, ?_⟩
      · intro k
        by_cases hk' : k = side
        · subst hk'
          right; right
          simp
        · rcases hK k with h | ⟨h1, h2⟩ | h
          · exact Or.inl h
          · right; left
            exact ⟨by simp [hk', h1], agrees_build S hk' h2⟩
          · right; right
            simp [hk', h]
      · intro k hne
        simp [hne]

/-- The segments after one of the four parts of `postProcess`. -/
def give (P : Params) (I : Image) (on : Prop) [Decidable on] (nc nr : Int) (side nside c1 n1 c2 n2 : Side)
    (segs : Int → Int → Side → Option Image) : Int → Int → Side → Option Image :=
  if on then
    giveCorner P I nc nr c2 n2 (giveCorner P I nc nr c1 n1 (giveCorner P I nc nr side nside segs))
  else segs

theorem neighbour_ok {P : Params} (S : Sane P) {I : Image} {ax : Side → Prop} {s : Post} (hK : K P I ax s)
    (processed : Int → Int → Bool) (present fresh : Bool) (nc nr : Int) (side nside c1 n1 c2 n2 : Side)
    (hax : ¬ ax side) (hax1 : ¬ ax c1) (hax2 : ¬ ax c2) (h1 : c1 ≠ side) (h2 : c2 ≠ side) (h12 : c1 ≠ c2)
    (hloc : s.loc side = none) (hf1 : fresh = true → s.loc c1 = none) (hf2 : fresh = true → s.loc c2 = none)
    (hnone : present = true → processed nc nr = false → s.segs nc nr nside = none) :
    ∃ s', neighbour P processed present fresh nc nr side nside c1 n1 c2 n2 s = .ok s' ∧
      K P I (fun k => ax k ∨ k = side) s' ∧
      s'.segs = give P I (present = true ∧ processed nc nr = false) nc nr side nside c1 n1 c2 n2 s.segs ∧
      (∀ k, k ≠ c1 → k ≠ c2 → s'.loc k = s.loc k) := by
  rw [neighbour, give]
  by_cases hon : present = true ∧ processed nc nr = false
  · rw [if_pos hon, if_pos hon]
    have hs := hnone hon.1 hon.2
    have hag : Agrees P I s.img side := by
      rcases (hK side).resolve_left hax with ⟨-, h⟩ | h
      · exact h
      · rw [hloc] at h; cases h
    simp only [build_ok S hag, setSeg_ok hs]
    have hK1 : K P I (fun k => ax k ∨ k = side)
        { img := fun x y => if Inside (cacheRegion P side) x y then none else s.img x y
          segs := fun c' r' k' => if c' = nc ∧ r' = nr ∧ k' = nside then some (cut P I side)
            else s.segs c' r' k'
          loc := s.loc } := by
      intro k
      by_cases hk : k = side
      · exact Or.inl (Or.inr hk)
      · rcases hK k with h | ⟨g1, g2⟩ | h
        · exact Or.inl (Or.inl h)
        · exact Or.inr (Or.inl ⟨g1, agrees_build S hk g2⟩)
        · exact Or.inr (Or.inr h)
    have hgive : (fun c' r' k' => if c' = nc ∧ r' = nr ∧ k' = nside then some (cut P I side)
        else s.segs c' r' k') = giveCorner P I nc nr side nside s.segs := by
      funext c r k
      rw [giveCorner]
      by_cases h : c = nc ∧ r = nr ∧ k = nside
      · rw [if_pos h, if_pos]
        obtain ⟨rfl, rfl, rfl⟩ := h
        exact ⟨rfl, rfl, rfl, hs⟩
      · rw [if_neg h, if_neg]
        rintro ⟨h1, h2, h3, -⟩
        exact h ⟨h1, h2, h3⟩
    obtain ⟨s1, e1, k1, g1, l1⟩ := corner_ok S hK1 fresh nc nr c1 n1
      (by rintro (h | h); exacts [hax1 h, h1 h]) hf1
    rw [e1]
    simp only
    obtain ⟨s2, e2, k2, g2, l2⟩ := corner_ok S k1 fresh nc nr c2 n2
      (by rintro (h | h); exacts [hax2 h, h2 h]) (fun h => by rw [l1 c2 h12.symm]; exact hf2 h)
    refine ⟨s2, e2, k2, ?_, ?_⟩
    · rw [g2, g1, ← hgive]
    · intro k n1 n2
      rw [l2 k n2, l1 k n1]
  · rw [if_neg hon, if_neg hon]
    refine ⟨s, rfl, ?_, rfl, fun _ _ _ => rfl⟩
    intro k
    rcases hK k with h | h
    · exact Or.inl (Or.inl h)
    · exact Or.inr h

/-- The segments after `postProcess` of bucket `b`. -/
def postSegs (P : Params) (I : Image) (b : Bucket) (processed : Int → Int → Bool)
    (segs : Int → Int → Side → Option Image) : Int → Int → Side → Option Image :=
  give P I (decide (b.row < numBuckets P.yRes P.bh - 1) = true ∧ processed b.col (b.row + 1) = false)
    b.col (b.row + 1) .bottom .top .bottomLeft .topLeft .bottomRight .topRight <|
  give P I (decide (b.row > 0) = true ∧ processed b.col (b.row - 1) = false)
    b.col (b.row - 1) .top .bottom .topLeft .bottomLeft .topRight .bottomRight <|
  give P I (decide (b.col < numBuckets P.xRes P.bw - 1) = true ∧ processed (b.col + 1) b.row = false)
    (b.col + 1) b.row .right .left .topRight .topLeft .bottomRight .bottomLeft <|
  give P I (decide (b.col > 0) = true ∧ processed (b.col - 1) b.row = false)
    (b.col - 1) b.row .left .right .topLeft .topRight .bottomLeft .bottomRight segs

theorem giveCorner_ne {P : Params} {I : Image} {nc nr c r : Int} {side nside : Side}
    {segs : Int → Int → Side → Option Image} {k : Side} (h : ¬ (c = nc ∧ r = nr)) :
    giveCorner P I nc nr side nside segs c r k = segs c r k := by
  rw [giveCorner, if_neg]
  rintro ⟨h1, h2, -⟩
  exact h ⟨h1, h2⟩

theorem give_ne {P : Params} {I : Image} {on : Prop} [Decidable on] {nc nr c r : Int}
    {side nside c1 n1 c2 n2 : Side} {segs : Int → Int → Side → Option Image} {k : Side}
    (h : ¬ (on ∧ c = nc ∧ r = nr)) :
    give P I on nc nr side nside c1 n1 c2 n2 segs c r k = segs c r k := by
  rw [give]
  by_cases ho : on
  · have h' : ¬ (c = nc ∧ r = nr) := fun g => h ⟨ho, g⟩
    rw [if_pos ho, giveCorner_ne h', giveCorner_ne h', giveCorner_ne h']
  · rw [if_neg ho]

theorem give_at {P : Params} {I : Image} {on : Prop} [Decidable on] {nc nr : Int}
    {side nside c1 n1 c2 n2 : Side} {segs : Int → Int → Side → Option Image} (ho : on) (k : Side)
    (h1 : n1 ≠ nside) (h2 : n2 ≠ nside) (h3 : n1 ≠ n2) :
    give P I on nc nr side nside c1 n1 c2 n2 segs nc nr k =
      (segs nc nr k).or (if k = nside then some (cut P I side) else if k = n1 then some (cut P I c1)
        else if k = n2 then some (cut P I c2) else none) := by
  rw [give, if_pos ho]
  simp only [giveCorner]
  cases hs : segs nc nr k with
  | some g => simp
  | none =>
    by_cases e0 : k = nside
    · subst e0; simp [h1.symm, h2.symm]
    · by_cases e1 : k = n1
      · subst e1; simp [e0, h3]
      · by_cases e2 : k = n2
        · subst e2; simp [e0, e1]
        · simp [e0, e1, e2]

theorem postProcess_ok {P : Params} (S : Sane P) (b : Bucket) (w : World)
    (hl : 0 < b.col → w.processed (b.col - 1) b.row = false → w.segs (b.col - 1) b.row .right = none)
    (hr : b.col < numBuckets P.xRes P.bw - 1 → w.processed (b.col + 1) b.row = false →
      w.segs (b.col + 1) b.row .left = none)
    (ha : 0 < b.row → w.processed b.col (b.row - 1) = false → w.segs b.col (b.row - 1) .bottom = none)
    (hb : b.row < numBuckets P.yRes P.bh - 1 → w.processed b.col (b.row + 1) = false →
      w.segs b.col (b.row + 1) .top = none) :
    ∃ w', postProcess P b w = .ok w' ∧
      (∀ c r k, ¬ (c = b.col ∧ r = b.row) → w'.segs c r k = postSegs P w.img b w.processed w.segs c r k) ∧
      (∀ c r, w'.processed c r = if c = b.col ∧ r = b.row then true else w.processed c r) := by
  rw [postProcess]
  have hK0 : K P w.img (fun _ => False) { img := w.img, segs := w.segs, loc := fun _ => none } :=
    fun k => Or.inr (Or.inl ⟨rfl, fun _ _ _ => rfl⟩)
  obtain ⟨s1, e1, k1, g1, l1⟩ := neighbour_ok S hK0 w.processed (decide (b.col > 0)) true (b.col - 1) b.row
    .left .right .topLeft .topRight .bottomLeft .bottomRight (by simp) (by simp) (by simp) (by simp)
    (by simp) (by simp) rfl (fun _ => rfl) (fun _ => rfl) (fun h1 h2 => hl (by simpa using h1) h2)
  rw [e1]
  simp only
  obtain ⟨s2, e2, k2, g2, l2⟩ := neighbour_ok S k1 w.processed
    (decide (b.col < numBuckets P.xRes P.bw - 1)) true (b.col + 1) b.row
    .right .left .topRight .topLeft .bottomRight .bottomLeft (by simp) (by simp) (by simp) (by simp)
    (by simp) (by simp) (by rw [l1 _ (by simp) (by simp)]) (fun _ => by rw [l1 _ (by simp) (by simp)])
    (fun _ => by rw [l1 _ (by simp) (by simp)])
    (fun h1 h2 => by
      rw [g1, give_ne (by omega)]
      exact hr (by simpa using h1) h2)
  rw [e2]
  simp only
  obtain ⟨s3, e3, k3, g3, l3⟩ := neighbour_ok S k2 w.processed (decide (b.row > 0)) false b.col (b.row - 1)
    .top .bottom .topLeft .bottomLeft .topRight .bottomRight (by simp) (by simp) (by simp) (by simp)
    (by simp) (by simp) (by rw [l2 _ (by simp) (by simp), l1 _ (by simp) (by simp)])
    (fun h => by cases h) (fun h => by cases h)
    (fun h1 h2 => by
      rw [g2, give_ne (by omega), g1, give_ne (by omega)]
      exact ha (by simpa using h1) h2)
  rw [e3]
  simp only
  obtain ⟨s4, e4, k4, g4, l4⟩ := neighbour_ok S k3 w.processed
    (decide (b.row < numBuckets P.yRes P.bh - 1)) false b.col (b.row + 1)
    .bottom .top .bottomLeft .topLeft .bottomRight .topRight (by simp) (by simp) (by simp) (by simp)
    (by simp) (by simp)
    (by rw [l3 _ (by simp) (by simp), l2 _ (by simp) (by simp), l1 _ (by simp) (by simp)])
    (fun h => by cases h) (fun h => by cases h)
    (fun h1 h2 => by
      rw [g3, give_ne (by omega), g2, give_ne (by omega), g1, give_ne (by omega)]
      exact hb (by simpa using h1) h2)
  rw [e4]
  simp only
  refine ⟨_, rfl, ?_, ?_⟩
  · intro c r k hne
    simp only
    rw [if_neg hne, g4, g3, g2, g1]
    rfl
  · intro c r
    rfl

/-! ## The state between two buckets -/

/-- The segment holds the right pixels for side `k` of bucket `(c, r)`, as far as they are needed. -/
def GoodSeg (P : Params) (c r : Int) (k : Side) (g : Image) : Prop :=
  ∀ x y, Inside (cacheRegion P k) x y → Needed P (c * P.bw - P.sx + x) (r * P.bh - P.sy + y) →
    g (x - (cacheRegion P k).xMin) (y - (cacheRegion P k).yMin) =
      some (c * P.bw - P.sx + x, r * P.bh - P.sy + y)

/-- What holds before the buckets `l` are rendered. -/
structure Inv (P : Params) (l : List (Int × Int)) (w : World) : Prop where
  order : l.Pairwise Before
  todo : ∀ c r, InRegion (bucketRegion P.crop P.bw P.bh) c r → ((c, r) ∈ l ↔ w.processed c r = false)
  sub : ∀ p ∈ l, InRegion (bucketRegion P.crop P.bw P.bh) p.1 p.2
  done : ∀ c r, w.processed c r = true → InRegion (bucketRegion P.crop P.bw P.bh) c r ∧ ∀ p ∈ l, Before (c, r) p
  segL : ∀ c r, 0 ≤ c → 0 ≤ r → c < numBuckets P.xRes P.bw → r < numBuckets P.yRes P.bh →
    w.processed c r = false → ((w.segs c r .left).isSome ↔ w.processed (c - 1) r = true)
  segR : ∀ c r, 0 ≤ c → 0 ≤ r → c < numBuckets P.xRes P.bw → r < numBuckets P.yRes P.bh →
    w.processed c r = false → ((w.segs c r .right).isSome ↔ w.processed (c + 1) r = true)
  segT : ∀ c r, 0 ≤ c → 0 ≤ r → c < numBuckets P.xRes P.bw → r < numBuckets P.yRes P.bh →
    w.processed c r = false → ((w.segs c r .top).isSome ↔ w.processed c (r - 1) = true)
  segB : ∀ c r, 0 ≤ c → 0 ≤ r → c < numBuckets P.xRes P.bw → r < numBuckets P.yRes P.bh →
    w.processed c r = false → ((w.segs c r .bottom).isSome ↔ w.processed c (r + 1) = true)
  cornL : ∀ p ∈ l, w.processed (p.1 - 1) p.2 = true →
    (w.segs p.1 p.2 .topLeft).isSome ∧ (w.segs p.1 p.2 .bottomLeft).isSome
  cornT : ∀ p ∈ l, w.processed p.1 (p.2 - 1) = true →
    (w.segs p.1 p.2 .topLeft).isSome ∧ (w.segs p.1 p.2 .topRight).isSome
  good : ∀ p ∈ l, ∀ k g, w.segs p.1 p.2 k = some g → GoodSeg P p.1 p.2 k g

theorem region_facts {P : Params} (S : Sane P) {c r : Int}
    (h : InRegion (bucketRegion P.crop P.bw P.bh) c r) :
    0 ≤ c ∧ 0 ≤ r ∧ c < numBuckets P.xRes P.bw ∧ r < numBuckets P.yRes P.bh ∧
    c * P.bw < P.crop.xMax ∧ r * P.bh < P.crop.yMax ∧
    P.crop.xMin < c * P.bw + P.bw ∧ P.crop.yMin < r * P.bh + P.bh := by
  obtain ⟨hw, hh, x0, x1, x2, y0, y1, y2, -, -, -, -⟩ := S
  obtain ⟨h1, h2, h3, h4⟩ := h
  simp only [bucketRegion] at h1 h2 h3 h4
  rw [Int.tdiv_eq_ediv_of_nonneg (by omega)] at h1 h2 h3 h4
  have a1 := Int.ediv_nonneg x0 hw.le
  have a2 := Int.ediv_nonneg y0 hh.le
  have b1 : c * P.bw ≤ P.crop.xMax - 1 := (Int.le_ediv_iff_mul_le hw).1 (by omega)
  have b2 : r * P.bh ≤ P.crop.yMax - 1 := (Int.le_ediv_iff_mul_le hh).1 (by omega)
  have d1 : P.crop.xMin < (c + 1) * P.bw := (Int.ediv_lt_iff_lt_mul hw).1 (by omega)
  have d2 : P.crop.yMin < (r + 1) * P.bh := (Int.ediv_lt_iff_lt_mul hh).1 (by omega)
  rw [Int.add_mul] at d1 d2
  refine ⟨by omega, by omega, ?_, ?_, by omega, by omega, by omega, by omega⟩
  · rw [lt_numBuckets (by omega) hw]; omega
  · rw [lt_numBuckets (by omega) hh]; omega

theorem region_of {P : Params} (S : Sane P) {c r : Int}
    (h : c * P.bw < P.crop.xMax) (h' : r * P.bh < P.crop.yMax)
    (g : P.crop.xMin < c * P.bw + P.bw) (g' : P.crop.yMin < r * P.bh + P.bh) :
    InRegion (bucketRegion P.crop P.bw P.bh) c r := by
  obtain ⟨hw, hh, x0, x1, x2, y0, y1, y2, -, -, -, -⟩ := S
  simp only [bucketRegion, InRegion]
  rw [Int.tdiv_eq_ediv_of_nonneg (by omega), Int.tdiv_eq_ediv_of_nonneg (by omega),
    Int.tdiv_eq_ediv_of_nonneg (by omega), Int.tdiv_eq_ediv_of_nonneg (by omega)]
  have a1 : c ≤ (P.crop.xMax - 1) / P.bw := (Int.le_ediv_iff_mul_le hw).2 (by omega)
  have a2 : r ≤ (P.crop.yMax - 1) / P.bh := (Int.le_ediv_iff_mul_le hh).2 (by omega)
  have b1 : P.crop.xMin / P.bw < c + 1 := (Int.ediv_lt_iff_lt_mul hw).2 (by rw [Int.add_mul]; omega)
  have b2 : P.crop.yMin / P.bh < r + 1 := (Int.ediv_lt_iff_lt_mul hh).2 (by rw [Int.add_mul]; omega)
  omega

/-- The filter of the bucket `(c, r)` finds the right pixel in every place that is needed. -/
def GoodImg (P : Params) (c r : Int) (img : Image) : Prop :=
  ∀ x y, 0 ≤ x → x < P.bw + P.sx * 2 → 0 ≤ y → y < P.bh + P.sy * 2 →
    Needed P (c * P.bw - P.sx + x) (r * P.bh - P.sy + y) →
    img x y = some (c * P.bw - P.sx + x, r * P.bh - P.sy + y)

theorem foldl_apply_good {P : Params} {c r : Int} {segs : Side → Option Image}
    (hgood : ∀ k g, segs k = some g → GoodSeg P c r k g) (x y : Int)
    (hn : Needed P (c * P.bw - P.sx + x) (r * P.bh - P.sy + y)) (ks : List Side) (img : Image)
    (h : img x y = some (c * P.bw - P.sx + x, r * P.bh - P.sy + y) ∨
      ∃ k ∈ ks, (segs k).isSome ∧ Inside (cacheRegion P k) x y) :
    ks.foldl (applyIf P segs) img x y = some (c * P.bw - P.sx + x, r * P.bh - P.sy + y) := by
  induction ks generalizing img with
  | nil =>
    rcases h with h | ⟨k, hk, -⟩
    · exact h
    · cases hk
  | cons k ks ih =>
    rw [List.foldl_cons]
    apply ih
    cases hs : segs k with
    | none =>
      simp only [applyIf, hs]
      rcases h with h | ⟨k', hk', h1, h2⟩
      · exact Or.inl h
      · rcases List.mem_cons.1 hk' with rfl | hk'
        · rw [hs] at h1; cases h1
        · exact Or.inr ⟨k', hk', h1, h2⟩
    | some g =>
      simp only [applyIf, hs, apply]
      by_cases hi : Inside (cacheRegion P k) x y
      · left
        rw [if_pos hi]
        exact hgood k g hs x y hi hn
      · rw [if_neg hi]
        rcases h with h | ⟨k', hk', h1, h2⟩
        · exact Or.inl h
        · rcases List.mem_cons.1 hk' with rfl | hk'
          · exact absurd h2 hi
          · exact Or.inr ⟨k', hk', h1, h2⟩

/-- What is known of the bucket about to be rendered. -/
theorem Inv.head {P : Params} (S : Sane P) {p : Int × Int} {ps : List (Int × Int)} {w : World}
    (h : Inv P (p :: ps) w) :
    w.processed p.1 p.2 = false ∧ w.processed (p.1 + 1) p.2 = false ∧ w.processed p.1 (p.2 + 1) = false ∧
    (w.processed (p.1 - 1) p.2 = true ↔ InRegion (bucketRegion P.crop P.bw P.bh) (p.1 - 1) p.2) ∧
    (w.processed p.1 (p.2 - 1) = true ↔ InRegion (bucketRegion P.crop P.bw P.bh) p.1 (p.2 - 1)) := by
  have hmem : p ∈ p :: ps := List.mem_cons_self
  have hp := h.sub p hmem
  have hlt := (List.pairwise_cons.1 h.order).1
  have nb : ∀ c r, ¬ Before (c, r) p → w.processed c r = false := by
    intro c r hb
    cases hc : w.processed c r with
    | false => rfl
    | true => exact absurd ((h.done c r hc).2 p hmem) hb
  have bf : ∀ c r, Before (c, r) p → (w.processed c r = true ↔
      InRegion (bucketRegion P.crop P.bw P.bh) c r) := by
    intro c r hb
    refine ⟨fun hc => (h.done c r hc).1, fun hr => ?_⟩
    cases hc : w.processed c r with
    | true => rfl
    | false =>
      exfalso
      rcases List.mem_cons.1 ((h.todo c r hr).2 hc) with e | e
      · rw [e] at hb
        simp only [Before] at hb; omega
      · have := hlt _ e
        simp only [Before] at hb this; omega
  refine ⟨nb _ _ ?_, nb _ _ ?_, nb _ _ ?_, bf _ _ ?_, bf _ _ ?_⟩ <;> simp [Before]

theorem pre_good {P : Params} (S : Sane P) {p : Int × Int} {ps : List (Int × Int)} {w : World}
    (h : Inv P (p :: ps) w) {b : Bucket}
    (hb : bucketAt (grid P.xRes P.yRes P.bw P.bh) p.1 p.2 = some b) :
    GoodImg P p.1 p.2 (preProcess P b (w.segs p.1 p.2) w.img) := by
  have hmem : p ∈ p :: ps := List.mem_cons_self
  obtain ⟨f1, f2, f3, f4, f5, f6, f7, f8⟩ := region_facts S (h.sub p hmem)
  obtain ⟨d0, d1, d2, d3, d4⟩ := h.head S
  obtain ⟨hw, hh, x0, x1, x2, y0, y1, y2, sx0, sy0, sx1, sy1⟩ := S
  rw [bucketAt_iff (by omega) (by omega) hw hh] at hb
  obtain ⟨-, -, -, -, rfl⟩ := hb
  have sL := h.segL p.1 p.2 f1 f2 f3 f4 d0
  have sR := h.segR p.1 p.2 f1 f2 f3 f4 d0
  have sT := h.segT p.1 p.2 f1 f2 f3 f4 d0
  have sB := h.segB p.1 p.2 f1 f2 f3 f4 d0
  intro x y hx0 hx1 hy0 hy1 hn
  rw [preProcess]
  apply foldl_apply_good (h.good p hmem) x y hn
  by_cases hL : w.processed (p.1 - 1) p.2 = true ∧ x < P.sx * 2
  · right
    obtain ⟨c1, c2⟩ := h.cornL p hmem hL.1
    by_cases hy : y < P.sy * 2
    · exact ⟨.topLeft, by simp, c1, by simp only [Inside, cacheRegion]; omega⟩
    · by_cases hy' : y < P.bh
      · exact ⟨.left, by simp, sL.2 hL.1, by simp only [Inside, cacheRegion]; omega⟩
      · exact ⟨.bottomLeft, by simp, c2, by simp only [Inside, cacheRegion]; omega⟩
  · by_cases hT : w.processed p.1 (p.2 - 1) = true ∧ y < P.sy * 2
    · right
      obtain ⟨c1, c2⟩ := h.cornT p hmem hT.1
      by_cases hx : x < P.sx * 2
      · exact ⟨.topLeft, by simp, c1, by simp only [Inside, cacheRegion]; omega⟩
      · by_cases hx' : x < P.bw
        · exact ⟨.top, by simp, sT.2 hT.1, by simp only [Inside, cacheRegion]; omega⟩
        · exact ⟨.topRight, by simp, c2, by simp only [Inside, cacheRegion]; omega⟩
    · left
      have eR : ¬ (w.segs p.1 p.2 .right).isSome := by rw [sR, d1]; simp
      have eB : ¬ (w.segs p.1 p.2 .bottom).isSome := by rw [sB, d2]; simp
      obtain ⟨n1, n2, n3, n4⟩ := hn
      have hins : Inside (sampleRegion P ⟨p.1, p.2, p.1 * P.bw, p.2 * P.bh,
          min (P.xRes - p.1 * P.bw) P.bw, min (P.yRes - p.2 * P.bh) P.bh⟩ (w.segs p.1 p.2))
          (x - P.sx + p.1 * P.bw) (y - P.sy + p.2 * P.bh) := by
        have kL : (w.segs p.1 p.2 .left).isSome → P.sx * 2 ≤ x ∧ P.crop.xMin < p.1 * P.bw := by
          intro e
          have e' := sL.1 e
          have := (d3.1 e')
          have g := region_facts ⟨hw, hh, x0, x1, x2, y0, y1, y2, sx0, sy0, sx1, sy1⟩ this
          have := g.2.2.2.2.2.2.1
          rw [Int.sub_mul] at this
          refine ⟨?_, by omega⟩
          by_contra hc
          exact hL ⟨e', by omega⟩
        have kT : (w.segs p.1 p.2 .top).isSome → P.sy * 2 ≤ y ∧ P.crop.yMin < p.2 * P.bh := by
          intro e
          have e' := sT.1 e
          have := (d4.1 e')
          have g := region_facts ⟨hw, hh, x0, x1, x2, y0, y1, y2, sx0, sy0, sx1, sy1⟩ this
          have := g.2.2.2.2.2.2.2
          rw [Int.sub_mul] at this
          refine ⟨?_, by omega⟩
          by_contra hc
          exact hT ⟨e', by omega⟩
        simp only [sampleRegion, Inside]
        rw [if_neg eR, if_neg eB]
        refine ⟨?_, ?_, ?_, ?_⟩
        · split_ifs with e1 e2 e2
          · have := kL e1; omega
          · have := kL e1; omega
          · omega
          · omega
        · split_ifs <;> omega
        · split_ifs with e1 e2 e2
          · have := kT e1; omega
          · have := kT e1; omega
          · omega
          · omega
        · split_ifs <;> omega
      simp only [setSamples]
      rw [if_pos hins]
      congr 2 <;> omega

theorem cut_good {P : Params} (S : Sane P) {I : Image} {c r : Int} (hI : GoodImg P c r I)
    {k k' : Side} {c' r' : Int}
    (hreg : ∀ x y, Inside (cacheRegion P k') x y →
      Inside (cacheRegion P k) (x - (cacheRegion P k').xMin + (cacheRegion P k).xMin)
        (y - (cacheRegion P k').yMin + (cacheRegion P k).yMin))
    (hx : c' * P.bw + (cacheRegion P k').xMin = c * P.bw + (cacheRegion P k).xMin)
    (hy : r' * P.bh + (cacheRegion P k').yMin = r * P.bh + (cacheRegion P k).yMin) :
    GoodSeg P c' r' k' (cut P I k) := by
  intro x y hi hn
  have h := hreg x y hi
  rw [cut, if_pos h]
  have ex : c' * P.bw - P.sx + x =
      c * P.bw - P.sx + (x - (cacheRegion P k').xMin + (cacheRegion P k).xMin) := by omega
  have ey : r' * P.bh - P.sy + y =
      r * P.bh - P.sy + (y - (cacheRegion P k').yMin + (cacheRegion P k).yMin) := by omega
  rw [ex, ey] at hn ⊢
  have s1 := S.sx0; have s2 := S.sy0; have s3 := S.sx1; have s4 := S.sy1
  have bnd : ∀ x y, Inside (cacheRegion P k) x y →
      0 ≤ x ∧ x < P.bw + P.sx * 2 ∧ 0 ≤ y ∧ y < P.bh + P.sy * 2 := by
    intro x y h
    cases k <;> simp only [Inside, cacheRegion] at h <;> omega
  obtain ⟨b1, b2, b3, b4⟩ := bnd _ _ h
  exact hI _ _ b1 b2 b3 b4 hn

section PostSegs
variable {P : Params} {I : Image} {b : Bucket} {processed : Int → Int → Bool}
  {segs : Int → Int → Side → Option Image} {c r : Int}

theorem postSegs_other (h1 : ¬ (c = b.col - 1 ∧ r = b.row)) (h2 : ¬ (c = b.col + 1 ∧ r = b.row))
    (h3 : ¬ (c = b.col ∧ r = b.row - 1)) (h4 : ¬ (c = b.col ∧ r = b.row + 1)) (k : Side) :
    postSegs P I b processed segs c r k = segs c r k := by
  rw [postSegs, give_ne (fun h => h4 h.2), give_ne (fun h => h3 h.2), give_ne (fun h => h2 h.2),
    give_ne (fun h => h1 h.2)]

theorem postSegs_right (h : b.col < numBuckets P.xRes P.bw - 1) (hp : processed (b.col + 1) b.row = false)
    (k : Side) :
    postSegs P I b processed segs (b.col + 1) b.row k =
      (segs (b.col + 1) b.row k).or (if k = .left then some (cut P I .right)
        else if k = .topLeft then some (cut P I .topRight)
        else if k = .bottomLeft then some (cut P I .bottomRight) else none) := by
  rw [postSegs, give_ne (by omega), give_ne (by omega), give_at ⟨by simpa using h, hp⟩ k (by simp) (by simp)
    (by simp), give_ne (by omega)]

theorem postSegs_below (h : b.row < numBuckets P.yRes P.bh - 1) (hp : processed b.col (b.row + 1) = false)
    (k : Side) :
    postSegs P I b processed segs b.col (b.row + 1) k =
      (segs b.col (b.row + 1) k).or (if k = .top then some (cut P I .bottom)
        else if k = .topLeft then some (cut P I .bottomLeft)
        else if k = .topRight then some (cut P I .bottomRight) else none) := by
  rw [postSegs, give_at ⟨by simpa using h, hp⟩ k (by simp) (by simp) (by simp), give_ne (by omega),
    give_ne (by omega), give_ne (by omega)]

theorem postSegs_left (h : 0 < b.col) (hp : processed (b.col - 1) b.row = false) (k : Side) :
    postSegs P I b processed segs (b.col - 1) b.row k =
      (segs (b.col - 1) b.row k).or (if k = .right then some (cut P I .left)
        else if k = .topRight then some (cut P I .topLeft)
        else if k = .bottomRight then some (cut P I .bottomLeft) else none) := by
  rw [postSegs, give_ne (by omega), give_ne (by omega), give_ne (by omega),
    give_at ⟨by simpa using h, hp⟩ k (by simp) (by simp) (by simp)]

theorem postSegs_above (h : 0 < b.row) (hp : processed b.col (b.row - 1) = false) (k : Side) :
    postSegs P I b processed segs b.col (b.row - 1) k =
      (segs b.col (b.row - 1) k).or (if k = .bottom then some (cut P I .top)
        else if k = .bottomLeft then some (cut P I .topLeft)
        else if k = .bottomRight then some (cut P I .topRight) else none) := by
  rw [postSegs, give_ne (by omega), give_at ⟨by simpa using h, hp⟩ k (by simp) (by simp) (by simp),
    give_ne (by omega), give_ne (by omega)]

end PostSegs

theorem Inv.step {P : Params} (S : Sane P) {p : Int × Int} {ps : List (Int × Int)} {w w' : World}
    (h : Inv P (p :: ps) w) {b : Bucket} {I : Image} (hc : b.col = p.1) (hr : b.row = p.2)
    (hI : GoodImg P p.1 p.2 I)
    (hsegs : ∀ c r k, ¬ (c = b.col ∧ r = b.row) →
      w'.segs c r k = postSegs P I b w.processed w.segs c r k)
    (hproc : ∀ c r, w'.processed c r = if c = b.col ∧ r = b.row then true else w.processed c r) :
    Inv P ps w' := by
  obtain ⟨pc, pr⟩ := p
  simp only at hc hr hI
  have hmem : (pc, pr) ∈ (pc, pr) :: ps := List.mem_cons_self
  have hpin := h.sub _ hmem
  obtain ⟨hlt, hord⟩ := List.pairwise_cons.1 h.order
  obtain ⟨f1, f2, f3, f4, -, -, -, -⟩ := region_facts S hpin
  have hp' : ∀ c r, w'.processed c r = if c = pc ∧ r = pr then true else w.processed c r := by
    intro c r; rw [hproc, hc, hr]
  have hpp : ∀ c r, w'.processed c r = false → ¬ (c = pc ∧ r = pr) ∧ w.processed c r = false := by
    intro c r hf
    rw [hp'] at hf
    split_ifs at hf with e
    exact ⟨e, hf⟩
  have hpt : ∀ c r, ¬ (c = pc ∧ r = pr) → w'.processed c r = w.processed c r := by
    intro c r e; rw [hp', if_neg e]
  have hpe : w'.processed pc pr = true := by rw [hp', if_pos ⟨rfl, rfl⟩]
  -- the five places
  have cases5 : ∀ c r, 0 ≤ c → 0 ≤ r → c < numBuckets P.xRes P.bw → r < numBuckets P.yRes P.bh →
      w'.processed c r = false → ∀ k,
      (c = pc + 1 ∧ r = pr ∧ w'.segs c r k = (w.segs c r k).or (if k = .left then some (cut P I .right)
        else if k = .topLeft then some (cut P I .topRight)
        else if k = .bottomLeft then some (cut P I .bottomRight) else none)) ∨
      (c = pc ∧ r = pr + 1 ∧ w'.segs c r k = (w.segs c r k).or (if k = .top then some (cut P I .bottom)
        else if k = .topLeft then some (cut P I .bottomLeft)
        else if k = .topRight then some (cut P I .bottomRight) else none)) ∨
      (c = pc - 1 ∧ r = pr ∧ w'.segs c r k = (w.segs c r k).or (if k = .right then some (cut P I .left)
        else if k = .topRight then some (cut P I .topLeft)
        else if k = .bottomRight then some (cut P I .bottomLeft) else none)) ∨
      (c = pc ∧ r = pr - 1 ∧ w'.segs c r k = (w.segs c r k).or (if k = .bottom then some (cut P I .top)
        else if k = .bottomLeft then some (cut P I .topLeft)
        else if k = .bottomRight then some (cut P I .topRight) else none)) ∨
      (¬ (c = pc + 1 ∧ r = pr) ∧ ¬ (c = pc ∧ r = pr + 1) ∧ ¬ (c = pc - 1 ∧ r = pr) ∧
        ¬ (c = pc ∧ r = pr - 1) ∧ w'.segs c r k = w.segs c r k) := by
    intro c r c0 r0 c1 r1 hun k
    obtain ⟨hne, hun'⟩ := hpp c r hun
    rw [hsegs c r k (by rw [hc, hr]; exact hne)]
    by_cases e1 : c = pc + 1 ∧ r = pr
    · left
      obtain ⟨rfl, rfl⟩ := e1
      refine ⟨rfl, rfl, ?_⟩
      subst hr; subst hc
      exact postSegs_right (by omega) hun' k
    · right
      by_cases e2 : c = pc ∧ r = pr + 1
      · left
        obtain ⟨rfl, rfl⟩ := e2
        refine ⟨rfl, rfl, ?_⟩
        subst hr; subst hc
        exact postSegs_below (by omega) hun' k
      · right
        by_cases e3 : c = pc - 1 ∧ r = pr
        · left
          obtain ⟨rfl, rfl⟩ := e3
          refine ⟨rfl, rfl, ?_⟩
          subst hr; subst hc
          exact postSegs_left (by omega) hun' k
        · right
          by_cases e4 : c = pc ∧ r = pr - 1
          · left
            obtain ⟨rfl, rfl⟩ := e4
            refine ⟨rfl, rfl, ?_⟩
            subst hr; subst hc
            exact postSegs_above (by omega) hun' k
          · right
            refine ⟨e1, e2, e3, e4, ?_⟩
            subst hr; subst hc
            exact postSegs_other e3 e1 e4 e2 k
  have memfacts : ∀ q ∈ ps, 0 ≤ q.1 ∧ 0 ≤ q.2 ∧ q.1 < numBuckets P.xRes P.bw ∧
      q.2 < numBuckets P.yRes P.bh ∧ w'.processed q.1 q.2 = false := by
    intro q hq
    have hq' : q ∈ (pc, pr) :: ps := List.mem_cons_of_mem _ hq
    obtain ⟨g1, g2, g3, g4, -, -, -, -⟩ := region_facts S (h.sub q hq')
    refine ⟨g1, g2, g3, g4, ?_⟩
    have hb := hlt q hq
    rw [hpt _ _ (by simp only [Before] at hb; omega)]
    exact (h.todo q.1 q.2 (h.sub q hq')).1 hq'
  have mono : ∀ q ∈ ps, ∀ k, (w.segs q.1 q.2 k).isSome → (w'.segs q.1 q.2 k).isSome := by
    intro q hq k hs
    obtain ⟨g1, g2, g3, g4, g5⟩ := memfacts q hq
    obtain ⟨g, hg⟩ := Option.isSome_iff_exists.1 hs
    rcases cases5 q.1 q.2 g1 g2 g3 g4 g5 k with ⟨-, -, e⟩ | ⟨-, -, e⟩ | ⟨-, -, e⟩ | ⟨-, -, e⟩ |
      ⟨-, -, -, -, e⟩ <;> rw [e, hg] <;> rfl
  refine ⟨hord, ?_, fun q hq => h.sub q (List.mem_cons_of_mem _ hq), ?_, ?_, ?_, ?_, ?_, ?_, ?_, ?_⟩
  · intro c r hcr
    have h0 := h.todo c r hcr
    by_cases e : c = pc ∧ r = pr
    · obtain ⟨rfl, rfl⟩ := e
      rw [hpe]
      constructor
      · intro hm
        have := hlt _ hm
        simp only [Before] at this; omega
      · intro hf; cases hf
    · rw [hpt _ _ e, ← h0, List.mem_cons]
      constructor
      · exact Or.inr
      · rintro (hm | hm)
        · exfalso; apply e
          simpa using hm
        · exact hm
  · intro c r ht
    by_cases e : c = pc ∧ r = pr
    · obtain ⟨rfl, rfl⟩ := e
      exact ⟨hpin, hlt⟩
    · rw [hpt _ _ e] at ht
      obtain ⟨g1, g2⟩ := h.done c r ht
      exact ⟨g1, fun q hq => g2 q (List.mem_cons_of_mem _ hq)⟩
  · intro c r c0 r0 c1 r1 hun
    obtain ⟨hne, hun'⟩ := hpp c r hun
    have h0 := h.segL c r c0 r0 c1 r1 hun'
    rcases cases5 c r c0 r0 c1 r1 hun .left with ⟨e1, e2, e⟩ | ⟨e1, e2, e⟩ | ⟨e1, e2, e⟩ |
      ⟨e1, e2, e⟩ | ⟨e1, e2, e3, e4, e⟩
    · subst e1 e2
      rw [e, show pc + 1 - 1 = pc by omega, hpe]
      simp
    all_goals
      rw [e, hpt _ _ (by omega)]
      simpa using h0
  · intro c r c0 r0 c1 r1 hun
    obtain ⟨hne, hun'⟩ := hpp c r hun
    have h0 := h.segR c r c0 r0 c1 r1 hun'
    rcases cases5 c r c0 r0 c1 r1 hun .right with ⟨e1, e2, e⟩ | ⟨e1, e2, e⟩ | ⟨e1, e2, e⟩ |
      ⟨e1, e2, e⟩ | ⟨e1, e2, e3, e4, e⟩
    rotate_left 2
    · subst e1 e2
      rw [e, show pc - 1 + 1 = pc by omega, hpe]
      simp
    all_goals
      rw [e, hpt _ _ (by omega)]
      simpa using h0
  · intro c r c0 r0 c1 r1 hun
    obtain ⟨hne, hun'⟩ := hpp c r hun
    have h0 := h.segT c r c0 r0 c1 r1 hun'
    rcases cases5 c r c0 r0 c1 r1 hun .top with ⟨e1, e2, e⟩ | ⟨e1, e2, e⟩ | ⟨e1, e2, e⟩ |
      ⟨e1, e2, e⟩ | ⟨e1, e2, e3, e4, e⟩
    rotate_left 1
    · subst e1 e2
      rw [e, show pr + 1 - 1 = pr by omega, hpe]
      simp
    all_goals
      rw [e, hpt _ _ (by omega)]
      simpa using h0
  · intro c r c0 r0 c1 r1 hun
    obtain ⟨hne, hun'⟩ := hpp c r hun
    have h0 := h.segB c r c0 r0 c1 r1 hun'
    rcases cases5 c r c0 r0 c1 r1 hun .bottom with ⟨e1, e2, e⟩ | ⟨e1, e2, e⟩ | ⟨e1, e2, e⟩ |
      ⟨e1, e2, e⟩ | ⟨e1, e2, e3, e4, e⟩
    rotate_left 3
    · subst e1 e2
      rw [e, show pr - 1 + 1 = pr by omega, hpe]
      simp
    all_goals
      rw [e, hpt _ _ (by omega)]
      simpa using h0
  · intro q hq ht
    obtain ⟨g1, g2, g3, g4, g5⟩ := memfacts q hq
    by_cases e : q.1 - 1 = pc ∧ q.2 = pr
    · have hL : ∀ k, (k = .topLeft ∨ k = .bottomLeft) → (w'.segs q.1 q.2 k).isSome := by
        intro k hk
        rcases cases5 q.1 q.2 g1 g2 g3 g4 g5 k with ⟨-, -, e'⟩ | ⟨_, _, _⟩ | ⟨_, _, _⟩ | ⟨_, _, _⟩ |
          ⟨_, _, _, _, _⟩
        · rw [e']; rcases hk with rfl | rfl <;> simp
        all_goals omega
      exact ⟨hL _ (Or.inl rfl), hL _ (Or.inr rfl)⟩
    · rw [hpt _ _ e] at ht
      obtain ⟨a1, a2⟩ := h.cornL q (List.mem_cons_of_mem _ hq) ht
      exact ⟨mono q hq _ a1, mono q hq _ a2⟩
  · intro q hq ht
    obtain ⟨g1, g2, g3, g4, g5⟩ := memfacts q hq
    by_cases e : q.1 = pc ∧ q.2 - 1 = pr
    · have hL : ∀ k, (k = .topLeft ∨ k = .topRight) → (w'.segs q.1 q.2 k).isSome := by
        intro k hk
        rcases cases5 q.1 q.2 g1 g2 g3 g4 g5 k with ⟨_, _, _⟩ | ⟨-, -, e'⟩ | ⟨_, _, _⟩ | ⟨_, _, _⟩ |
          ⟨_, _, _, _, _⟩
        rotate_left 1
        · rw [e']; rcases hk with rfl | rfl <;> simp
        all_goals omega
      exact ⟨hL _ (Or.inl rfl), hL _ (Or.inr rfl)⟩
    · rw [hpt _ _ e] at ht
      obtain ⟨a1, a2⟩ := h.cornT q (List.mem_cons_of_mem _ hq) ht
      exact ⟨mono q hq _ a1, mono q hq _ a2⟩
  · intro q hq k g hg
    obtain ⟨g1, g2, g3, g4, g5⟩ := memfacts q hq
    have hb := hlt q hq
    have hold := h.good q (List.mem_cons_of_mem _ hq) k
    have s1 := S.sx0; have s2 := S.sy0; have s3 := S.sx1; have s4 := S.sy1
    rcases cases5 q.1 q.2 g1 g2 g3 g4 g5 k with ⟨e1, e2, e⟩ | ⟨e1, e2, e⟩ | ⟨e1, e2, e⟩ |
      ⟨e1, e2, e⟩ | ⟨-, -, -, -, e⟩
    · rw [e] at hg
      cases hs : w.segs q.1 q.2 k with
      | some g' => rw [hs] at hg; exact hold g (by simpa [hs] using hg)
      | none =>
        rw [hs, Option.none_or] at hg
        have ex : q.1 * P.bw = pc * P.bw + P.bw := by rw [e1, Int.add_mul]; omega
        have ey : q.2 * P.bh = pr * P.bh := by rw [e2]
        split_ifs at hg with k1 k2 k3 <;> cases hg <;> subst k <;>
          refine cut_good S hI (fun x y hi => ?_) ?_ ?_ <;>
          simp only [Inside, cacheRegion] at * <;> omega
    · rw [e] at hg
      cases hs : w.segs q.1 q.2 k with
      | some g' => rw [hs] at hg; exact hold g (by simpa [hs] using hg)
      | none =>
        rw [hs, Option.none_or] at hg
        have ex : q.1 * P.bw = pc * P.bw := by rw [e1]
        have ey : q.2 * P.bh = pr * P.bh + P.bh := by rw [e2, Int.add_mul]; omega
        split_ifs at hg with k1 k2 k3 <;> cases hg <;> subst k <;>
          refine cut_good S hI (fun x y hi => ?_) ?_ ?_ <;>
          simp only [Inside, cacheRegion] at * <;> omega
    · simp only [Before] at hb; omega
    · simp only [Before] at hb; omega
    · rw [e] at hg; exact hold g hg

end Verif.Core.BucketCache
