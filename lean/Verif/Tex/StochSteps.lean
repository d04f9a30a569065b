import Verif.Tex.Stoch
import Verif.Tex.TileArrayProps
import Mathlib.Tactic

/-! # Lemmas on random pixels of a region -/

set_option linter.unusedSectionVars false

namespace Verif.Tex.Stoch

open Verif.Tex.Tile

/-! ## Pixels left in one direction -/

/-- The pixels of `[a, b)` from tile `t` on. -/
def left (w a b t : Int) : Int := b - max a (min b (t * w))

theorem left_facts (w a b t : Int) (hw : 0 < w) (hab : a < b) (h1 : a / w ≤ t) (h2 : t < (b - 1) / w + 1) :
    0 ≤ left w a b (t + 1) ∧ left w a b (t + 1) < left w a b t ∧
      (Support1D.intersect ⟨a, b⟩ ⟨t * w, (t + 1) * w⟩).range = left w a b t - left w a b (t + 1) := by
  have e1 : a < (t + 1) * w := Int.lt_mul_of_ediv_lt hw (show a / w < t + 1 by omega)
  have e2 : t * w ≤ b - 1 := Int.mul_le_of_le_ediv hw (show t ≤ (b - 1) / w by omega)
  have e4 : (t + 1) * w = t * w + w := by ring
  unfold left Support1D.intersect Support1D.range
  rw [e4] at e1 ⊢
  simp only
  refine ⟨by omega, by omega, ?_⟩
  split <;> split <;> omega

theorem left_first (w a b : Int) (hw : 0 < w) (_hab : a < b) : left w a b (a / w) = b - a := by
  have := Int.ediv_mul_le a (show w ≠ 0 by omega)
  unfold left
  omega

theorem left_last (w a b : Int) (hw : 0 < w) (hab : a < b) : left w a b ((b - 1) / w + 1) = 0 := by
  have := Int.lt_ediv_add_one_mul_self (b - 1) hw
  unfold left
  omega

theorem left_zero (w a b t : Int) (hw : 0 < w) (hab : a < b) (h : left w a b t = 0) : (b - 1) / w + 1 ≤ t := by
  unfold left at h
  by_contra hc
  have : t * w ≤ b - 1 := Int.mul_le_of_le_ediv hw (show t ≤ (b - 1) / w by omega)
  omega

theorem left_nonneg (w a b t : Int) (hab : a < b) : 0 ≤ left w a b t := by
  unfold left
  omega

/-! ## Shares -/

theorem share_bounds (rem area R : Int) (coin : ℚ) (hc : 0 ≤ coin) (hr : 0 < rem) (ha : 0 < area) (haR : area ≤ R) :
    0 ≤ share rem area R coin ∧ share rem area R coin ≤ rem ∧ (area = R → share rem area R coin = rem) := by
  have hR : (0 : ℚ) < R := by exact_mod_cast lt_of_lt_of_le ha haR
  have hr' : (0 : ℚ) < rem := by exact_mod_cast hr
  have ha' : (0 : ℚ) < area := by exact_mod_cast ha
  have haR' : (area : ℚ) ≤ R := by exact_mod_cast haR
  have hd0 : (0 : ℚ) ≤ rem * area / R := by positivity
  have hd1 : (rem : ℚ) * area / R ≤ rem := by
    rw [div_le_iff₀ hR]
    exact mul_le_mul_of_nonneg_left haR' hr'.le
  have key : share rem area R coin = rem ∨ share rem area R coin = ⌊(rem : ℚ) * area / R⌋ ∨
      ((⌊(rem : ℚ) * area / R⌋ : ℚ) < rem * area / R ∧ share rem area R coin = ⌊(rem : ℚ) * area / R⌋ + 1) := by
    unfold share
    simp only
    by_cases h : coin < (rem : ℚ) * area / R - ⌊(rem : ℚ) * area / R⌋
    · rw [if_pos h]
      right; right
      exact ⟨by linarith, rfl⟩
    · rw [if_neg h]
      right; left
      simp
  have hf0 : 0 ≤ ⌊(rem : ℚ) * area / R⌋ := Int.floor_nonneg.mpr hd0
  have hf1 : (⌊(rem : ℚ) * area / R⌋ : ℚ) ≤ rem * area / R := Int.floor_le _
  refine ⟨?_, ?_, ?_⟩
  · rcases key with k | k | ⟨_, k⟩ <;> rw [k] <;> omega
  · rcases key with k | k | ⟨k1, k⟩
    · rw [k]
    · rw [k]
      exact_mod_cast hf1.trans hd1
    · rw [k]
      have : (⌊(rem : ℚ) * area / R⌋ : ℚ) < rem := lt_of_lt_of_le k1 hd1
      have : ⌊(rem : ℚ) * area / R⌋ < rem := by exact_mod_cast this
      omega
  · intro e
    have hd : (rem : ℚ) * area / R = rem := by
      rw [e]
      field_simp
    unfold share
    simp only
    rw [hd, Int.floor_intCast]
    have hs : (rem : ℚ) - (rem : ℚ) = 0 := by ring
    rw [hs, if_neg (not_lt.mpr hc)]
    ring

theorem share_exact (k area R : Int) (coin : ℚ) (hc : 0 ≤ coin) (hR : 0 < R) : share (k * R) area R coin = k * area := by
  have hR' : (R : ℚ) ≠ 0 := by exact_mod_cast hR.ne'
  have hd : ((k * R : Int) : ℚ) * area / R = ((k * area : Int) : ℚ) := by
    push_cast
    field_simp
  unfold share
  simp only
  rw [hd, Int.floor_intCast]
  have hs : ((k * area : Int) : ℚ) - ((k * area : Int) : ℚ) = 0 := by ring
  rw [hs, if_neg (not_lt.mpr hc)]
  ring

/-! ## The search for a tile -/

section
variable (A : Arr) (s : Support)

/-- Area of the support after tile `(tx, ty)`. -/
def rest (tx ty : Int) : Int :=
  left A.tw s.sx.start s.sx.stop (tx + 1) *
      (left A.th s.sy.start s.sy.stop ty - left A.th s.sy.start s.sy.stop (ty + 1)) +
    (s.sx.stop - s.sx.start) * left A.th s.sy.start s.sy.stop (ty + 1)

/-- Number of tiles of the support after tile `(tx, ty)`. -/
def tilesAfter (tx ty : Int) : Int :=
  ((s.sy.stop - 1) / A.th - ty) * ((s.sx.stop - 1) / A.tw + 1 - s.sx.start / A.tw) + ((s.sx.stop - 1) / A.tw - tx)

/-- The state between two tiles. -/
structure Inv (i : Iter) : Prop where
  sup : i.support = s
  x0 : i.tileX0 = s.sx.start / A.tw
  xe : i.tileXEnd = (s.sx.stop - 1) / A.tw + 1
  ye : i.tileYEnd = (s.sy.stop - 1) / A.th + 1
  tx0 : s.sx.start / A.tw - 1 ≤ i.tileX
  tx1 : i.tileX < (s.sx.stop - 1) / A.tw + 1
  ty0 : s.sy.start / A.th ≤ i.tileY
  ty1 : i.tileY < (s.sy.stop - 1) / A.th + 1
  area : i.remainingArea = rest A s i.tileX i.tileY
  rem0 : 0 ≤ i.remainingSamples
  last : i.remainingArea = 0 → i.remainingSamples = 0

/-- The tile after a tile. -/
def after (tx ty : Int) : Int × Int :=
  if tx + 1 ≥ (s.sx.stop - 1) / A.tw + 1 then (s.sx.start / A.tw, ty + 1) else (tx + 1, ty)

/-- The iterator moved to a tile. -/
def moved (T : Int × Int) (ar : Int) (i : Iter) : Iter :=
  { i with tileX := T.1, tileY := T.2, remainingArea := i.remainingArea - ar, coins := i.coins + 1 }

variable {A s}

theorem step_facts (g : Good A s) (tx ty : Int) (h0 : s.sx.start / A.tw - 1 ≤ tx) (h1 : tx < (s.sx.stop - 1) / A.tw + 1)
    (h2 : s.sy.start / A.th ≤ ty) (h3 : ty < (s.sy.stop - 1) / A.th + 1) (hr : rest A s tx ty ≠ 0) :
    s.sx.start / A.tw ≤ (after A s tx ty).1 ∧ (after A s tx ty).1 < (s.sx.stop - 1) / A.tw + 1 ∧
    s.sy.start / A.th ≤ (after A s tx ty).2 ∧ (after A s tx ty).2 < (s.sy.stop - 1) / A.th + 1 ∧
    0 < tileArea A s (after A s tx ty).1 (after A s tx ty).2 ∧
    rest A s (after A s tx ty).1 (after A s tx ty).2 = rest A s tx ty - tileArea A s (after A s tx ty).1 (after A s tx ty).2 ∧
    0 ≤ rest A s (after A s tx ty).1 (after A s tx ty).2 ∧
    tilesAfter A s (after A s tx ty).1 (after A s tx ty).2 = tilesAfter A s tx ty - 1 ∧ 0 < tilesAfter A s tx ty := by
  have hxx : s.sx.start / A.tw ≤ (s.sx.stop - 1) / A.tw := Int.ediv_le_ediv g.tw (by have := g.x; omega)
  have area_eq : ∀ a b, s.sx.start / A.tw ≤ a → a < (s.sx.stop - 1) / A.tw + 1 → s.sy.start / A.th ≤ b →
      b < (s.sy.stop - 1) / A.th + 1 → tileArea A s a b =
        (left A.tw s.sx.start s.sx.stop a - left A.tw s.sx.start s.sx.stop (a + 1)) *
          (left A.th s.sy.start s.sy.stop b - left A.th s.sy.start s.sy.stop (b + 1)) := by
    intro a b a1 a2 b1 b2
    unfold tileArea Support.area Support.intersect
    rw [← (left_facts A.tw s.sx.start s.sx.stop a g.tw g.x a1 a2).2.2,
      ← (left_facts A.th s.sy.start s.sy.stop b g.th g.y b1 b2).2.2]
    rfl
  by_cases hw : tx + 1 ≥ (s.sx.stop - 1) / A.tw + 1
  · have htx : tx = (s.sx.stop - 1) / A.tw := by omega
    have ea : after A s tx ty = (s.sx.start / A.tw, ty + 1) := by unfold after; rw [if_pos hw]
    have hR : rest A s tx ty = (s.sx.stop - s.sx.start) * left A.th s.sy.start s.sy.stop (ty + 1) := by
      unfold rest
      rw [htx, left_last A.tw _ _ g.tw g.x]
      ring
    have hty : ty + 1 < (s.sy.stop - 1) / A.th + 1 := by
      by_contra hc
      have : ty + 1 = (s.sy.stop - 1) / A.th + 1 := by omega
      apply hr
      rw [hR, this, left_last A.th _ _ g.th g.y]
      ring
    rw [ea]
    simp only
    have fx := left_facts A.tw s.sx.start s.sx.stop (s.sx.start / A.tw) g.tw g.x (le_refl _) (by omega)
    have fy := left_facts A.th s.sy.start s.sy.stop (ty + 1) g.th g.y (by omega) hty
    rw [area_eq _ _ (le_refl _) (by omega) (by omega) hty]
    have e1 := left_first A.tw s.sx.start s.sx.stop g.tw g.x
    have hw0 : 0 < s.sx.stop - s.sx.start := by have := g.x; omega
    refine ⟨le_refl _, by omega, by omega, hty, ?_, ?_, ?_, ?_, ?_⟩
    · exact mul_pos (by omega) (by omega)
    · rw [hR]
      unfold rest
      rw [e1]
      ring
    · unfold rest
      exact add_nonneg (mul_nonneg fx.1 (by omega)) (mul_nonneg hw0.le fy.1)
    · unfold tilesAfter
      rw [htx]
      ring
    · unfold tilesAfter
      have : 0 < ((s.sy.stop - 1) / A.th - ty) * ((s.sx.stop - 1) / A.tw + 1 - s.sx.start / A.tw) :=
        mul_pos (by omega) (by omega)
      omega
  · have ea : after A s tx ty = (tx + 1, ty) := by unfold after; rw [if_neg hw]
    rw [ea]
    simp only
    have fx := left_facts A.tw s.sx.start s.sx.stop (tx + 1) g.tw g.x (by omega) (by omega)
    have fy := left_facts A.th s.sy.start s.sy.stop ty g.th g.y h2 h3
    rw [area_eq _ _ (by omega) (by omega) h2 h3]
    have hw0 : 0 < s.sx.stop - s.sx.start := by have := g.x; omega
    refine ⟨by omega, by omega, h2, h3, ?_, ?_, ?_, ?_, ?_⟩
    · exact mul_pos (by omega) (by omega)
    · unfold rest
      ring
    · unfold rest
      exact add_nonneg (mul_nonneg fx.1 (by omega)) (mul_nonneg hw0.le fy.1)
    · unfold tilesAfter
      ring
    · unfold tilesAfter
      have : 0 ≤ ((s.sy.stop - 1) / A.th - ty) * ((s.sx.stop - 1) / A.tw + 1 - s.sx.start / A.tw) :=
        mul_nonneg (by omega) (by omega)
      omega

theorem search_succ (D : Draws) (f : Nat) (i : Iter) (h : Inv A s i) (hne : i.remainingArea ≠ 0) :
    search D A (f + 1) i =
      if share i.remainingSamples (tileArea A s (after A s i.tileX i.tileY).1 (after A s i.tileX i.tileY).2) i.remainingArea
          (D.coin i.coins) = 0 then
        search D A f (moved (after A s i.tileX i.tileY) (tileArea A s (after A s i.tileX i.tileY).1 (after A s i.tileX i.tileY).2) i)
      else .ok ((moved (after A s i.tileX i.tileY) (tileArea A s (after A s i.tileX i.tileY).1 (after A s i.tileX i.tileY).2) i),
        share i.remainingSamples (tileArea A s (after A s i.tileX i.tileY).1 (after A s i.tileX i.tileY).2) i.remainingArea
          (D.coin i.coins)) := by
  have e1 : (if decide (i.tileX + 1 ≥ i.tileXEnd) = true then i.tileX0 else i.tileX + 1) = (after A s i.tileX i.tileY).1 := by
    unfold after
    rw [h.xe, h.x0]
    by_cases hc : i.tileX + 1 ≥ (s.sx.stop - 1) / A.tw + 1
    · simp only [hc, decide_true, if_true]
    · simp only [hc, decide_false, if_false, Bool.false_eq_true]
  have e2 : (if decide (i.tileX + 1 ≥ i.tileXEnd) = true then i.tileY + 1 else i.tileY) = (after A s i.tileX i.tileY).2 := by
    unfold after
    rw [h.xe]
    by_cases hc : i.tileX + 1 ≥ (s.sx.stop - 1) / A.tw + 1
    · simp only [hc, decide_true, if_true]
    · simp only [hc, decide_false, if_false, Bool.false_eq_true]
  rw [search]
  simp only [e1, e2, h.sup]
  rw [if_neg hne]
  simp only [moved, h.sup]

/-- What a search does. -/
theorem search_spec (g : Good A s) (D : Draws) (hc : ∀ k, 0 ≤ D.coin k) : ∀ (f : Nat) (i : Iter), Inv A s i →
    0 < i.remainingSamples → tilesAfter A s i.tileX i.tileY ≤ f →
    ∃ j n, search D A f i = .ok (j, n) ∧ 1 ≤ n ∧ n ≤ i.remainingSamples ∧
      Inv A s { j with remainingSamples := i.remainingSamples - n } ∧ j.remainingSamples = i.remainingSamples ∧
      s.sx.start / A.tw ≤ j.tileX ∧ tilesAfter A s j.tileX j.tileY < tilesAfter A s i.tileX i.tileY ∧ j.turns = i.turns := by
  intro f
  induction f with
  | zero =>
    intro i h hr hf
    exfalso
    have hne : rest A s i.tileX i.tileY ≠ 0 := by
      intro e
      have := h.last (by rw [h.area, e])
      omega
    have := (step_facts g _ _ h.tx0 h.tx1 h.ty0 h.ty1 hne).2.2.2.2.2.2.2.2
    simp at hf
    omega
  | succ f ih =>
    intro i h hr hf
    have hne : rest A s i.tileX i.tileY ≠ 0 := by
      intro e
      have := h.last (by rw [h.area, e])
      omega
    obtain ⟨q1, q2, q3, q4, q5, q6, q7, q8, q9⟩ := step_facts g _ _ h.tx0 h.tx1 h.ty0 h.ty1 hne
    have hsb := share_bounds i.remainingSamples (tileArea A s (after A s i.tileX i.tileY).1 (after A s i.tileX i.tileY).2)
      i.remainingArea (D.coin i.coins) (hc _) hr q5 (by rw [h.area]; omega)
    rw [search_succ D f i h (by rw [h.area]; exact hne)]
    generalize hA : tileArea A s (after A s i.tileX i.tileY).1 (after A s i.tileX i.tileY).2 = ar at *
    generalize hT : after A s i.tileX i.tileY = T at *
    generalize hS : share i.remainingSamples ar i.remainingArea (D.coin i.coins) = n at *
    by_cases hn : n = 0
    · rw [if_pos hn]
      have hlt : i.remainingArea - ar ≠ 0 := by
        intro e
        have := hsb.2.2 (by omega)
        omega
      obtain ⟨j, m, e, m1, m2, m3, m4, m5, m6, m7⟩ := ih (moved T ar i)
        ⟨h.sup, h.x0, h.xe, h.ye, by show _ ≤ T.1; omega, q2, q3, q4, by show i.remainingArea - ar = rest A s T.1 T.2; rw [h.area, q6],
          h.rem0, fun e => absurd e hlt⟩ hr (by show tilesAfter A s T.1 T.2 ≤ _; push_cast at hf; omega)
      refine ⟨j, m, e, m1, m2, m3, m4, m5, ?_, m7⟩
      have m6' : tilesAfter A s j.tileX j.tileY < tilesAfter A s T.1 T.2 := m6
      omega
    · rw [if_neg hn]
      refine ⟨_, n, rfl, by omega, hsb.2.1, ⟨h.sup, h.x0, h.xe, h.ye, by show _ ≤ T.1; omega, q2, q3, q4,
        by show i.remainingArea - ar = rest A s T.1 T.2; rw [h.area, q6], by show 0 ≤ i.remainingSamples - n; omega, ?_⟩, rfl, q1, ?_, rfl⟩
      · intro e
        have e' : i.remainingArea - ar = 0 := e
        have := hsb.2.2 (by omega)
        show i.remainingSamples - n = 0
        omega
      · show tilesAfter A s T.1 T.2 < _
        omega

/-! ## Places within a tile -/

theorem lookup_range (tab : Nat → ℚ) (off : ℚ) (h1 : ∀ k, 0 ≤ tab k ∧ tab k < 1) (h2 : 0 ≤ off ∧ off ≤ 1) (k : Nat) :
    0 ≤ lookup tab off k ∧ lookup tab off k < 1 := by
  unfold lookup
  simp only
  have := h1 (k % 1024)
  by_cases h : tab (k % 1024) + off ≥ 1
  · rw [if_pos h]; constructor <;> linarith [this.1, this.2, h2.1, h2.2]
  · rw [if_neg h]; push Not at h; constructor <;> linarith [this.1, this.2, h2.1, h2.2]

theorem floor_range (r : Int) (hr : 0 < r) (u : ℚ) (h0 : 0 ≤ u) (h1 : u < 1) : 0 ≤ ⌊(r : ℚ) * u⌋ ∧ ⌊(r : ℚ) * u⌋ < r := by
  have hr' : (0 : ℚ) < r := by exact_mod_cast hr
  refine ⟨Int.floor_nonneg.mpr (by positivity), Int.floor_lt.mpr ?_⟩
  calc (r : ℚ) * u < r * 1 := by exact mul_lt_mul_of_pos_left h1 hr'
    _ = r := by ring

/-- The numbers drawn are in their ranges. -/
structure Fair (D : Draws) : Prop where
  coin : ∀ k, 0 ≤ D.coin k
  tabX : ∀ k, 0 ≤ D.tabX k ∧ D.tabX k < 1
  tabY : ∀ k, 0 ≤ D.tabY k ∧ D.tabY k < 1
  offX : ∀ k, 0 ≤ D.offX k ∧ D.offX k ≤ 1
  offY : ∀ k, 0 ≤ D.offY k ∧ D.offY k ≤ 1

/-- A position of the iterator of tile `(tx, ty)`. -/
def Within (A : Arr) (s : Support) (D : Draws) (tx ty : Int) (p : Pos) : Prop :=
  ∃ b, getTile A tx ty = some b ∧ p.buf = b ∧ p.support = (start D b s p.numSamples p.turn).support ∧
    p.x = (place D p.support p.turn p.sampleNum).1 ∧ p.y = (place D p.support p.turn p.sampleNum).2

theorem within_deref {α : Type} (fetch : Int → Int → α) (g : Good A s) (D : Draws) (hD : Fair D) (tx ty : Int)
    (h1 : s.sx.start / A.tw ≤ tx) (h2 : tx < (s.sx.stop - 1) / A.tw + 1) (h3 : s.sy.start / A.th ≤ ty)
    (h4 : ty < (s.sy.stop - 1) / A.th + 1) (p : Pos) (hp : Within A s D tx ty p) :
    p.deref fetch = some (fetch (p.buf.x0 + p.x) (p.buf.y0 + p.y)) ∧
      s.Mem (p.buf.x0 + p.x, p.buf.y0 + p.y) ∧ (p.buf.x0 + p.x) / A.tw = tx ∧ (p.buf.y0 + p.y) / A.th = ty := by
  obtain ⟨b, hb, hpb, hps, hpx, hpy⟩ := hp
  rw [getTile_eq g h1 h2 h3 h4] at hb
  obtain rfl := Option.some.inj hb
  obtain ⟨a1, a2, a3, a4, a5, a6⟩ := cell A.tw A.width s.sx.start s.sx.stop tx g.tw g.xs g.x g.xe h1 h2
  obtain ⟨b1, b2, b3, b4, b5, b6⟩ := cell A.th A.height s.sy.start s.sy.stop ty g.th g.ys g.y g.ye h3 h4
  simp only [start, Support.mk4, Support.intersect, Support1D.intersect] at hps
  generalize hW : (if (tx + 1) * A.tw > A.width then A.width - tx * A.tw else A.tw) = W at *
  generalize hH : (if (ty + 1) * A.th > A.height then A.height - ty * A.th else A.th) = H at *
  generalize hxa : (if (0 : Int) < s.sx.start - tx * A.tw then s.sx.start - tx * A.tw else 0) = xa at *
  generalize hxb : (if s.sx.stop - tx * A.tw < W then s.sx.stop - tx * A.tw else W) = xb at *
  generalize hya : (if (0 : Int) < s.sy.start - ty * A.th then s.sy.start - ty * A.th else 0) = ya at *
  generalize hyb : (if s.sy.stop - ty * A.th < H then s.sy.stop - ty * A.th else H) = yb at *
  have lx := lookup_range D.tabX (D.offX p.turn) hD.tabX (hD.offX _) p.sampleNum
  have ly := lookup_range D.tabY (D.offY p.turn) hD.tabY (hD.offY _) p.sampleNum
  have fx := floor_range (xb - xa) (by omega) _ lx.1 lx.2
  have fy := floor_range (yb - ya) (by omega) _ ly.1 ly.2
  have hps' : p.support = ⟨⟨xa, xb⟩, ⟨ya, yb⟩⟩ := by
    rw [hps]
    simp only [Support.mk.injEq, Support1D.mk.injEq]
    refine ⟨⟨?_, ?_⟩, ?_, ?_⟩
    · rw [← hxa]; congr
    · rw [← hxb]; congr
    · rw [← hya]; congr
    · rw [← hyb]; congr
  rw [hps'] at hpx hpy
  simp only [place, Support1D.range] at hpx hpy
  have hx : xa ≤ p.x ∧ p.x < xb := by rw [hpx]; omega
  have hy : ya ≤ p.y ∧ p.y < yb := by rw [hpy]; omega
  have mx := (a6 (tx * A.tw + p.x)).mp (by omega)
  have my := (b6 (ty * A.th + p.y)).mp (by omega)
  rw [hpb]
  refine ⟨?_, ⟨⟨mx.1, mx.2.1⟩, ⟨my.1, my.2.1⟩⟩, mx.2.2, my.2.2⟩
  unfold Pos.deref
  rw [hpb]
  simp only
  rw [if_pos ⟨by omega, by omega, by omega, by omega⟩]

theorem within_start (D : Draws) (tx ty : Int) (b : Buf) (hb : getTile A tx ty = some b) (n : Int) (t : Nat) :
    Within A s D tx ty (start D b s n t) := ⟨b, hb, rfl, rfl, rfl, rfl⟩

theorem within_next (D : Draws) (tx ty : Int) (p : Pos) (h : Within A s D tx ty p) : Within A s D tx ty (p.next D) := by
  obtain ⟨b, hb, hpb, hps, hpx, hpy⟩ := h
  exact ⟨b, hb, hpb, hps, rfl, rfl⟩

/-! ## The whole loop -/

/-- The state at a sample. -/
structure At (A : Arr) (s : Support) (D : Draws) (i : Iter) (p : Pos) : Prop where
  inv : Inv A s i
  x : s.sx.start / A.tw ≤ i.tileX
  curr : i.curr = some p
  within : Within A s D i.tileX i.tileY p
  num : (p.sampleNum : Int) < p.numSamples

/-- Samples still to come. -/
def todo (i : Iter) (p : Pos) : Int := p.numSamples - p.sampleNum + i.remainingSamples

theorem nextTile_spec (g : Good A s) (D : Draws) (hD : Fair D) (T : Nat) (i : Iter) (h : Inv A s i)
    (hT : tilesAfter A s i.tileX i.tileY ≤ T) (hr : 0 < i.remainingSamples) :
    ∃ j p, nextTile D A T i = .ok j ∧ At A s D j p ∧ p.sampleNum = 0 ∧ todo j p = i.remainingSamples ∧
      tilesAfter A s j.tileX j.tileY ≤ T := by
  obtain ⟨j, n, e, n1, n2, hj, hjr, jx, jt, jturn⟩ := search_spec g D hD.coin T i h hr hT
  obtain ⟨B, hb⟩ : ∃ B, getTile A j.tileX j.tileY = some B := ⟨_, getTile_eq g jx hj.tx1 hj.ty0 hj.ty1⟩
  refine ⟨{ j with curr := some (start D B j.support n j.turns), turns := j.turns + 1,
                   remainingSamples := j.remainingSamples - n }, start D B s n j.turns, ?_, ?_, rfl, ?_, ?_⟩
  · unfold nextTile
    rw [if_neg (by omega), e]
    simp only
    rw [hb]
  · have hs : j.support = s := hj.sup
    exact ⟨⟨hj.sup, hj.x0, hj.xe, hj.ye, hj.tx0, hj.tx1, hj.ty0, hj.ty1, hj.area, by
      show 0 ≤ j.remainingSamples - n; omega, fun q => by
      have := hj.last q
      show j.remainingSamples - n = 0
      have t : i.remainingSamples - n = 0 := this
      omega⟩, jx, by show some _ = some _; rw [hs], within_start D _ _ _ hb _ _, by
      show ((0 : Nat) : Int) < n
      simp
      omega⟩
  · show n - ((0 : Nat) : Int) + (j.remainingSamples - n) = _
    simp
    omega
  · show tilesAfter A s j.tileX j.tileY ≤ T
    omega

theorem at_in (D : Draws) (i : Iter) (p : Pos) (h : At A s D i p) : i.inSupport = true := by
  unfold Iter.inSupport
  have := h.inv.ty1
  rw [h.inv.ye]
  exact decide_eq_true this

/-- All samples to come are taken, in the region. -/
theorem loop_spec {α : Type} (fetch : Int → Int → α) (g : Good A s) (D : Draws) (hD : Fair D) (T : Nat) :
    ∀ (c : Nat) (f : Nat) (i : Iter) (p : Pos), At A s D i p → todo i p = c → tilesAfter A s i.tileX i.tileY ≤ T → c < f →
    ∃ l, loop fetch D A T f i = .ok l ∧ l.length = c ∧ ∀ q ∈ l, s.Mem q.1 ∧ q.2 = fetch q.1.1 q.1.2 := by
  intro c
  induction c with
  | zero =>
    intro f i p h e
    exfalso
    have := h.num
    have := h.inv.rem0
    unfold todo at e
    simp at e
    omega
  | succ c ih =>
    intro f i p h e hT hf
    obtain ⟨f, rfl⟩ : ∃ m, f = m + 1 := ⟨f - 1, by omega⟩
    obtain ⟨d1, d2, _, _⟩ := within_deref fetch g D hD _ _ h.x h.inv.tx1 h.inv.ty0 h.inv.ty1 p h.within
    have key : ∃ i', next D A T i = .ok i' ∧ ∃ l, loop fetch D A T f i' = .ok l ∧ l.length = c ∧
        ∀ q ∈ l, s.Mem q.1 ∧ q.2 = fetch q.1.1 q.1.2 := by
      unfold next
      rw [h.curr]
      simp only
      by_cases hn : (p.next D).inSupport = true
      · rw [if_pos hn]
        have hn' : ((p.sampleNum + 1 : Nat) : Int) < p.numSamples := of_decide_eq_true hn
        refine ⟨_, rfl, ih f _ (p.next D) ⟨⟨h.inv.sup, h.inv.x0, h.inv.xe, h.inv.ye, h.inv.tx0, h.inv.tx1, h.inv.ty0, h.inv.ty1,
          h.inv.area, h.inv.rem0, h.inv.last⟩, h.x, rfl, within_next D _ _ _ h.within, hn'⟩ ?_ hT (by omega)⟩
        unfold todo at e ⊢
        show p.numSamples - ((p.sampleNum + 1 : Nat) : Int) + i.remainingSamples = _
        push_cast at e ⊢
        omega
      · rw [if_neg hn]
        have hn' : ¬ ((p.sampleNum + 1 : Nat) : Int) < p.numSamples := fun q => hn (decide_eq_true q)
        have hnum := h.num
        have hrem : i.remainingSamples = c := by
          unfold todo at e
          push_cast at e hn'
          omega
        have hI : Inv A s { i with curr := some (p.next D) } := ⟨h.inv.sup, h.inv.x0, h.inv.xe, h.inv.ye, h.inv.tx0, h.inv.tx1,
          h.inv.ty0, h.inv.ty1, h.inv.area, h.inv.rem0, h.inv.last⟩
        by_cases hz : c = 0
        · refine ⟨_, by unfold nextTile; rw [if_pos (by show i.remainingSamples = 0; omega)], [], ?_, by simp [hz], by simp⟩
          obtain ⟨f, rfl⟩ : ∃ m, f = m + 1 := ⟨f - 1, by omega⟩
          rw [loop]
          simp only [Iter.inSupport, lt_irrefl, decide_false, Bool.false_eq_true, if_false]
        · obtain ⟨j, p', ej, hj, _, ht, hjT⟩ := nextTile_spec g D hD T _ hI hT (by show 0 < i.remainingSamples; omega)
          refine ⟨j, ej, ih f j p' hj ?_ hjT (by omega)⟩
          rw [ht]
          exact hrem
    obtain ⟨i', e1, l, e2, e3, e4⟩ := key
    refine ⟨_, by rw [loop, if_pos (at_in D i p h), h.curr]; simp only [d1, e1, e2]; rfl, by simp [e3], ?_⟩
    intro q hq
    rcases List.mem_cons.mp hq with rfl | hq
    · exact ⟨d2, rfl⟩
    · exact e4 q hq

/-! ## A whole number of samples for each pixel -/

/-- Samples in a tile. -/
def inTile {α : Type} (A : Arr) (a b : Int) (l : List ((Int × Int) × α)) : Nat :=
  (l.filter fun q => decide (q.1.1 / A.tw = a ∧ q.1.2 / A.th = b)).length

/-- `(a, b)` is a tile after `(tx, ty)`. -/
def Later (tx ty a b : Int) : Prop := ty < b ∨ (ty = b ∧ tx < a)

instance (tx ty a b : Int) : Decidable (Later tx ty a b) := by unfold Later; infer_instance

theorem later_after (tx ty a b : Int) (h1 : tx < (s.sx.stop - 1) / A.tw + 1)
    (a0 : s.sx.start / A.tw ≤ a) (a1 : a < (s.sx.stop - 1) / A.tw + 1) :
    Later tx ty a b ↔ ((a, b) = after A s tx ty ∨ Later (after A s tx ty).1 (after A s tx ty).2 a b) := by
  unfold after
  by_cases hw : tx + 1 ≥ (s.sx.stop - 1) / A.tw + 1
  · rw [if_pos hw]
    simp only [Later, Prod.mk.injEq]
    omega
  · rw [if_neg hw]
    simp only [Later, Prod.mk.injEq]
    omega

theorem later_last (g : Good A s) (tx ty a b : Int) (_h0 : s.sx.start / A.tw - 1 ≤ tx) (h1 : tx < (s.sx.stop - 1) / A.tw + 1)
    (h2 : s.sy.start / A.th ≤ ty) (h3 : ty < (s.sy.stop - 1) / A.th + 1) (hr : rest A s tx ty = 0)
    (a1 : a < (s.sx.stop - 1) / A.tw + 1) (b1 : b < (s.sy.stop - 1) / A.th + 1) : ¬ Later tx ty a b := by
  have fy := left_facts A.th s.sy.start s.sy.stop ty g.th g.y h2 h3
  have fx := left_nonneg A.tw s.sx.start s.sx.stop (tx + 1) g.x
  have hw0 : 0 < s.sx.stop - s.sx.start := by have := g.x; omega
  have p1 := mul_nonneg fx (show 0 ≤ left A.th s.sy.start s.sy.stop ty - left A.th s.sy.start s.sy.stop (ty + 1) by omega)
  have p2 := mul_nonneg hw0.le fy.1
  unfold rest at hr
  have z2 : left A.th s.sy.start s.sy.stop (ty + 1) = 0 := by
    rcases mul_eq_zero.mp (show (s.sx.stop - s.sx.start) * left A.th s.sy.start s.sy.stop (ty + 1) = 0 by omega) with h | h
    · omega
    · exact h
  have z1 : left A.tw s.sx.start s.sx.stop (tx + 1) = 0 := by
    rcases mul_eq_zero.mp (show left A.tw s.sx.start s.sx.stop (tx + 1) *
      (left A.th s.sy.start s.sy.stop ty - left A.th s.sy.start s.sy.stop (ty + 1)) = 0 by omega) with h | h
    · exact h
    · omega
  have q1 := left_zero _ _ _ _ g.tw g.x z1
  have q2 := left_zero _ _ _ _ g.th g.y z2
  unfold Later
  omega

theorem nextTile_exact (g : Good A s) (D : Draws) (hD : Fair D) (T : Nat) (i : Iter) (h : Inv A s i) (k : Int) (hk : 0 < k)
    (hr : 0 < i.remainingSamples) (he : i.remainingSamples = k * i.remainingArea) (hT : tilesAfter A s i.tileX i.tileY ≤ T) :
    ∃ j p, nextTile D A T i = .ok j ∧ At A s D j p ∧ p.sampleNum = 0 ∧ todo j p = i.remainingSamples ∧
      tilesAfter A s j.tileX j.tileY ≤ T ∧ (j.tileX, j.tileY) = after A s i.tileX i.tileY ∧
      p.numSamples = k * tileArea A s j.tileX j.tileY ∧ j.remainingSamples = k * j.remainingArea := by
  have hne : rest A s i.tileX i.tileY ≠ 0 := by
    intro e
    have := h.last (by rw [h.area, e])
    omega
  have hR : 0 < i.remainingArea := by
    by_contra hc
    have : k * i.remainingArea ≤ 0 := mul_nonpos_of_nonneg_of_nonpos hk.le (by omega)
    omega
  obtain ⟨q1, q2, q3, q4, q5, q6, q7, q8, q9⟩ := step_facts g _ _ h.tx0 h.tx1 h.ty0 h.ty1 hne
  obtain ⟨T, rfl⟩ : ∃ m, T = m + 1 := ⟨T - 1, by omega⟩
  have hs := search_succ D T i h (by rw [h.area]; exact hne)
  rw [he, share_exact k _ _ _ (hD.coin _) hR, if_neg (by exact mul_ne_zero hk.ne' q5.ne')] at hs
  obtain ⟨B, hb⟩ : ∃ B, getTile A (after A s i.tileX i.tileY).1 (after A s i.tileX i.tileY).2 = some B := ⟨_, getTile_eq g q1 q2 q3 q4⟩
  generalize hA : tileArea A s (after A s i.tileX i.tileY).1 (after A s i.tileX i.tileY).2 = ar at *
  generalize hTT : after A s i.tileX i.tileY = P at *
  have hpos : 0 < k * ar := mul_pos hk q5
  refine ⟨{ moved P ar i with curr := some (start D B i.support (k * ar) i.turns), turns := i.turns + 1,
                              remainingSamples := i.remainingSamples - k * ar }, start D B s (k * ar) i.turns, ?_, ?_, rfl, ?_, ?_,
    rfl, ?_, ?_⟩
  · unfold nextTile
    rw [if_neg (by omega), hs]
    simp only
    have : getTile A (moved P ar i).tileX (moved P ar i).tileY = _ := hb
    rw [this]
    rfl
  · refine ⟨⟨h.sup, h.x0, h.xe, h.ye, by show _ ≤ P.1; omega, q2, q3, q4,
      by show i.remainingArea - ar = rest A s P.1 P.2; rw [h.area, q6], ?_, ?_⟩, q1, by show some _ = some _; rw [h.sup],
      within_start D _ _ _ hb _ _, by show ((0 : Nat) : Int) < k * ar; simp; omega⟩
    · show 0 ≤ i.remainingSamples - k * ar
      rw [he]
      have : 0 ≤ k * (i.remainingArea - ar) := mul_nonneg hk.le (by rw [h.area]; omega)
      linarith [mul_sub k i.remainingArea ar]
    · intro e
      have e' : i.remainingArea - ar = 0 := e
      show i.remainingSamples - k * ar = 0
      rw [he, ← mul_sub, e', mul_zero]
  · show k * ar - ((0 : Nat) : Int) + (i.remainingSamples - k * ar) = _
    simp
  · show tilesAfter A s P.1 P.2 ≤ _
    omega
  · show k * ar = k * tileArea A s P.1 P.2
    rw [hA]
  · show i.remainingSamples - k * ar = k * (i.remainingArea - ar)
    rw [he]
    ring

theorem loop_exact {α : Type} (fetch : Int → Int → α) (g : Good A s) (D : Draws) (hD : Fair D) (T : Nat) (k : Int) (hk : 0 < k)
    (a b : Int) (a0 : s.sx.start / A.tw ≤ a) (a1 : a < (s.sx.stop - 1) / A.tw + 1) (b1 : b < (s.sy.stop - 1) / A.th + 1) :
    ∀ (c : Nat) (f : Nat) (i : Iter) (p : Pos), At A s D i p → todo i p = c → tilesAfter A s i.tileX i.tileY ≤ T → c < f →
    i.remainingSamples = k * i.remainingArea →
    ∃ l, loop fetch D A T f i = .ok l ∧
      (inTile A a b l : Int) = (if i.tileX = a ∧ i.tileY = b then p.numSamples - p.sampleNum else 0) +
        (if Later i.tileX i.tileY a b then k * tileArea A s a b else 0) := by
  intro c
  induction c with
  | zero =>
    intro f i p h e
    exfalso
    have := h.num
    have := h.inv.rem0
    unfold todo at e
    simp at e
    omega
  | succ c ih =>
    intro f i p h e hT hf hexact
    obtain ⟨f, rfl⟩ : ∃ m, f = m + 1 := ⟨f - 1, by omega⟩
    obtain ⟨d1, d2, d3, d4⟩ := within_deref fetch g D hD _ _ h.x h.inv.tx1 h.inv.ty0 h.inv.ty1 p h.within
    have key : ∃ i', next D A T i = .ok i' ∧ ∃ l, loop fetch D A T f i' = .ok l ∧
        (inTile A a b l : Int) = (if i.tileX = a ∧ i.tileY = b then p.numSamples - p.sampleNum - 1 else 0) +
          (if Later i.tileX i.tileY a b then k * tileArea A s a b else 0) := by
      unfold next
      rw [h.curr]
      simp only
      by_cases hn : (p.next D).inSupport = true
      · rw [if_pos hn]
        have hn' : ((p.sampleNum + 1 : Nat) : Int) < p.numSamples := of_decide_eq_true hn
        refine ⟨_, rfl, ?_⟩
        obtain ⟨l, e1, e2⟩ := ih f { i with curr := some (p.next D) } (p.next D)
          ⟨⟨h.inv.sup, h.inv.x0, h.inv.xe, h.inv.ye, h.inv.tx0, h.inv.tx1, h.inv.ty0, h.inv.ty1,
          h.inv.area, h.inv.rem0, h.inv.last⟩, h.x, rfl, within_next D _ _ _ h.within, hn'⟩ (by
            unfold todo at e ⊢
            show p.numSamples - ((p.sampleNum + 1 : Nat) : Int) + i.remainingSamples = _
            push_cast at e ⊢
            omega) hT (by omega) hexact
        refine ⟨l, e1, ?_⟩
        rw [e2]
        have : (p.next D).numSamples - ((p.next D).sampleNum : Int) = p.numSamples - p.sampleNum - 1 := by
          show p.numSamples - ((p.sampleNum + 1 : Nat) : Int) = _
          push_cast
          ring
        rw [this]
      · rw [if_neg hn]
        have hn' : ¬ ((p.sampleNum + 1 : Nat) : Int) < p.numSamples := fun q => hn (decide_eq_true q)
        have hnum := h.num
        have hlast : p.numSamples - p.sampleNum - 1 = 0 := by push_cast at hn'; omega
        rw [hlast, ite_self, zero_add]
        have hrem : i.remainingSamples = c := by
          unfold todo at e
          push_cast at e
          omega
        have hI : Inv A s { i with curr := some (p.next D) } := ⟨h.inv.sup, h.inv.x0, h.inv.xe, h.inv.ye, h.inv.tx0, h.inv.tx1,
          h.inv.ty0, h.inv.ty1, h.inv.area, h.inv.rem0, h.inv.last⟩
        by_cases hz : c = 0
        · refine ⟨_, by unfold nextTile; rw [if_pos (by show i.remainingSamples = 0; omega)], [], ?_, ?_⟩
          · obtain ⟨f, rfl⟩ : ∃ m, f = m + 1 := ⟨f - 1, by omega⟩
            rw [loop]
            simp only [Iter.inSupport, lt_irrefl, decide_false, Bool.false_eq_true, if_false]
          · have hz' : rest A s i.tileX i.tileY = 0 := by
              rw [← h.inv.area]
              rcases mul_eq_zero.mp (show k * i.remainingArea = 0 by omega) with q | q
              · omega
              · exact q
            rw [if_neg (later_last g _ _ a b h.inv.tx0 h.inv.tx1 h.inv.ty0 h.inv.ty1 hz' a1 b1)]
            rfl
        · obtain ⟨j, p', ej, hj, p0, ht, hjT, hja, hjn, hje⟩ := nextTile_exact g D hD T _ hI k hk
            (by show 0 < i.remainingSamples; omega) hexact hT
          obtain ⟨l, e1, e2⟩ := ih f j p' hj (by rw [ht]; exact hrem) hjT (by omega) hje
          refine ⟨j, ej, l, e1, ?_⟩
          rw [e2, hjn, p0]
          have hl := later_after (A := A) (s := s) i.tileX i.tileY a b h.inv.tx1 a0 a1
          have hja' : after A s i.tileX i.tileY = (j.tileX, j.tileY) := hja.symm
          rw [hja'] at hl
          simp only [Prod.mk.injEq] at hl
          by_cases hab : j.tileX = a ∧ j.tileY = b
          · obtain ⟨rfl, rfl⟩ := hab
            rw [if_pos ⟨rfl, rfl⟩, if_neg (by unfold Later; omega), if_pos (hl.mpr (Or.inl ⟨rfl, rfl⟩))]
            simp
          · rw [if_neg hab, zero_add]
            by_cases hla : Later j.tileX j.tileY a b
            · rw [if_pos hla, if_pos (hl.mpr (Or.inr hla))]
            · rw [if_neg hla, if_neg]
              rw [hl]
              rintro (⟨q1, q2⟩ | q)
              · exact hab ⟨q1.symm, q2.symm⟩
              · exact hla q
    obtain ⟨i', e1, l, e2, e3⟩ := key
    refine ⟨_, by rw [loop, if_pos (at_in D i p h), h.curr]; simp only [d1, e1, e2]; rfl, ?_⟩
    unfold inTile at e3 ⊢
    by_cases hab : i.tileX = a ∧ i.tileY = b
    · rw [List.filter_cons_of_pos (by simp only [d3, d4]; exact decide_eq_true hab)]
      rw [if_pos hab] at e3 ⊢
      push_cast [List.length_cons]
      rw [e3]
      ring
    · rw [List.filter_cons_of_neg (by simp only [d3, d4]; simpa using hab)]
      rw [if_neg hab] at e3 ⊢
      exact e3

end

end Verif.Tex.Stoch
