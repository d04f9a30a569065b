import Verif.Tex.TileArray
import Verif.Tex.SupportProps
import Mathlib.Data.List.Nodup
import Mathlib.Tactic.Linarith
import Mathlib.Tactic.Ring

/-!
# C33: tiled texture iteration visits every pixel of the region exactly once
-/

namespace Verif.Tex.Tile

variable {α : Type} (fetch : Int → Int → α) (A : Arr)

/-- What is seen at a pixel. -/
def seen (p : Int × Int) : (Int × Int) × α := (p, fetch p.1 p.2)

/-- The steps after the current tile give `l`. -/
def After (i : Iter) (l : List ((Int × Int) × α)) : Prop :=
  ∃ N, ∀ f, N ≤ f → ∀ c, (match nextTile A { i with curr := c } with
    | none => Out.fail
    | some i' => loop fetch A f i') = .done l

/-- The steps from here give `l`. -/
def Runs (i : Iter) (l : List ((Int × Int) × α)) : Prop :=
  ∃ N, ∀ f, N ≤ f → loop fetch A f i = .done l

theorem runs_last {i : Iter} {l} (hin : i.inSupport = true) {a : α}
    (hd : i.curr.deref fetch = some a) (hn : i.curr.next.inSupport = false)
    (h : After fetch A i l) :
    Runs fetch A i (((i.curr.buf.x0 + i.curr.x, i.curr.buf.y0 + i.curr.y), a) :: l) := by
  obtain ⟨N, hN⟩ := h
  refine ⟨N + 1, ?_⟩
  intro f hf
  obtain ⟨f, rfl⟩ : ∃ g, f = g + 1 := ⟨f - 1, by omega⟩
  have := hN f (by omega) i.curr.next
  simp only [loop, hin, if_true, hd, next, hn, Bool.false_eq_true, if_false]
  cases hnt : nextTile A { i with curr := i.curr.next } with
  | none => rw [hnt] at this; simp at this
  | some i' =>
    rw [hnt] at this
    simp only at this
    simp only [this, Out.cons]

theorem runs_step {i : Iter} {l} (hin : i.inSupport = true) {a : α}
    (hd : i.curr.deref fetch = some a) (hn : i.curr.next.inSupport = true)
    (h : Runs fetch A { i with curr := i.curr.next } l) :
    Runs fetch A i (((i.curr.buf.x0 + i.curr.x, i.curr.buf.y0 + i.curr.y), a) :: l) := by
  obtain ⟨N, hN⟩ := h
  refine ⟨N + 1, ?_⟩
  intro f hf
  obtain ⟨f, rfl⟩ : ∃ g, f = g + 1 := ⟨f - 1, by omega⟩
  simp only [loop, hin, if_true, hd, next, hn, hN f (by omega), Out.cons]

/-- The rest of a tile. -/
theorem tile_rest (bf : Buf) (ax bx ay bY : Int) (hax : 0 ≤ ax) (hbx : bx ≤ bf.w) (hay : 0 ≤ ay)
    (hbY : bY ≤ bf.h) (l2 : List ((Int × Int) × α)) :
    ∀ (k j : Nat) (i : Iter), i.inSupport = true → i.curr.buf = bf →
      i.curr.support = ⟨⟨ax, bx⟩, ⟨ay, bY⟩⟩ → i.curr.y = bY - 1 - k → i.curr.x = bx - 1 - j →
      ax ≤ i.curr.x → ay ≤ i.curr.y → After fetch A i l2 →
      ∃ l1 : List (Int × Int), l1.Nodup ∧
        (∀ p, p ∈ l1 ↔ (p.2 - bf.y0 = i.curr.y ∧ i.curr.x ≤ p.1 - bf.x0 ∧ p.1 - bf.x0 < bx) ∨
          (i.curr.y < p.2 - bf.y0 ∧ p.2 - bf.y0 < bY ∧ ax ≤ p.1 - bf.x0 ∧ p.1 - bf.x0 < bx)) ∧
        Runs fetch A i (l1.map (seen fetch) ++ l2) := by
  intro k
  induction k with
  | zero =>
    intro j
    induction j with
    | zero =>
      intro i hin hb hs hy hx hax' hay' haft
      have hd : i.curr.deref fetch =
          some (fetch (bf.x0 + i.curr.x) (bf.y0 + i.curr.y)) := by
        unfold Pos.deref
        rw [hb, if_pos (by simp only [Nat.cast_zero] at hx hy; omega)]
      have hn : i.curr.next.inSupport = false := by
        unfold Pos.next Pos.inSupport
        rw [if_pos (by rw [hs]; simp only [Nat.cast_zero] at hx ⊢; omega)]
        simp only [hs, decide_eq_false_iff_not]
        simp only [Nat.cast_zero] at hy
        omega
      have hr := runs_last fetch A hin hd hn haft
      rw [hb] at hr
      refine ⟨[(bf.x0 + i.curr.x, bf.y0 + i.curr.y)], by simp, ?_, hr⟩
      intro p
      simp only [List.mem_singleton, Prod.ext_iff]
      simp only [Nat.cast_zero] at hx hy
      omega
    | succ j ih =>
      intro i hin hb hs hy hx hax' hay' haft
      have hd : i.curr.deref fetch =
          some (fetch (bf.x0 + i.curr.x) (bf.y0 + i.curr.y)) := by
        unfold Pos.deref
        rw [hb, if_pos (by push_cast at hx hy; omega)]
      have hnext : i.curr.next = { i.curr with x := i.curr.x + 1 } := by
        unfold Pos.next
        rw [if_neg (by rw [hs]; simp only; push_cast at hx; omega)]
      have hn : i.curr.next.inSupport = true := by
        rw [hnext]
        unfold Pos.inSupport
        simp only [hs, decide_eq_true_eq]
        push_cast at hy
        omega
      obtain ⟨l1, nd, hm, hr⟩ := ih { i with curr := i.curr.next } hin (by rw [hnext]; exact hb)
        (by rw [hnext]; exact hs) (by rw [hnext]; exact hy)
        (by rw [hnext]; push_cast at hx; simp only; omega)
        (by rw [hnext]; simp only; omega) (by rw [hnext]; exact hay') haft
      rw [hnext] at hm
      simp only at hm
      have hr' := runs_step fetch A hin hd hn hr
      rw [hb] at hr'
      refine ⟨(bf.x0 + i.curr.x, bf.y0 + i.curr.y) :: l1, ?_, ?_, hr'⟩
      · rw [List.nodup_cons]
        refine ⟨?_, nd⟩
        rw [hm]
        omega
      · intro p
        rw [List.mem_cons, hm]
        simp only [Prod.ext_iff]
        push_cast at hx
        omega
  | succ k ihk =>
    intro j
    induction j with
    | zero =>
      intro i hin hb hs hy hx hax' hay' haft
      have hd : i.curr.deref fetch =
          some (fetch (bf.x0 + i.curr.x) (bf.y0 + i.curr.y)) := by
        unfold Pos.deref
        rw [hb, if_pos (by push_cast at hx hy; omega)]
      have hnext : i.curr.next = { i.curr with x := ax, y := i.curr.y + 1 } := by
        unfold Pos.next
        rw [if_pos (by rw [hs]; simp only; push_cast at hx; omega)]
        simp only [hs]
      have hn : i.curr.next.inSupport = true := by
        rw [hnext]
        unfold Pos.inSupport
        simp only [hs, decide_eq_true_eq]
        push_cast at hy
        omega
      obtain ⟨l1, nd, hm, hr⟩ := ihk (bx - 1 - ax).toNat { i with curr := i.curr.next } hin
        (by rw [hnext]; exact hb)
        (by rw [hnext]; exact hs) (by rw [hnext]; push_cast at hy; simp only; omega)
        (by rw [hnext]; simp only; push_cast at hx; omega)
        (by rw [hnext]) (by rw [hnext]; simp only; omega) haft
      rw [hnext] at hm
      simp only at hm
      have hr' := runs_step fetch A hin hd hn hr
      rw [hb] at hr'
      refine ⟨(bf.x0 + i.curr.x, bf.y0 + i.curr.y) :: l1, ?_, ?_, hr'⟩
      · rw [List.nodup_cons]
        refine ⟨?_, nd⟩
        rw [hm]
        omega
      · intro p
        rw [List.mem_cons, hm]
        simp only [Prod.ext_iff]
        push_cast at hx hy
        omega
    | succ j ih =>
      intro i hin hb hs hy hx hax' hay' haft
      have hd : i.curr.deref fetch =
          some (fetch (bf.x0 + i.curr.x) (bf.y0 + i.curr.y)) := by
        unfold Pos.deref
        rw [hb, if_pos (by push_cast at hx hy; omega)]
      have hnext : i.curr.next = { i.curr with x := i.curr.x + 1 } := by
        unfold Pos.next
        rw [if_neg (by rw [hs]; simp only; push_cast at hx; omega)]
      have hn : i.curr.next.inSupport = true := by
        rw [hnext]
        unfold Pos.inSupport
        simp only [hs, decide_eq_true_eq]
        push_cast at hy
        omega
      obtain ⟨l1, nd, hm, hr⟩ := ih { i with curr := i.curr.next } hin (by rw [hnext]; exact hb)
        (by rw [hnext]; exact hs) (by rw [hnext]; exact hy)
        (by rw [hnext]; push_cast at hx; simp only; omega)
        (by rw [hnext]; simp only; omega) (by rw [hnext]; exact hay') haft
      rw [hnext] at hm
      simp only at hm
      have hr' := runs_step fetch A hin hd hn hr
      rw [hb] at hr'
      refine ⟨(bf.x0 + i.curr.x, bf.y0 + i.curr.y) :: l1, ?_, ?_, hr'⟩
      · rw [List.nodup_cons]
        refine ⟨?_, nd⟩
        rw [hm]
        omega
      · intro p
        rw [List.mem_cons, hm]
        simp only [Prod.ext_iff]
        push_cast at hx
        omega

/-! ## Tiles -/

/-- One direction of a tile: the pixels of the support in tile `t`. -/
theorem cell (w W xs xe t : Int) (hw : 0 < w) (hxs : 0 ≤ xs) (hx : xs < xe) (hxe : xe ≤ W)
    (h1 : xs / w ≤ t) (h2 : t < (xe - 1) / w + 1) :
    let tw := if (t + 1) * w > W then W - t * w else w
    let a := if (0 : Int) < xs - t * w then xs - t * w else 0
    let b := if xe - t * w < tw then xe - t * w else tw
    0 < tw ∧ 0 ≤ a ∧ a < b ∧ b ≤ tw ∧ 0 ≤ t ∧
      (∀ p, (a ≤ p - t * w ∧ p - t * w < b) ↔ (xs ≤ p ∧ p < xe ∧ p / w = t)) := by
  intro tw a b
  have e1 : xs < (t + 1) * w := by
    have := Int.lt_mul_of_ediv_lt hw (show xs / w < t + 1 by omega)
    exact this
  have e2 : t * w ≤ xe - 1 := by
    have := Int.mul_le_of_le_ediv hw (show t ≤ (xe - 1) / w by omega)
    exact this
  have e3 : 0 ≤ t := le_trans (Int.ediv_nonneg hxs (le_of_lt hw)) h1
  have e4 : (t + 1) * w = t * w + w := by ring
  rw [e4] at e1
  have hdiv : ∀ p, p / w = t ↔ (t * w ≤ p ∧ p < t * w + w) := by
    intro p
    rw [← e4]
    constructor
    · rintro rfl
      exact ⟨Int.ediv_mul_le p (by omega), Int.lt_ediv_add_one_mul_self p hw⟩
    · rintro ⟨g1, g2⟩
      have a1 := Int.le_ediv_of_mul_le hw g1
      have a2 := Int.ediv_lt_of_lt_mul hw g2
      omega
  simp only [tw, a, b, e4]
  refine ⟨by split <;> omega, by split <;> omega, ?_, ?_, e3, ?_⟩
  · split <;> split <;> split <;> omega
  · split <;> split <;> omega
  · intro p
    rw [hdiv]
    split <;> split <;> split <;> omega

/-- The data of an iterator at the beginning of tile `(tx, ty)`. -/
structure AtTile (s : Support) (i : Iter) (tx ty : Int) : Prop where
  sup : i.support = s
  x0 : i.tileX0 = s.sx.start / A.tw
  xe : i.tileXEnd = (s.sx.stop - 1) / A.tw + 1
  ye : i.tileYEnd = (s.sy.stop - 1) / A.th + 1
  etx : i.tileX = tx
  ety : i.tileY = ty
  curr : ∃ b, getTile A tx ty = some b ∧ i.curr = b.start s

/-- The support lies in the image and is not empty. -/
structure Good (s : Support) : Prop where
  tw : 0 < A.tw
  th : 0 < A.th
  xs : 0 ≤ s.sx.start
  x : s.sx.start < s.sx.stop
  xe : s.sx.stop ≤ A.width
  ys : 0 ≤ s.sy.start
  y : s.sy.start < s.sy.stop
  ye : s.sy.stop ≤ A.height

variable {A}

theorem tiles_bound {w W xe t : Int} (hw : 0 < w) (hxe : xe ≤ W) (hpos : 1 ≤ xe)
    (h : t < (xe - 1) / w + 1) : t < (W - 1).tdiv w + 1 := by
  rw [Int.tdiv_eq_ediv_of_nonneg (by omega)]
  have := Int.ediv_le_ediv hw (show xe - 1 ≤ W - 1 by omega)
  omega

theorem getTile_eq {s : Support} (g : Good A s) {tx ty : Int} (h1 : s.sx.start / A.tw ≤ tx)
    (h2 : tx < (s.sx.stop - 1) / A.tw + 1) (h3 : s.sy.start / A.th ≤ ty)
    (h4 : ty < (s.sy.stop - 1) / A.th + 1) :
    getTile A tx ty = some
      { x0 := tx * A.tw, y0 := ty * A.th,
        w := if (tx + 1) * A.tw > A.width then A.width - tx * A.tw else A.tw,
        h := if (ty + 1) * A.th > A.height then A.height - ty * A.th else A.th } := by
  obtain ⟨a1, _, _, _, a5, _⟩ := cell A.tw A.width s.sx.start s.sx.stop tx g.tw g.xs g.x g.xe h1 h2
  obtain ⟨b1, _, _, _, b5, _⟩ := cell A.th A.height s.sy.start s.sy.stop ty g.th g.ys g.y g.ye h3 h4
  unfold getTile Arr.widthInTiles Arr.heightInTiles
  rw [if_pos ⟨tiles_bound g.tw g.xe (by have := g.xs; have := g.x; omega) h2,
    tiles_bound g.th g.ye (by have := g.ys; have := g.y; omega) h4, a5, b5⟩]
  simp only
  rw [if_pos ⟨a1, b1⟩]

/-- One whole tile. -/
theorem tile_run {s : Support} (g : Good A s) {i : Iter} {tx ty : Int} (hi : AtTile A s i tx ty)
    (h1 : s.sx.start / A.tw ≤ tx) (h2 : tx < (s.sx.stop - 1) / A.tw + 1)
    (h3 : s.sy.start / A.th ≤ ty) (h4 : ty < (s.sy.stop - 1) / A.th + 1)
    {l2} (haft : After fetch A i l2) :
    ∃ l1 : List (Int × Int), l1.Nodup ∧
      (∀ p, p ∈ l1 ↔ s.Mem p ∧ p.1 / A.tw = tx ∧ p.2 / A.th = ty) ∧
      Runs fetch A i (l1.map (seen fetch) ++ l2) := by
  obtain ⟨a1, a2, a3, a4, a5, a6⟩ :=
    cell A.tw A.width s.sx.start s.sx.stop tx g.tw g.xs g.x g.xe h1 h2
  obtain ⟨b1, b2, b3, b4, b5, b6⟩ :=
    cell A.th A.height s.sy.start s.sy.stop ty g.th g.ys g.y g.ye h3 h4
  have hin : i.inSupport = true := by
    unfold Iter.inSupport
    rw [hi.ety, hi.ye]
    simpa using h4
  obtain ⟨b, hb, hc⟩ := hi.curr
  rw [getTile_eq g h1 h2 h3 h4] at hb
  simp only [Option.some.injEq] at hb
  subst hb
  have hsup : i.curr.support =
      ⟨⟨if (0 : Int) < s.sx.start - tx * A.tw then s.sx.start - tx * A.tw else 0,
        if s.sx.stop - tx * A.tw < (if (tx + 1) * A.tw > A.width then A.width - tx * A.tw else A.tw)
          then s.sx.stop - tx * A.tw
          else (if (tx + 1) * A.tw > A.width then A.width - tx * A.tw else A.tw)⟩,
       ⟨if (0 : Int) < s.sy.start - ty * A.th then s.sy.start - ty * A.th else 0,
        if s.sy.stop - ty * A.th < (if (ty + 1) * A.th > A.height then A.height - ty * A.th else A.th)
          then s.sy.stop - ty * A.th
          else (if (ty + 1) * A.th > A.height then A.height - ty * A.th else A.th)⟩⟩ := by
    rw [hc]; rfl
  generalize hW : (if (tx + 1) * A.tw > A.width then A.width - tx * A.tw else A.tw) = tw at *
  generalize hH : (if (ty + 1) * A.th > A.height then A.height - ty * A.th else A.th) = th at *
  generalize hA : (if (0 : Int) < s.sx.start - tx * A.tw then s.sx.start - tx * A.tw else 0) = ax at *
  generalize hB : (if s.sx.stop - tx * A.tw < tw then s.sx.stop - tx * A.tw else tw) = bx at *
  generalize hC : (if (0 : Int) < s.sy.start - ty * A.th then s.sy.start - ty * A.th else 0) = ay at *
  generalize hD : (if s.sy.stop - ty * A.th < th then s.sy.stop - ty * A.th else th) = bY at *
  have hx : i.curr.x = ax := by
    have e : i.curr.x = i.curr.support.sx.start := by rw [hc]; rfl
    rw [e, hsup]
  have hy : i.curr.y = ay := by
    have e : i.curr.y = if i.curr.support.sx.isEmpty then i.curr.support.sy.stop
        else i.curr.support.sy.start := by rw [hc]; rfl
    rw [e, hsup, if_neg]
    simp only [Support1D.isEmpty, decide_eq_true_eq]
    omega
  have hbuf : i.curr.buf = { x0 := tx * A.tw, y0 := ty * A.th, w := tw, h := th } := by
    rw [hc]; rfl
  obtain ⟨l1, nd, hm, hr⟩ := tile_rest fetch A
    { x0 := tx * A.tw, y0 := ty * A.th, w := tw, h := th } ax bx ay bY a2 a4 b2 b4 l2
    (bY - 1 - ay).toNat (bx - 1 - ax).toNat i hin hbuf hsup
    (by rw [hy]; omega) (by rw [hx]; omega) (by omega) (by omega) haft
  refine ⟨l1, nd, ?_, hr⟩
  intro p
  rw [hm p, hx, hy]
  have p1 := a6 p.1
  have p2 := b6 p.2
  unfold Support.Mem Support1D.Mem
  constructor
  · intro h
    have q1 : ax ≤ p.1 - tx * A.tw ∧ p.1 - tx * A.tw < bx := by simp only at h; omega
    have q2 : ay ≤ p.2 - ty * A.th ∧ p.2 - ty * A.th < bY := by simp only at h; omega
    have r1 := p1.mp q1
    have r2 := p2.mp q2
    exact ⟨⟨⟨r1.1, r1.2.1⟩, ⟨r2.1, r2.2.1⟩⟩, r1.2.2, r2.2.2⟩
  · rintro ⟨⟨⟨r1, r2⟩, ⟨r3, r4⟩⟩, r5, r6⟩
    have q1 := p1.mpr ⟨r1, r2, r5⟩
    have q2 := p2.mpr ⟨r3, r4, r6⟩
    simp only
    omega

/-- Leaving the last tile. -/
theorem after_end {i : Iter} (h1 : i.tileX + 1 ≥ i.tileXEnd) (h2 : i.tileY + 1 ≥ i.tileYEnd) :
    After fetch A i [] := by
  refine ⟨1, ?_⟩
  intro f hf c
  obtain ⟨f, rfl⟩ : ∃ g, f = g + 1 := ⟨f - 1, by omega⟩
  have hin : ∀ (x0 : Int) (c : Pos), Iter.inSupport
      { i with tileX := x0, tileY := i.tileY + 1, curr := c } = false := by
    intro x0 c; unfold Iter.inSupport; simp only [decide_eq_false_iff_not]; omega
  unfold nextTile
  simp only [h1, if_true, hin, Bool.false_eq_true, if_false, loop]

/-- Going to another tile. -/
theorem after_tile {i : Iter} {tx ty : Int} {b : Buf} {l}
    (hnext : (if i.tileX + 1 ≥ i.tileXEnd then (i.tileX0, i.tileY + 1) else (i.tileX + 1, i.tileY)) =
      (tx, ty)) (hin : ty < i.tileYEnd) (hb : getTile A tx ty = some b)
    (hr : Runs fetch A { i with tileX := tx, tileY := ty, curr := b.start i.support } l) :
    After fetch A i l := by
  obtain ⟨N, hN⟩ := hr
  refine ⟨N, ?_⟩
  intro f hf c
  unfold nextTile
  by_cases h : i.tileX + 1 ≥ i.tileXEnd
  · rw [if_pos h] at hnext
    simp only [Prod.mk.injEq] at hnext
    obtain ⟨e1, e2⟩ := hnext
    subst e1 e2
    simp only [h, if_true, Iter.inSupport, hin, decide_true, hb]
    exact hN f hf
  · rw [if_neg h] at hnext
    simp only [Prod.mk.injEq] at hnext
    obtain ⟨e1, e2⟩ := hnext
    subst e1 e2
    simp only [h, if_false, Iter.inSupport, hin, decide_true, if_true, hb]
    exact hN f hf

/-- The tiles from `(tx, ty)` on. -/
theorem tiles_run {s : Support} (g : Good A s) :
    ∀ (k j : Nat) (i : Iter) (tx ty : Int), AtTile A s i tx ty →
      ty = (s.sy.stop - 1) / A.th - k → tx = (s.sx.stop - 1) / A.tw - j →
      s.sx.start / A.tw ≤ tx → s.sy.start / A.th ≤ ty →
      ∃ l : List (Int × Int), l.Nodup ∧
        (∀ p, p ∈ l ↔ s.Mem p ∧ (p.2 / A.th = ty ∧ tx ≤ p.1 / A.tw ∨ ty < p.2 / A.th)) ∧
        Runs fetch A i (l.map (seen fetch)) := by
  have hmx : ∀ p : Int × Int, s.Mem p → s.sx.start / A.tw ≤ p.1 / A.tw ∧
      p.1 / A.tw ≤ (s.sx.stop - 1) / A.tw := by
    intro p hp
    unfold Support.Mem Support1D.Mem at hp
    exact ⟨Int.ediv_le_ediv g.tw hp.1.1, Int.ediv_le_ediv g.tw (by omega)⟩
  have hmy : ∀ p : Int × Int, s.Mem p → s.sy.start / A.th ≤ p.2 / A.th ∧
      p.2 / A.th ≤ (s.sy.stop - 1) / A.th := by
    intro p hp
    unfold Support.Mem Support1D.Mem at hp
    exact ⟨Int.ediv_le_ediv g.th hp.2.1, Int.ediv_le_ediv g.th (by omega)⟩
  intro k
  induction k with
  | zero =>
    intro j
    induction j with
    | zero =>
      intro i tx ty hi hty htx h1 h3
      simp only [Nat.cast_zero] at hty htx
      have haft : After fetch A i [] :=
        after_end fetch (by rw [hi.etx, hi.xe]; omega) (by rw [hi.ety, hi.ye]; omega)
      obtain ⟨l, nd, hm, hr⟩ := tile_run fetch g hi h1 (by omega) h3 (by omega) haft
      refine ⟨l, nd, ?_, by simpa using hr⟩
      intro p
      rw [hm]
      constructor
      · rintro ⟨a, b, c⟩; exact ⟨a, Or.inl ⟨c, by omega⟩⟩
      · rintro ⟨a, b⟩
        have := hmx p a
        have := hmy p a
        exact ⟨a, by omega, by omega⟩
    | succ j ih =>
      intro i tx ty hi hty htx h1 h3
      simp only [Nat.cast_zero] at hty
      push_cast at htx
      have hb := getTile_eq g (tx := tx + 1) (ty := ty) (by omega) (by omega) h3 (by omega)
      obtain ⟨l2, nd2, hm2, hr2⟩ := ih
        { i with tileX := tx + 1, tileY := ty, curr := Buf.start _ i.support } (tx + 1) ty
        ⟨hi.sup, hi.x0, hi.xe, hi.ye, rfl, rfl, _, hb, by rw [hi.sup]⟩ (by simpa using hty)
        (by omega) (by omega) h3
      have haft : After fetch A i (l2.map (seen fetch)) :=
        after_tile fetch (by rw [hi.etx, hi.xe, hi.ety, if_neg (by omega)])
          (by rw [hi.ye]; omega) hb hr2
      obtain ⟨l1, nd1, hm1, hr1⟩ := tile_run fetch g hi h1 (by omega) h3 (by omega) haft
      refine ⟨l1 ++ l2, ?_, ?_, by rw [List.map_append]; exact hr1⟩
      · rw [List.nodup_append]
        refine ⟨nd1, nd2, ?_⟩
        intro p hp q hq e
        subst e
        have e1 := (hm1 p).mp hp
        have e2 := (hm2 p).mp hq
        omega
      · intro p
        rw [List.mem_append, hm1, hm2]
        constructor
        · rintro (⟨a, b, c⟩ | ⟨a, b⟩)
          · exact ⟨a, Or.inl ⟨c, by omega⟩⟩
          · exact ⟨a, by omega⟩
        · rintro ⟨a, b⟩
          have := hmx p a
          have := hmy p a
          by_cases he : p.1 / A.tw = tx ∧ p.2 / A.th = ty
          · exact Or.inl ⟨a, he⟩
          · exact Or.inr ⟨a, by omega⟩
  | succ k ihk =>
    intro j
    induction j with
    | zero =>
      intro i tx ty hi hty htx h1 h3
      simp only [Nat.cast_zero] at htx
      push_cast at hty
      have hle : s.sx.start / A.tw ≤ (s.sx.stop - 1) / A.tw :=
        Int.ediv_le_ediv g.tw (by have := g.x; omega)
      have hb := getTile_eq g (tx := s.sx.start / A.tw) (ty := ty + 1) (le_refl _) (by omega)
        (by omega) (by omega)
      obtain ⟨l2, nd2, hm2, hr2⟩ := ihk ((s.sx.stop - 1) / A.tw - s.sx.start / A.tw).toNat
        { i with tileX := s.sx.start / A.tw, tileY := ty + 1, curr := Buf.start _ i.support }
        (s.sx.start / A.tw) (ty + 1)
        ⟨hi.sup, hi.x0, hi.xe, hi.ye, rfl, rfl, _, hb, by rw [hi.sup]⟩ (by omega)
        (by omega) (le_refl _) (by omega)
      have haft : After fetch A i (l2.map (seen fetch)) :=
        after_tile fetch (by rw [hi.etx, hi.xe, hi.ety, hi.x0, if_pos (by omega)])
          (by rw [hi.ye]; omega) hb hr2
      obtain ⟨l1, nd1, hm1, hr1⟩ := tile_run fetch g hi h1 (by omega) h3 (by omega) haft
      refine ⟨l1 ++ l2, ?_, ?_, by rw [List.map_append]; exact hr1⟩
      · rw [List.nodup_append]
        refine ⟨nd1, nd2, ?_⟩
        intro p hp q hq e
        subst e
        have e1 := (hm1 p).mp hp
        have e2 := (hm2 p).mp hq
        omega
      · intro p
        rw [List.mem_append, hm1, hm2]
        constructor
        · rintro (⟨a, b, c⟩ | ⟨a, b⟩)
          · exact ⟨a, Or.inl ⟨c, by omega⟩⟩
          · exact ⟨a, by omega⟩
        · rintro ⟨a, b⟩
          have := hmx p a
          have := hmy p a
          by_cases he : p.1 / A.tw = tx ∧ p.2 / A.th = ty
          · exact Or.inl ⟨a, he⟩
          · exact Or.inr ⟨a, by omega⟩
    | succ j ih =>
      intro i tx ty hi hty htx h1 h3
      push_cast at htx
      have hb := getTile_eq g (tx := tx + 1) (ty := ty) (by omega) (by omega) h3
        (by push_cast at hty; omega)
      obtain ⟨l2, nd2, hm2, hr2⟩ := ih
        { i with tileX := tx + 1, tileY := ty, curr := Buf.start _ i.support } (tx + 1) ty
        ⟨hi.sup, hi.x0, hi.xe, hi.ye, rfl, rfl, _, hb, by rw [hi.sup]⟩ hty
        (by omega) (by omega) h3
      push_cast at hty
      have haft : After fetch A i (l2.map (seen fetch)) :=
        after_tile fetch (by rw [hi.etx, hi.xe, hi.ety, if_neg (by omega)])
          (by rw [hi.ye]; omega) hb hr2
      obtain ⟨l1, nd1, hm1, hr1⟩ := tile_run fetch g hi h1 (by omega) h3 (by omega) haft
      refine ⟨l1 ++ l2, ?_, ?_, by rw [List.map_append]; exact hr1⟩
      · rw [List.nodup_append]
        refine ⟨nd1, nd2, ?_⟩
        intro p hp q hq e
        subst e
        have e1 := (hm1 p).mp hp
        have e2 := (hm2 p).mp hq
        omega
      · intro p
        rw [List.mem_append, hm1, hm2]
        constructor
        · rintro (⟨a, b, c⟩ | ⟨a, b⟩)
          · exact ⟨a, Or.inl ⟨c, by omega⟩⟩
          · exact ⟨a, by omega⟩
        · rintro ⟨a, b⟩
          have := hmx p a
          have := hmy p a
          by_cases he : p.1 / A.tw = tx ∧ p.2 / A.th = ty
          · exact Or.inl ⟨a, he⟩
          · exact Or.inr ⟨a, by omega⟩

/-- **C33.**  For every image size, tile size and region: going through the
region ends after finitely many steps without failing an assertion, and sees
each pixel of the image that lies in the region exactly once, with the value the
image has there, and no other pixel. -/
theorem C33_visit (A : Arr) (s : Support) (hW : 0 < A.width) (hH : 0 < A.height) (htw : 0 < A.tw)
    (hth : 0 < A.th) :
    ∃ (N : Nat) (l : List (Int × Int)), l.Nodup ∧
      (∀ x y, (x, y) ∈ l ↔ (s.sx.start ≤ x ∧ x < s.sx.stop ∧ s.sy.start ≤ y ∧ y < s.sy.stop) ∧
        (0 ≤ x ∧ x < A.width ∧ 0 ≤ y ∧ y < A.height)) ∧
      ∀ f, N ≤ f → visit fetch A s f = .done (l.map fun p => (p, fetch p.1 p.2)) := by
  have hmem : ∀ x y, (s.intersect (Support.mk4 0 A.width 0 A.height)).Mem (x, y) ↔
      (s.sx.start ≤ x ∧ x < s.sx.stop ∧ s.sy.start ≤ y ∧ y < s.sy.stop) ∧
        (0 ≤ x ∧ x < A.width ∧ 0 ≤ y ∧ y < A.height) := by
    intro x y
    rw [C34_intersect]
    simp only [Support.Mem, Support1D.Mem, Support.mk4]
    omega
  have hbx : 0 ≤ (s.intersect (Support.mk4 0 A.width 0 A.height)).sx.start ∧
      (s.intersect (Support.mk4 0 A.width 0 A.height)).sx.stop ≤ A.width := by
    show 0 ≤ (if s.sx.start < 0 then 0 else s.sx.start) ∧
      (if A.width < s.sx.stop then A.width else s.sx.stop) ≤ A.width
    constructor <;> split <;> omega
  have hby : 0 ≤ (s.intersect (Support.mk4 0 A.width 0 A.height)).sy.start ∧
      (s.intersect (Support.mk4 0 A.width 0 A.height)).sy.stop ≤ A.height := by
    show 0 ≤ (if s.sy.start < 0 then 0 else s.sy.start) ∧
      (if A.height < s.sy.stop then A.height else s.sy.stop) ≤ A.height
    constructor <;> split <;> omega
  unfold visit Arr.start
  simp only
  generalize s.intersect (Support.mk4 0 A.width 0 A.height) = t at *
  by_cases he : t.isEmpty = true
  · -- nothing to see
    have hnone := (C34_empty t).mp he
    refine ⟨1, [], by simp, ?_, ?_⟩
    · intro x y
      rw [← hmem]
      simp [hnone (x, y)]
    · intro f hf
      obtain ⟨f, rfl⟩ : ∃ g, f = g + 1 := ⟨f - 1, by omega⟩
      -- the tile asked for exists
      have h1 : ∃ b, getTile A (if t.sx.isEmpty = true then 0 else t.sx.start.tdiv A.tw)
          (if t.sy.isEmpty = true then 0 else t.sy.start.tdiv A.th) = some b := by
        have key : ∀ (S : Support1D) (W w : Int), 0 < W → 0 < w → 0 ≤ S.start → S.stop ≤ W →
            let q := if S.isEmpty = true then 0 else S.start.tdiv w
            q < (W - 1).tdiv w + 1 ∧ 0 ≤ q ∧
              0 < (if (q + 1) * w > W then W - q * w else w) := by
          intro S W w hW hw h0 hS q
          by_cases hE : S.isEmpty = true
          · have hq : q = 0 := by simp only [q, hE, if_true]
            rw [hq]
            have := Int.tdiv_nonneg (show 0 ≤ W - 1 by omega) (le_of_lt hw)
            refine ⟨by omega, le_refl _, ?_⟩
            split <;> omega
          · have hE' : ¬ S.start ≥ S.stop := by simpa [Support1D.isEmpty] using hE
            have hq : q = S.start / w := by
              simp only [q]
              rw [if_neg hE, Int.tdiv_eq_ediv_of_nonneg h0]
            rw [hq]
            obtain ⟨c1, _, _, _, c5, _⟩ := cell w W S.start S.stop (S.start / w) hw h0 (by omega) hS
              (le_refl _) (by have := Int.ediv_le_ediv hw (show S.start ≤ S.stop - 1 by omega); omega)
            exact ⟨tiles_bound hw hS (by omega)
              (by have := Int.ediv_le_ediv hw (show S.start ≤ S.stop - 1 by omega); omega), c5, c1⟩
        obtain ⟨x1, x2, x3⟩ := key t.sx A.width A.tw hW htw hbx.1 hbx.2
        obtain ⟨y1, y2, y3⟩ := key t.sy A.height A.th hH hth hby.1 hby.2
        unfold getTile Arr.widthInTiles Arr.heightInTiles
        rw [if_pos ⟨x1, y1, x2, y2⟩]
        simp only
        rw [if_pos ⟨x3, y3⟩]
        exact ⟨_, rfl⟩
      obtain ⟨b, hb⟩ := h1
      simp only [hb, he, if_true, loop, Iter.inSupport, lt_irrefl, decide_false, Bool.false_eq_true,
        if_false, List.map_nil]
  · have he' : t.sx.isEmpty = false ∧ t.sy.isEmpty = false := by
      simpa [Support.isEmpty] using he
    have hx : t.sx.start < t.sx.stop := by
      have := he'.1; simp only [Support1D.isEmpty, decide_eq_false_iff_not] at this; omega
    have hy : t.sy.start < t.sy.stop := by
      have := he'.2; simp only [Support1D.isEmpty, decide_eq_false_iff_not] at this; omega
    have g : Good A t := ⟨htw, hth, hbx.1, hx, hbx.2, hby.1, hy, hby.2⟩
    have dx := Int.ediv_le_ediv htw (show t.sx.start ≤ t.sx.stop - 1 by omega)
    have dy := Int.ediv_le_ediv hth (show t.sy.start ≤ t.sy.stop - 1 by omega)
    have hb := getTile_eq g (tx := t.sx.start / A.tw) (ty := t.sy.start / A.th) (le_refl _)
      (by omega) (le_refl _) (by omega)
    rw [Int.tdiv_eq_ediv_of_nonneg hbx.1, Int.tdiv_eq_ediv_of_nonneg hby.1,
      Int.tdiv_eq_ediv_of_nonneg (show 0 ≤ t.sx.stop - 1 by omega),
      Int.tdiv_eq_ediv_of_nonneg (show 0 ≤ t.sy.stop - 1 by omega)]
    simp only [he'.1, he'.2, he, Bool.false_eq_true, if_false, hb]
    obtain ⟨l, nd, hm, N, hN⟩ := tiles_run fetch g
      ((t.sy.stop - 1) / A.th - t.sy.start / A.th).toNat
      ((t.sx.stop - 1) / A.tw - t.sx.start / A.tw).toNat
      { support := t, tileX0 := t.sx.start / A.tw, tileXEnd := (t.sx.stop - 1) / A.tw + 1,
        tileYEnd := (t.sy.stop - 1) / A.th + 1, tileX := t.sx.start / A.tw,
        tileY := t.sy.start / A.th, curr := Buf.start _ t }
      (t.sx.start / A.tw) (t.sy.start / A.th)
      ⟨rfl, rfl, rfl, rfl, rfl, rfl, _, hb, rfl⟩ (by omega) (by omega) (le_refl _) (le_refl _)
    refine ⟨N, l, nd, ?_, hN⟩
    intro x y
    rw [hm, ← hmem]
    constructor
    · exact fun h => h.1
    · intro h
      refine ⟨h, ?_⟩
      unfold Support.Mem Support1D.Mem at h
      have h1 := Int.ediv_le_ediv htw h.1.1
      have h2 := Int.ediv_le_ediv hth h.2.1
      simp only at h1 h2 ⊢
      omega

/-- A region over the border of four tiles, partly outside the image. -/
example : visit (fun x y => x + 100 * y) ⟨5, 5, 2, 3⟩ (.mk4 1 9 2 4) 100 =
    .done [((1, 2), 201), ((2, 2), 202), ((3, 2), 203), ((4, 2), 204), ((1, 3), 301),
      ((2, 3), 302), ((3, 3), 303), ((4, 3), 304)] := by decide +kernel

end Verif.Tex.Tile
