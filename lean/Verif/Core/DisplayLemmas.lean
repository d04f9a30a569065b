import Mathlib.Tactic.Linarith
import Mathlib.Tactic.Ring
import Mathlib.Tactic.Push
import Mathlib.Tactic.SplitIfs
import Mathlib.Tactic.ByContra
import Verif.Core.Display
/-!
# Lemmas about the display model
-/
namespace Verif.Core.Display
open Verif.Core.Buckets (Region)

theorem mem_intRange {a b x : Int} : x ∈ intRange a b ↔ a ≤ x ∧ x < b := by
  unfold intRange
  simp only [List.mem_map, List.mem_range]
  constructor
  · rintro ⟨k, hk, rfl⟩
    omega
  · rintro ⟨h1, h2⟩
    exact ⟨(x - a).toNat, by omega, by omega⟩

theorem length_intRange (a b : Int) : (intRange a b).length = (b - a).toNat := by
  simp [intRange]

theorem getElem?_intRange {a b : Int} {k : Nat} (h : (k : Int) < b - a) :
    (intRange a b)[k]? = some (a + k) := by
  unfold intRange
  rw [List.getElem?_map, List.getElem?_range (by omega)]
  rfl

theorem intRange_nil {a b : Int} (h : b ≤ a) : intRange a b = [] := by
  unfold intRange
  rw [show (b - a).toNat = 0 by omega]
  rfl

theorem intRange_cons {a b : Int} (h : a < b) : intRange a b = a :: intRange (a + 1) b := by
  unfold intRange
  rw [show (b - a).toNat = (b - (a + 1)).toNat + 1 by omega, List.range_succ_eq_map,
    List.map_cons, List.map_map]
  congr 1
  · simp
  · apply List.map_congr_left
    intro k _
    simp only [Function.comp]
    push_cast
    ring

/-- What a sequence of stores does if all are inside the block and no two differ at a place. -/
theorem applyWrites_spec {β : Type} (cap : Int) (ws : List (Int × β))
    (hin : ∀ p ∈ ws, 0 ≤ p.1 ∧ p.1 < cap)
    (hfun : ∀ p ∈ ws, ∀ q ∈ ws, p.1 = q.1 → p.2 = q.2) (m : Int → β) :
    ∃ m', applyWrites cap ws m = some m' ∧ (∀ p ∈ ws, m' p.1 = p.2) ∧
      ∀ i, (∀ p ∈ ws, p.1 ≠ i) → m' i = m i := by
  induction ws generalizing m with
  | nil => exact ⟨m, rfl, by simp, by simp⟩
  | cons a ws ih =>
    obtain ⟨i, v⟩ := a
    obtain ⟨m', h1, h2, h3⟩ := ih (fun p hp => hin p (List.mem_cons_of_mem _ hp))
      (fun p hp q hq => hfun p (List.mem_cons_of_mem _ hp) q (List.mem_cons_of_mem _ hq))
      (Function.update m i v)
    refine ⟨m', ?_, ?_, ?_⟩
    · have := hin (i, v) List.mem_cons_self
      unfold applyWrites
      rw [if_pos this]
      exact h1
    · intro p hp
      rcases List.mem_cons.1 hp with rfl | hp
      · by_cases hx : ∃ q ∈ ws, q.1 = i
        · obtain ⟨q, hq, hqi⟩ := hx
          have e1 := h2 q hq
          rw [hqi] at e1
          rw [e1]
          exact hfun q (List.mem_cons_of_mem _ hq) (i, v) List.mem_cons_self hqi
        · rw [h3 i (fun q hq h => hx ⟨q, hq, h⟩)]
          simp
      · exact h2 p hp
    · intro j hj
      rw [h3 j (fun p hp => hj p (List.mem_cons_of_mem _ hp))]
      have : j ≠ i := fun h => hj (i, v) List.mem_cons_self h.symm
      simp [Function.update_of_ne this]

/-- Line and column of an index. -/
theorem index_inj {w x x' y y' : Int} (hx : 0 ≤ x) (hxw : x < w) (hx' : 0 ≤ x') (hxw' : x' < w)
    (h : y * w + x = y' * w + x') : x = x' ∧ y = y' := by
  have hw : 0 < w := by omega
  have e : (y - y') * w = x' - x := by linarith [sub_mul y y' w]
  have : y - y' = 0 := by
    by_contra hne
    rcases lt_or_gt_of_ne hne with hlt | hgt
    · have : (y - y') * w ≤ (-1) * w := mul_le_mul_of_nonneg_right (by omega) hw.le
      omega
    · have : 1 * w ≤ (y - y') * w := mul_le_mul_of_nonneg_right (by omega) hw.le
      omega
  rw [this] at e
  omega

theorem index_range {w h x y : Int} (hx : 0 ≤ x) (hxw : x < w) (hy : 0 ≤ y) (hyh : y < h) :
    0 ≤ y * w + x ∧ y * w + x < w * h := by
  have hw : 0 < w := by omega
  have h1 : 0 ≤ y * w := mul_nonneg hy hw.le
  have h2 : y * w ≤ (h - 1) * w := mul_le_mul_of_nonneg_right (by omega) hw.le
  have h3 : (h - 1) * w = w * h - w := by ring
  omega

variable {α : Type}

theorem length_regionPixels (pic : Int → Int → α) (reg : Region) :
    (regionPixels pic reg).length = (reg.yMax - reg.yMin).toNat * (reg.xMax - reg.xMin).toNat := by
  unfold regionPixels
  rw [List.length_flatMap]
  simp only [List.length_map, length_intRange, List.map_const', List.sum_replicate_nat]

/-- A list of equally long lines. -/
theorem getElem?_lines {β γ : Type} (f : β → List γ) (w : Nat) (l : List β) (hl : ∀ b ∈ l, (f b).length = w)
    (i k : Nat) (hk : k < w) :
    (l.flatMap f)[i * w + k]? = (l[i]?).bind fun b => (f b)[k]? := by
  induction l generalizing i with
  | nil => simp
  | cons b l ih =>
    have hb := hl b List.mem_cons_self
    rw [List.flatMap_cons]
    cases i with
    | zero =>
      rw [Nat.zero_mul, Nat.zero_add, List.getElem?_append_left (by omega)]
      simp
    | succ i =>
      rw [List.getElem?_append_right (by rw [hb, Nat.succ_mul]; omega)]
      rw [show (i + 1) * w + k - (f b).length = i * w + k by rw [hb, Nat.succ_mul]; omega]
      rw [ih (fun b hb => hl b (List.mem_cons_of_mem _ hb))]
      simp

theorem getElem?_regionPixels (pic : Int → Int → α) (reg : Region) {x y : Int}
    (hx : reg.xMin ≤ x) (hx' : x < reg.xMax) (hy : reg.yMin ≤ y) (hy' : y < reg.yMax) :
    (regionPixels pic reg)[((y - reg.yMin) * (reg.xMax - reg.xMin) + (x - reg.xMin)).toNat]? =
      some (pic x y) := by
  have e : ((y - reg.yMin) * (reg.xMax - reg.xMin) + (x - reg.xMin)).toNat =
      (y - reg.yMin).toNat * (reg.xMax - reg.xMin).toNat + (x - reg.xMin).toNat := by
    have a1 : ((y - reg.yMin).toNat : Int) = y - reg.yMin := by omega
    have a2 : ((reg.xMax - reg.xMin).toNat : Int) = reg.xMax - reg.xMin := by omega
    have a3 : ((x - reg.xMin).toNat : Int) = x - reg.xMin := by omega
    rw [← a1, ← a2, ← a3]
    norm_cast
  rw [e]
  unfold regionPixels
  rw [getElem?_lines _ (reg.xMax - reg.xMin).toNat _ (by simp [length_intRange]) _ _ (by omega)]
  rw [getElem?_intRange (by omega)]
  simp only [Option.bind_some, List.getElem?_map]
  rw [getElem?_intRange (by omega)]
  simp only [Option.map_some]
  congr 2 <;> omega

theorem mapM_some_of {β γ : Type} (f : β → Option γ) (g : β → γ) (l : List β)
    (h : ∀ b ∈ l, f b = some (g b)) : l.mapM f = some (l.map g) := by
  induction l with
  | nil => rfl
  | cons b l ih =>
    rw [List.mapM_cons, h b List.mem_cons_self, ih (fun b hb => h b (List.mem_cons_of_mem _ hb))]
    rfl

/-! ## The file driver -/

/-- What one call of the driver does, if the data is the picture `v` on the region of the call. -/
theorem imageData_spec (f : File α) (c : Call α) (v : Int → Int → Option α)
    (horig : f.origW = f.width ∧ f.origH = f.height → f.ox = 0 ∧ f.oy = 0)
    (hdata : ∀ x y, c.xmin ≤ x → x < c.xmax → c.ymin ≤ y → y < c.ymax →
      c.data[((y - c.ymin) * (c.xmax - c.xmin) + (x - c.xmin)).toNat]? = some (v x y))
    (h0 : 0 ≤ f.width) (hx1 : c.xmin ≤ c.xmax) (hx2 : c.xmin - f.ox ≤ f.width) (hx3 : f.ox ≤ c.xmax) :
    ∃ m', imageData c f = some { f with mem := m' } ∧
      ∀ x y, 0 ≤ x → x < f.width → 0 ≤ y → y < f.height →
        ((c.xmin ≤ x + f.ox ∧ x + f.ox < c.xmax ∧ c.ymin ≤ y + f.oy ∧ y + f.oy < c.ymax) →
          m' (y * f.width + x) = v (x + f.ox) (y + f.oy)) ∧
        (¬ (c.xmin ≤ x + f.ox ∧ x + f.ox < c.xmax ∧ c.ymin ≤ y + f.oy ∧ y + f.oy < c.ymax) →
          m' (y * f.width + x) = f.mem (y * f.width + x)) := by
  have ef : (if f.origW = f.width ∧ f.origH = f.height then { f with ox := 0, oy := 0 } else f) = f := by
    split_ifs with h
    · obtain ⟨a, b⟩ := horig h
      obtain ⟨w, ht, ox, oy, ow, oh, mem⟩ := f
      simp only at a b
      subst a b
      rfl
    · rfl
  obtain ⟨x0, hx0⟩ : ∃ x0, x0 = max (c.xmin - f.ox) 0 := ⟨_, rfl⟩
  obtain ⟨y0, hy0⟩ : ∃ y0, y0 = max (c.ymin - f.oy) 0 := ⟨_, rfl⟩
  obtain ⟨x1, hx1'⟩ : ∃ x1, x1 = min (c.xmax - f.ox) f.width := ⟨_, rfl⟩
  obtain ⟨y1, hy1⟩ : ∃ y1, y1 = min (c.ymax - f.oy) f.height := ⟨_, rfl⟩
  obtain ⟨row, hrow⟩ : ∃ row, row = max (f.oy - c.ymin) 0 := ⟨_, rfl⟩
  obtain ⟨col, hcol⟩ : ∃ col, col = max (f.ox - c.xmin) 0 := ⟨_, rfl⟩
  let reads : List (Int × Int) := (intRange y0 y1).flatMap fun y =>
      (intRange 0 (x1 - x0)).map fun k =>
        (y * f.width + x0 + k, (row + (y - y0)) * (c.xmax - c.xmin) + col + k)
  have hreads : ∀ p, p ∈ reads ↔ ∃ x y, x0 ≤ x ∧ x < x1 ∧ y0 ≤ y ∧ y < y1 ∧
      p = (y * f.width + x, (y + f.oy - c.ymin) * (c.xmax - c.xmin) + (x + f.ox - c.xmin)) := by
    intro p
    simp only [reads, List.mem_flatMap, List.mem_map, mem_intRange]
    constructor
    · rintro ⟨y, ⟨hy, hy'⟩, k, ⟨hk, hk'⟩, rfl⟩
      refine ⟨x0 + k, y, by omega, by omega, hy, hy', ?_⟩
      rw [show row + (y - y0) = y + f.oy - c.ymin by omega, Prod.mk.injEq]
      constructor
      · ring
      · omega
    · rintro ⟨x, y, a1, a2, a3, a4, rfl⟩
      refine ⟨y, ⟨a3, a4⟩, x - x0, ⟨by omega, by omega⟩, ?_⟩
      rw [show row + (y - y0) = y + f.oy - c.ymin by omega, Prod.mk.injEq]
      constructor
      · ring
      · omega
  have hval : ∀ x y, x0 ≤ x → x < x1 → y0 ≤ y → y < y1 →
      0 ≤ (y + f.oy - c.ymin) * (c.xmax - c.xmin) + (x + f.ox - c.xmin) ∧
      c.data[((y + f.oy - c.ymin) * (c.xmax - c.xmin) + (x + f.ox - c.xmin)).toNat]? =
        some (v (x + f.ox) (y + f.oy)) := by
    intro x y a1 a2 a3 a4
    refine ⟨?_, hdata _ _ (by omega) (by omega) (by omega) (by omega)⟩
    have := mul_nonneg (show 0 ≤ y + f.oy - c.ymin by omega) (show 0 ≤ c.xmax - c.xmin by omega)
    omega
  let g : Int × Int → Int × Option α := fun p => (p.1, (c.data[p.2.toNat]?).getD none)
  have hm : (reads.mapM fun (p : Int × Int) =>
      if 0 ≤ p.2 then (c.data[p.2.toNat]?).map fun v => (p.1, v) else none) = some (reads.map g) := by
    apply mapM_some_of
    intro p hp
    obtain ⟨x, y, a1, a2, a3, a4, rfl⟩ := (hreads p).1 hp
    obtain ⟨b1, b2⟩ := hval x y a1 a2 a3 a4
    simp only [g]
    rw [if_pos b1, b2]
    rfl
  have hws : ∀ p, p ∈ reads.map g ↔ ∃ x y, x0 ≤ x ∧ x < x1 ∧ y0 ≤ y ∧ y < y1 ∧
      p = (y * f.width + x, v (x + f.ox) (y + f.oy)) := by
    intro p
    rw [List.mem_map]
    constructor
    · rintro ⟨q, hq, rfl⟩
      obtain ⟨x, y, a1, a2, a3, a4, rfl⟩ := (hreads q).1 hq
      refine ⟨x, y, a1, a2, a3, a4, ?_⟩
      simp only [g]
      rw [(hval x y a1 a2 a3 a4).2]
      rfl
    · rintro ⟨x, y, a1, a2, a3, a4, rfl⟩
      refine ⟨_, (hreads _).2 ⟨x, y, a1, a2, a3, a4, rfl⟩, ?_⟩
      simp only [g]
      rw [(hval x y a1 a2 a3 a4).2]
      rfl
  obtain ⟨m', e1, e2, e3⟩ := applyWrites_spec (f.width * f.height) (reads.map g) (by
      intro p hp
      obtain ⟨x, y, a1, a2, a3, a4, rfl⟩ := (hws p).1 hp
      exact index_range (by omega) (by omega) (by omega) (by omega)) (by
      intro p hp q hq h
      obtain ⟨x, y, a1, a2, a3, a4, rfl⟩ := (hws p).1 hp
      obtain ⟨x', y', b1, b2, b3, b4, rfl⟩ := (hws q).1 hq
      obtain ⟨rfl, rfl⟩ := index_inj (by omega) (by omega) (by omega) (by omega) h
      rfl) f.mem
  refine ⟨m', ?_, ?_⟩
  · unfold imageData
    dsimp only
    rw [ef, ← hx0, ← hy0, ← hx1', ← hy1, ← hrow, ← hcol, if_neg (by omega)]
    have hm' := hm
    simp only [reads] at hm'
    rw [hm', Option.bind_some]
    have e1' := e1
    simp only [reads] at e1'
    rw [e1']
    rfl
  · intro x y hx hxw hy hyh
    constructor
    · rintro ⟨a1, a2, a3, a4⟩
      exact e2 _ ((hws _).2 ⟨x, y, by omega, by omega, by omega, by omega, rfl⟩)
    · intro hn
      apply e3
      intro p hp h
      obtain ⟨x', y', b1, b2, b3, b4, rfl⟩ := (hws p).1 hp
      obtain ⟨rfl, rfl⟩ := index_inj (by omega) (by omega) (by omega) (by omega) h
      exact hn ⟨by omega, by omega, by omega, by omega⟩

/-! ## Bucket by bucket -/

/-- A region that is not empty and has a pixel in common with the crop window. -/
def Overlaps (crop reg : Region) : Prop :=
  reg.xMin < reg.xMax ∧ reg.yMin < reg.yMax ∧ crop.xMin < reg.xMax ∧ crop.yMin < reg.yMax ∧
    reg.xMin < crop.xMax ∧ reg.yMin < crop.yMax

/-- The number of pixels of a region. -/
def area (reg : Region) : Int := (reg.xMax - reg.xMin) * (reg.yMax - reg.yMin)

/-- The pixel is in the region. -/
def Inside (reg : Region) (x y : Int) : Prop :=
  reg.xMin ≤ x ∧ x < reg.xMax ∧ reg.yMin ≤ y ∧ y < reg.yMax

theorem length_area (pic : Int → Int → α) {reg : Region} (hx : reg.xMin < reg.xMax)
    (hy : reg.yMin < reg.yMax) : ((regionPixels pic reg).length : Int) = area reg := by
  rw [length_regionPixels]
  push_cast
  rw [Int.toNat_of_nonneg (by omega), Int.toNat_of_nonneg (by omega), area, mul_comm]

theorem sendAll_buckets (crop : Region) (hcrop : crop.xMin ≤ crop.xMax) (pic : Int → Int → α) (cap : Int) (regs : List Region)
    (hregs : ∀ reg ∈ regs, Overlaps crop reg ∧ area reg ≤ cap) (r : Req α) (f : File α)
    (hs : r.scanline = false)
    (hcap : r.bucketCap = some cap ∨ (r.bucketCap = none ∧ ∀ reg, regs.head? = some reg → area reg = cap))
    (hf : f.width = crop.xMax - crop.xMin ∧ f.height = crop.yMax - crop.yMin ∧ f.ox = crop.xMin ∧
      f.oy = crop.yMin)
    (horig : f.origW = f.width ∧ f.origH = f.height → f.ox = 0 ∧ f.oy = 0) :
    ∃ r' m', sendAll crop pic regs r f = some (r', { f with mem := m' }) ∧
      ∀ x y, 0 ≤ x → x < f.width → 0 ≤ y → y < f.height →
        ((∃ reg ∈ regs, Inside reg (x + f.ox) (y + f.oy)) →
          m' (y * f.width + x) = some (pic (x + f.ox) (y + f.oy))) ∧
        ((∀ reg ∈ regs, ¬ Inside reg (x + f.ox) (y + f.oy)) →
          m' (y * f.width + x) = f.mem (y * f.width + x)) := by
  induction regs generalizing r f with
  | nil => exact ⟨r, f.mem, rfl, by simp⟩
  | cons reg regs ih =>
    obtain ⟨⟨o1, o2, o3, o4, o5, o6⟩, hc⟩ := hregs reg List.mem_cons_self
    have hcap' : r.bucketCap.getD (area reg) = cap := by
      rcases hcap with h | ⟨h, h'⟩
      · rw [h]; rfl
      · rw [h]; exact h' reg rfl
    have hd : displayBucket crop reg (regionPixels pic reg) r =
        some ({ r with bucketCap := some cap },
          [⟨reg.xMin, reg.xMax, reg.yMin, reg.yMax, (regionPixels pic reg).map some⟩]) := by
      unfold displayBucket
      rw [if_neg (by omega), if_neg (by omega)]
      dsimp only
      rw [show (reg.xMax - reg.xMin) * (reg.yMax - reg.yMin) = area reg from rfl, hcap',
        length_area pic o1 o2, if_neg (by omega), hs]
      rfl
    obtain ⟨m1, e1, e2⟩ := imageData_spec f
      ⟨reg.xMin, reg.xMax, reg.yMin, reg.yMax, (regionPixels pic reg).map some⟩
      (fun x y => some (pic x y)) horig (by
        intro x y a1 a2 a3 a4
        simp only at a1 a2 a3 a4 ⊢
        rw [List.getElem?_map, getElem?_regionPixels pic reg a1 a2 a3 a4]
        rfl) (by omega) (by simp only; omega) (by simp only; omega) (by simp only; omega)
    obtain ⟨r', m', i1, i2⟩ := ih (fun q hq => hregs q (List.mem_cons_of_mem _ hq))
      { r with bucketCap := some cap } { f with mem := m1 } hs (Or.inl rfl) hf horig
    refine ⟨r', m', ?_, ?_⟩
    · unfold sendAll
      rw [hd, Option.bind_some]
      simp only [imageCalls]
      rw [e1, Option.bind_some, Option.bind_some]
      exact i1
    · intro x y a1 a2 a3 a4
      obtain ⟨j1, j2⟩ := i2 x y a1 a2 a3 a4
      obtain ⟨k1, k2⟩ := e2 x y a1 a2 a3 a4
      simp only at j1 j2 k1 k2
      by_cases hx : ∃ q ∈ regs, Inside q (x + f.ox) (y + f.oy)
      · refine ⟨fun _ => j1 hx, fun hn => ?_⟩
        obtain ⟨q, hq, hq'⟩ := hx
        exact absurd hq' (hn q (List.mem_cons_of_mem _ hq))
      · have hx' : ∀ q ∈ regs, ¬ Inside q (x + f.ox) (y + f.oy) := fun q hq h => hx ⟨q, hq, h⟩
        constructor
        · rintro ⟨q, hq, hq'⟩
          rcases List.mem_cons.1 hq with rfl | hq
          · rw [j2 hx']
            exact k1 hq'
          · exact absurd hq' (hx' q hq)
        · intro hn
          rw [j2 hx']
          exact k2 (hn reg List.mem_cons_self)

/-! ## Line by line -/

/-- A sequence of lines that hold the picture. -/
theorem imageCalls_lines (pic : Int → Int → α) (line : Int → Call α) (ys : List Int) (f : File α)
    (hf : f.ox = 0 ∧ f.oy = 0) (hw : 0 ≤ f.width)
    (hline : ∀ y ∈ ys, (line y).xmin = 0 ∧ (line y).xmax = f.width ∧ (line y).ymin = y ∧
      (line y).ymax = y + 1 ∧ ∀ x, 0 ≤ x → x < f.width →
        (line y).data[x.toNat]? = some (some (pic x y))) :
    ∃ m', imageCalls (ys.map line) f = some { f with mem := m' } ∧
      ∀ x y, 0 ≤ x → x < f.width → 0 ≤ y → y < f.height →
        (y ∈ ys → m' (y * f.width + x) = some (pic x y)) ∧
        (y ∉ ys → m' (y * f.width + x) = f.mem (y * f.width + x)) := by
  induction ys generalizing f with
  | nil => exact ⟨f.mem, rfl, by simp⟩
  | cons l ys ih =>
    obtain ⟨c1, c2, c3, c4, c5⟩ := hline l List.mem_cons_self
    obtain ⟨m1, e1, e2⟩ := imageData_spec f (line l) (fun x y => some (pic x y)) (fun _ => hf) (by
        intro x y a1 a2 a3 a4
        rw [c1] at a1; rw [c2] at a2; rw [c3] at a3; rw [c4] at a4
        have : y = l := by omega
        subst this
        rw [c1, c2, c3, Int.sub_self, Int.zero_mul, Int.zero_add, Int.sub_zero]
        exact c5 x a1 a2) hw (by omega) (by omega) (by omega)
    obtain ⟨m', i1, i2⟩ := ih { f with mem := m1 } hf hw
      (fun y hy => hline y (List.mem_cons_of_mem _ hy))
    refine ⟨m', ?_, ?_⟩
    · rw [List.map_cons, imageCalls, e1, Option.bind_some]
      exact i1
    · intro x y a1 a2 a3 a4
      obtain ⟨j1, j2⟩ := i2 x y a1 a2 a3 a4
      obtain ⟨k1, k2⟩ := e2 x y a1 a2 a3 a4
      simp only [hf.1, hf.2, Int.add_zero, c1, c2, c3, c4] at j1 j2 k1 k2
      by_cases hy : y ∈ ys
      · exact ⟨fun _ => j1 hy, fun hn => absurd (List.mem_cons_of_mem _ hy) hn⟩
      · constructor
        · intro h
          rcases List.mem_cons.1 h with rfl | h
          · rw [j2 hy]
            exact k1 ⟨a1, a2, by omega, by omega⟩
          · exact absurd h hy
        · intro hn
          rw [j2 hy]
          apply k2
          rintro ⟨_, _, h1, h2⟩
          exact hn (by rw [show y = l by omega]; exact List.mem_cons_self)

/-- What a bucket inside an image without crop window adds to the block of lines. -/
theorem displayBucket_row (xRes yRes : Int) (reg : Region) (pic : Int → Int → α) (r : Req α) (cap : Int)
    (hr : r.width = xRes ∧ r.height = yRes ∧ r.scanline = true)
    (hcap : r.bucketCap.getD (area reg) = cap) (hc : area reg ≤ cap)
    (h0 : 0 ≤ reg.xMin) (h1 : reg.xMin < reg.xMax) (h2 : reg.xMax ≤ xRes)
    (h3 : 0 ≤ reg.yMin) (h4 : reg.yMin < reg.yMax) (h5 : reg.yMax ≤ yRes) :
    ∃ row', (∀ x y, 0 ≤ x → x < xRes → reg.yMin ≤ y → y < reg.yMax →
        ((reg.xMin ≤ x ∧ x < reg.xMax) → row' ((y - reg.yMin) * xRes + x) = some (pic x y)) ∧
        (¬ (reg.xMin ≤ x ∧ x < reg.xMax) →
          row' ((y - reg.yMin) * xRes + x) = r.row ((y - reg.yMin) * xRes + x))) ∧
      ∃ line : Int → Call α,
      displayBucket ⟨0, 0, xRes, yRes⟩ reg (regionPixels pic reg) r =
        some ({ r with bucketCap := some cap, row := row' },
          if reg.xMax ≥ xRes then (intRange reg.yMin reg.yMax).map line else []) ∧
      ∀ y, reg.yMin ≤ y → y < reg.yMax → (line y).xmin = 0 ∧ (line y).xmax = xRes ∧ (line y).ymin = y ∧
        (line y).ymax = y + 1 ∧ ∀ x, 0 ≤ x → x < xRes →
          (line y).data[x.toNat]? = some (row' ((y - reg.yMin) * xRes + x)) := by
  obtain ⟨w, ht, sc, bc, row⟩ := r
  obtain ⟨r1, r2, r3⟩ := hr
  simp only at r1 r2 r3 hcap
  subst r1 r2 r3
  let ws : List (Int × Option α) := (intRange reg.yMin reg.yMax).flatMap fun y =>
        (intRange reg.xMin reg.xMax).map fun x =>
          (w * (y - reg.yMin) + x,
            (regionPixels pic reg)[((y - reg.yMin) * (reg.xMax - reg.xMin) + (x - reg.xMin)).toNat]?)
  have hws : ∀ p, p ∈ ws ↔ ∃ x y, reg.xMin ≤ x ∧ x < reg.xMax ∧ reg.yMin ≤ y ∧ y < reg.yMax ∧
      p = ((y - reg.yMin) * w + x, some (pic x y)) := by
    intro p
    simp only [ws, List.mem_flatMap, List.mem_map, mem_intRange]
    constructor
    · rintro ⟨y, ⟨a1, a2⟩, x, ⟨a3, a4⟩, rfl⟩
      refine ⟨x, y, a3, a4, a1, a2, ?_⟩
      rw [getElem?_regionPixels pic reg a3 a4 a1 a2, mul_comm]
    · rintro ⟨x, y, a3, a4, a1, a2, rfl⟩
      refine ⟨y, ⟨a1, a2⟩, x, ⟨a3, a4⟩, ?_⟩
      rw [getElem?_regionPixels pic reg a3 a4 a1 a2, mul_comm]
  obtain ⟨row', e1, e2, e3⟩ := applyWrites_spec (w * ht) ws (by
      intro p hp
      obtain ⟨x, y, a1, a2, a3, a4, rfl⟩ := (hws p).1 hp
      exact index_range (by omega) (by omega) (by omega) (by omega)) (by
      intro p hp q hq h
      obtain ⟨x, y, a1, a2, a3, a4, rfl⟩ := (hws p).1 hp
      obtain ⟨x', y', b1, b2, b3, b4, rfl⟩ := (hws q).1 hq
      obtain ⟨rfl, h'⟩ := index_inj (by omega) (by omega) (by omega) (by omega) h
      obtain rfl : y = y' := by omega
      rfl) row
  have hl : ∀ y ∈ intRange reg.yMin reg.yMax,
      lineCall (⟨w, ht, true, some cap, row'⟩ : Req α) reg.yMin y =
        some ⟨0, w, y, y + 1, (intRange (w * (y - reg.yMin)) (w * (y - reg.yMin) + w)).map row'⟩ := by
    intro y hy
    rw [mem_intRange] at hy
    unfold lineCall
    dsimp only
    have i1 := index_range (w := w) (h := ht) (x := 0) (y := y - reg.yMin) le_rfl (by omega) (by omega)
      (by omega)
    have i2 := index_range (w := w) (h := ht) (x := w - 1) (y := y - reg.yMin) (by omega) (by omega)
      (by omega) (by omega)
    rw [mul_comm] at i1 i2
    rw [if_pos (by omega)]
  refine ⟨row', ?_, fun y => ⟨0, w, y, y + 1,
    (intRange (w * (y - reg.yMin)) (w * (y - reg.yMin) + w)).map row'⟩, ?_, ?_⟩
  · intro x y a1 a2 a3 a4
    constructor
    · rintro ⟨b1, b2⟩
      exact e2 _ ((hws _).2 ⟨x, y, b1, b2, a3, a4, rfl⟩)
    · intro hn
      apply e3
      intro p hp h
      obtain ⟨x', y', b1, b2, b3, b4, rfl⟩ := (hws p).1 hp
      obtain ⟨rfl, _⟩ := index_inj (by omega) (by omega) (by omega) (by omega) h
      exact hn ⟨b1, b2⟩
  · unfold displayBucket
    rw [if_neg (by omega), if_neg (by simp only; omega)]
    dsimp only
    rw [show (reg.xMax - reg.xMin) * (reg.yMax - reg.yMin) = area reg from rfl, hcap,
      length_area pic h1 h4, if_neg (by omega)]
    simp only [ws] at e1
    rw [if_pos rfl, e1, Option.bind_some]
    by_cases hx : reg.xMax ≥ w
    · rw [if_pos hx, if_pos hx, mapM_some_of _ _ _ hl]
      rfl
    · rw [if_neg hx, if_neg hx]
  · intro y a1 a2
    refine ⟨rfl, rfl, rfl, rfl, ?_⟩
    intro x b1 b2
    simp only
    rw [List.getElem?_map, getElem?_intRange (by omega)]
    rw [Option.map_some, mul_comm, Int.toNat_of_nonneg b1]

end Verif.Core.Display
