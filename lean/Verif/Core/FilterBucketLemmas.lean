import Verif.Core.FilterBucket
import Mathlib.Algebra.BigOperators.Group.List.Basic
import Mathlib.Data.List.Nodup
import Mathlib.Tactic.Linarith
import Mathlib.Tactic.Ring
import Mathlib.Tactic.Positivity
import Mathlib.Tactic.SplitIfs
import Mathlib.Tactic.Push

/-!
# Lemmas about filtering
-/

namespace Verif.Core.FilterBucket

theorem mem_steps {n p : ℤ} (hn : 0 ≤ n) : p ∈ steps n ↔ -n ≤ p ∧ p ≤ n := by
  simp only [steps, List.mem_map, List.mem_range]
  constructor
  · rintro ⟨i, hi, rfl⟩; omega
  · rintro ⟨h1, h2⟩; exact ⟨(p + n).toNat, by omega, by omega⟩

theorem nodup_steps (n : ℤ) : (steps n).Nodup := by
  refine List.Nodup.map ?_ List.nodup_range
  intro a b h
  simp only at h
  omega

theorem div_unique {m a b s t : ℤ} (hs : 0 ≤ s) (hs' : s < m) (ht : 0 ≤ t) (ht' : t < m)
    (h : a * m + s = b * m + t) : a = b ∧ s = t := by
  have hab : a = b := by
    by_contra hne
    rcases lt_or_gt_of_ne hne with hl | hl
    · nlinarith
    · nlinarith
  subst hab
  exact ⟨rfl, by linarith⟩

theorem digit_lt {m n a s : ℤ} (ha : 0 ≤ a) (ha' : a < n) (hs : 0 ≤ s) (hs' : s < m) :
    0 ≤ a * m + s ∧ a * m + s < n * m := by
  have hm : 0 < m := lt_of_le_of_lt hs hs'
  constructor
  · positivity
  · nlinarith

section puts

theorem getAt_lt {α : Type _} {l : List α} {i : ℤ} (h0 : 0 ≤ i) (h1 : i < l.length) :
    getAt l i = some (l[i.toNat]'(by omega)) := by
  rw [getAt, if_pos h0, List.getElem?_eq_getElem]

theorem getAt_set_self {l : List ℚ} {i : ℤ} {v : ℚ} (h0 : 0 ≤ i) (h1 : i < l.length) :
    getAt (l.set i.toNat v) i = some v := by
  rw [getAt, if_pos h0, List.getElem?_set_self (by omega)]

theorem getAt_set_ne {l : List ℚ} {i j : ℤ} {v : ℚ} (h0 : 0 ≤ i) (hne : i ≠ j) :
    getAt (l.set i.toNat v) j = getAt l j := by
  unfold getAt
  split_ifs with hj
  · rw [List.getElem?_set_ne (by omega)]
  · rfl

theorem puts (W : List (ℤ × ℚ)) : ∀ l : List ℚ, (∀ w ∈ W, 0 ≤ w.1 ∧ w.1 < l.length) →
    (∀ w ∈ W, ∀ w' ∈ W, w.1 = w'.1 → w.2 = w'.2) →
    ∃ r, W.foldlM (fun a w => putAt a w.1 w.2) l = some r ∧ (∀ w ∈ W, getAt r w.1 = some w.2) ∧
      ∀ i, (∀ w ∈ W, w.1 ≠ i) → getAt r i = getAt l i := by
  induction W with
  | nil => intro l _ _; exact ⟨l, rfl, by simp, by simp⟩
  | cons w W ih =>
    intro l hb hc
    have hw := hb w (by simp)
    obtain ⟨r, h1, h2, h3⟩ := ih (l.set w.1.toNat w.2)
      (fun v hv => by rw [List.length_set]; exact hb v (by simp [hv]))
      (fun v hv v' hv' => hc v (by simp [hv]) v' (by simp [hv']))
    refine ⟨r, ?_, ?_, ?_⟩
    · rw [List.foldlM_cons, show putAt l w.1 w.2 = some (l.set w.1.toNat w.2) from if_pos hw]
      exact h1
    · intro v hv
      rcases List.mem_cons.1 hv with rfl | hv
      · by_cases he : ∃ v' ∈ W, v'.1 = v.1
        · obtain ⟨v', hv', he⟩ := he
          rw [← he, h2 v' hv', hc v' (by simp [hv']) v (by simp) he]
        · push Not at he
          rw [h3 _ he, getAt_set_self hw.1 hw.2]
      · exact h2 v hv
    · intro i hi
      rw [h3 i fun v hv => hi v (by simp [hv]), getAt_set_ne hw.1 (hi w (by simp))]

end puts

/-- Widths and sample counts are positive. -/
structure Cfg.Ok (c : Cfg) : Prop where
  xw : 0 < c.xw
  yw : 0 < c.yw
  xs : 0 < c.xs
  ys : 0 < c.ys

variable {c : Cfg}

theorem xmax_nonneg (h : c.Ok) : 0 ≤ c.xmax := Int.floor_nonneg.2 (by have := h.xw; positivity)
theorem ymax_nonneg (h : c.Ok) : 0 ≤ c.ymax := Int.floor_nonneg.2 (by have := h.yw; positivity)

theorem two_floor_le (w : ℚ) : 2 * ⌊w / 2⌋ ≤ ⌈w⌉ := by
  have h1 : (⌊w / 2⌋ : ℚ) ≤ w / 2 := Int.floor_le _
  have h2 : w ≤ (⌈w⌉ : ℚ) := Int.le_ceil _
  have h3 : ((2 * ⌊w / 2⌋ : ℤ) : ℚ) ≤ ((⌈w⌉ : ℤ) : ℚ) := by push_cast; linarith
  exact_mod_cast h3

theorem index_range (h : c.Ok) {px py : ℤ} {s : Nat} (hx : px ∈ steps c.xmax) (hy : py ∈ steps c.ymax)
    (hs : s < c.sub) :
    0 ≤ base c px py + s ∧ base c px py + s < (⌈c.xw⌉ + 1) * (⌈c.yw⌉ + 1) * c.sub := by
  rw [mem_steps (xmax_nonneg h)] at hx
  rw [mem_steps (ymax_nonneg h)] at hy
  have h1 := digit_lt (m := 2 * c.xmax + 1) (n := 2 * c.ymax + 1) (a := py + c.ymax) (s := px + c.xmax)
    (by omega) (by omega) (by omega) (by omega)
  have h2 := digit_lt (m := (c.sub : ℤ)) (n := (2 * c.ymax + 1) * (2 * c.xmax + 1))
    (a := (py + c.ymax) * (2 * c.xmax + 1) + (px + c.xmax)) (s := s) h1.1 h1.2 (by omega) (by omega)
  have hb : base c px py = ((py + c.ymax) * (2 * c.xmax + 1) + (px + c.xmax)) * c.sub := by
    simp only [base]; ring
  rw [hb]
  refine ⟨h2.1, lt_of_lt_of_le h2.2 ?_⟩
  have hxx : 2 * c.xmax ≤ ⌈c.xw⌉ := two_floor_le _
  have hyy : 2 * c.ymax ≤ ⌈c.yw⌉ := two_floor_le _
  have hx0 := xmax_nonneg h
  have hy0 := ymax_nonneg h
  have : (2 * c.ymax + 1) * (2 * c.xmax + 1) ≤ (⌈c.xw⌉ + 1) * (⌈c.yw⌉ + 1) := by nlinarith
  exact mul_le_mul_of_nonneg_right this (by positivity)

theorem index_inj (h : c.Ok) {px py px' py' : ℤ} {s s' : Nat} (hx : px ∈ steps c.xmax)
    (hy : py ∈ steps c.ymax) (hx' : px' ∈ steps c.xmax) (hy' : py' ∈ steps c.ymax) (hs : s < c.sub)
    (hs' : s' < c.sub) (he : base c px py + s = base c px' py' + s') : px = px' ∧ py = py' ∧ s = s' := by
  rw [mem_steps (xmax_nonneg h)] at hx hx'
  rw [mem_steps (ymax_nonneg h)] at hy hy'
  have h1 := div_unique (m := (c.sub : ℤ)) (by omega) (by omega) (by omega) (by omega) he
  have h2 := div_unique (m := 2 * c.xmax + 1) (a := py + c.ymax) (s := px + c.xmax) (b := py' + c.ymax)
    (t := px' + c.xmax) (by omega) (by omega) (by omega) (by omega) (by linarith [h1.1])
  exact ⟨by omega, by omega, by omega⟩

theorem sub_lt {sx sy : Nat} (hx : sx < c.xs) (hy : sy < c.ys) : sy * c.xs + sx < c.sub := by
  have : (sy + 1) * c.xs ≤ c.ys * c.xs := Nat.mul_le_mul_right _ hy
  rw [Cfg.sub, Nat.mul_comm c.xs]
  rw [Nat.add_mul] at this
  omega

theorem mem_writes {w : ℤ × ℚ} : w ∈ writes c ↔ ∃ py ∈ steps c.ymax, ∃ px ∈ steps c.xmax, ∃ sy < c.ys,
    ∃ sx < c.xs, w = (base c px py + (sy * c.xs + sx : Nat), weightAt c px py sx sy) := by
  simp only [writes, List.mem_flatMap, List.mem_map, List.mem_range, eq_comm]

theorem initFilter_ok (h : c.Ok) : ∃ filt, initFilter c = some filt ∧ ∀ px ∈ steps c.xmax,
    ∀ py ∈ steps c.ymax, ∀ s < c.sub,
      getAt filt (base c px py + s) = some (weightAt c px py (s % c.xs) (s / c.xs)) := by
  obtain ⟨r, h1, h2, -⟩ := puts (writes c) (List.replicate ((⌈c.xw⌉ + 1) * (⌈c.yw⌉ + 1) * c.sub).toNat 0)
    (by
      intro w hw
      obtain ⟨py, hy, px, hx, sy, hsy, sx, hsx, rfl⟩ := mem_writes.1 hw
      have := index_range h hx hy (sub_lt hsx hsy)
      rw [List.length_replicate]
      exact ⟨this.1, by rw [Int.toNat_of_nonneg (by linarith)]; exact this.2⟩)
    (by
      intro w hw w' hw' he
      obtain ⟨py, hy, px, hx, sy, hsy, sx, hsx, rfl⟩ := mem_writes.1 hw
      obtain ⟨py', hy', px', hx', sy', hsy', sx', hsx', rfl⟩ := mem_writes.1 hw'
      obtain ⟨rfl, rfl, h3⟩ := index_inj h hx hy hx' hy' (sub_lt hsx hsy) (sub_lt hsx' hsy') he
      have := div_unique (m := (c.xs : ℤ)) (a := sy) (s := sx) (b := sy') (t := sx') (by omega) (by omega)
        (by omega) (by omega) (by exact_mod_cast h3)
      obtain ⟨h4, h5⟩ := this
      have h4 : sy = sy' := by exact_mod_cast h4
      have h5 : sx = sx' := by exact_mod_cast h5
      rw [h4, h5])
  refine ⟨r, h1, ?_⟩
  intro px hx py hy s hs
  have hm : s % c.xs < c.xs := Nat.mod_lt _ h.xs
  have hd : s / c.xs < c.ys := by
    rw [Nat.div_lt_iff_lt_mul h.xs, Nat.mul_comm]; exact hs
  have := h2 (base c px py + (s / c.xs * c.xs + s % c.xs : Nat), weightAt c px py (s % c.xs) (s / c.xs))
    (mem_writes.2 ⟨py, hy, px, hx, _, hd, _, hm, rfl⟩)
  rwa [Nat.div_add_mod'] at this

/-! ### The loops over a pixel's filter area -/

theorem foldlM_some {α β : Type _} {f : α → β → Option α} {g : α → β → α} (L : List β)
    (h : ∀ a, ∀ x ∈ L, f a x = some (g a x)) : ∀ a, L.foldlM f a = some (L.foldl g a) := by
  induction L with
  | nil => intro a; rfl
  | cons x L ih =>
    intro a
    rw [List.foldlM_cons, h a x (by simp)]
    exact ih (fun a y hy => h a y (by simp [hy])) _

/-- Every place within reach of the display region holds the pixel of the plane `S` that belongs there. -/
structure Holds (c : Cfg) (b : Bucket) (S : ℤ → ℤ → Pixel) : Prop where
  wle : b.w ≤ c.bw
  hle : b.h ≤ c.bh
  size : (b.image.length : ℤ) = (c.bw + 2 * c.xmax) * (c.bh + 2 * c.ymax)
  place : ∀ px py, b.xMin - c.xmax ≤ px → px < b.xMin + b.w + c.xmax → b.yMin - c.ymax ≤ py →
    py < b.yMin + b.h + c.ymax →
    getAt b.image ((py - (b.yMin - c.ymax)) * (c.bw + 2 * c.xmax) + (px - (b.xMin - c.xmax))) = some (S px py)

/-- One sample, by the distance of its pixel and its index. -/
abbrev Id := ℤ × ℤ × Nat

def wt (c : Cfg) (i : Id) : ℚ := weightAt c i.1 i.2.1 (i.2.2 % c.xs) (i.2.2 / c.xs)

def samp (S : ℤ → ℤ → Pixel) (x y : ℤ) (i : Id) : Samp := S (x + i.1) (y + i.2.1) i.2.2

def ids (c : Cfg) : List Id :=
  (steps c.ymax).flatMap fun fy => (steps c.xmax).flatMap fun fx => (List.range c.sub).map fun s => (fx, fy, s)

def look (c : Cfg) (S : ℤ → ℤ → Pixel) (x y : ℤ) (a : Acc) (i : Id) : Acc :=
  if within c x y (samp S x y i) then
    match (samp S x y i).hit with
    | some d => ⟨a.g + wt c i, fun k => a.sum k + d k * wt c i, a.count + 1⟩
    | none => { a with g := a.g + wt c i }
  else a

theorem gather_eq (h : c.Ok) {b : Bucket} {S : ℤ → ℤ → Pixel} (hb : Holds c b S) {filt : List ℚ}
    (hf : initFilter c = some filt) {i j : Nat} (hi : i < b.w) (hj : j < b.h) :
    gather c filt b (b.xMin + i) (b.yMin + j) =
      some ((ids c).foldl (look c S (b.xMin + i) (b.yMin + j)) ⟨0, fun _ => 0, 0⟩) := by
  have hx0 := xmax_nonneg h
  have hy0 := ymax_nonneg h
  obtain ⟨filt', hf', hfv⟩ := initFilter_ok h
  rw [hf] at hf'
  cases hf'
  have hel : element c b (b.xMin + i - c.xmax) (b.yMin + j - c.ymax) = some (j * xlen c + i) := by
    have e : (b.yMin + j - c.ymax - b.yMin + c.ymax) * xlen c + (b.xMin + i - c.xmax - b.xMin) + c.xmax =
        (j : ℤ) * xlen c + i := by ring
    unfold element
    simp only [e]
    refine if_pos ⟨?_, ?_⟩
    · have := digit_lt (m := xlen c) (n := c.bh + 2 * c.ymax) (a := j) (s := i) (by omega)
        (by have := hb.hle; omega) (by omega) (by have := hb.wle; simp only [xlen]; omega)
      rw [hb.size]
      have h2 := this.2
      simp only [xlen] at h2 ⊢
      linarith
    · have : 0 ≤ xlen c := by simp only [xlen]; omega
      positivity
  rw [gather, hel]
  simp only [Option.bind_eq_bind, Option.bind_some]
  rw [ids, List.foldl_flatMap]
  refine foldlM_some _ ?_ _
  intro a fy hfy
  rw [List.foldl_flatMap]
  refine foldlM_some _ ?_ _
  intro a fx hfx
  have hfx' := (mem_steps hx0).1 hfx
  have hfy' := (mem_steps hy0).1 hfy
  have hpl := hb.place (b.xMin + i + fx) (b.yMin + j + fy) (by omega) (by omega) (by omega) (by omega)
  have e : (j : ℤ) * xlen c + i + (fy + c.ymax) * xlen c + (fx + c.xmax) =
      (b.yMin + j + fy - (b.yMin - c.ymax)) * (c.bw + 2 * c.xmax) + (b.xMin + i + fx - (b.xMin - c.xmax)) := by
    simp only [xlen]; ring
  rw [e, hpl, Option.bind_some, List.foldl_map]
  refine foldlM_some _ ?_ _
  intro a s hs
  have hs := List.mem_range.1 hs
  by_cases hw : within c (b.xMin + i) (b.yMin + j) (S (b.xMin + i + fx) (b.yMin + j + fy) s)
  · have hw' : within c (b.xMin + i) (b.yMin + j) (samp S (b.xMin + i) (b.yMin + j) (fx, fy, s)) := hw
    rw [visit, look, if_pos hw, if_pos hw', hfv fx hfx fy hfy s hs]
    rfl
  · have hw' : ¬ within c (b.xMin + i) (b.yMin + j) (samp S (b.xMin + i) (b.yMin + j) (fx, fy, s)) := hw
    rw [visit, look, if_neg hw, if_neg hw']

/-- What a sample contributes to number `k`. -/
def val (S : ℤ → ℤ → Pixel) (x y : ℤ) (k : Nat) (i : Id) : ℚ :=
  match (samp S x y i).hit with
  | some d => d k
  | none => 0

theorem foldl_look (S : ℤ → ℤ → Pixel) (x y : ℤ) (L : List Id) : ∀ a : Acc,
    L.foldl (look c S x y) a =
      ⟨a.g + ((L.filter fun i => decide (within c x y (samp S x y i))).map (wt c)).sum,
       fun k => a.sum k + ((L.filter fun i => decide (within c x y (samp S x y i))).map fun i =>
          val S x y k i * wt c i).sum,
       a.count + ((L.filter fun i => decide (within c x y (samp S x y i))).countP fun i =>
          (samp S x y i).hit.isSome)⟩ := by
  induction L with
  | nil => intro a; simp
  | cons i L ih =>
    intro a
    rw [List.foldl_cons, ih]
    by_cases hw : within c x y (samp S x y i)
    · rw [List.filter_cons_of_pos (by simpa using hw)]
      simp only [List.map_cons, List.sum_cons, List.countP_cons]
      cases hh : (samp S x y i).hit with
      | none =>
        have h1 : look c S x y a i = { a with g := a.g + wt c i } := by
          rw [look, if_pos hw, hh]
        rw [h1]
        simp only [val, hh, Option.isSome_none, Acc.mk.injEq]
        refine ⟨by ring, ?_, by simp⟩
        funext k
        ring
      | some d =>
        have h1 : look c S x y a i = ⟨a.g + wt c i, fun k => a.sum k + d k * wt c i, a.count + 1⟩ := by
          rw [look, if_pos hw, hh]
        rw [h1]
        simp only [Option.isSome_some, Acc.mk.injEq]
        refine ⟨by ring, ?_, by simp; omega⟩
        funext k
        have : val S x y k i = d k := by simp only [val, hh]
        rw [this]
        ring
    · rw [List.filter_cons_of_neg (by simpa using hw), look, if_neg hw]

theorem nodup_ids (c : Cfg) : (ids c).Nodup := by
  rw [ids, List.nodup_flatMap]
  refine ⟨?_, ?_⟩
  · intro fy _
    rw [List.nodup_flatMap]
    refine ⟨?_, ?_⟩
    · intro fx _
      refine List.Nodup.map ?_ List.nodup_range
      intro a b hab
      simpa using hab
    · refine (nodup_steps _).imp ?_
      intro a b hab i hi hi'
      simp only [List.mem_map] at hi hi'
      obtain ⟨s, _, rfl⟩ := hi
      obtain ⟨s', _, h'⟩ := hi'
      simp only [Prod.mk.injEq] at h'
      exact hab h'.1.symm
  · refine (nodup_steps _).imp ?_
    intro a b hab i hi hi'
    simp only [List.mem_flatMap, List.mem_map] at hi hi'
    obtain ⟨fx, _, s, _, rfl⟩ := hi
    obtain ⟨fx', _, s', _, h'⟩ := hi'
    simp only [Prod.mk.injEq] at h'
    exact hab h'.2.1.symm

theorem mem_ids {i : Id} : i ∈ ids c ↔ i.1 ∈ steps c.xmax ∧ i.2.1 ∈ steps c.ymax ∧ i.2.2 < c.sub := by
  obtain ⟨fx, fy, s⟩ := i
  simp only [ids, List.mem_flatMap, List.mem_map, List.mem_range, Prod.mk.injEq]
  constructor
  · rintro ⟨a, ha, b, hb, t, ht, rfl, rfl, rfl⟩; exact ⟨hb, ha, ht⟩
  · rintro ⟨h1, h2, h3⟩; exact ⟨fy, h2, fx, h1, s, h3, rfl, rfl, rfl⟩

end Verif.Core.FilterBucket
