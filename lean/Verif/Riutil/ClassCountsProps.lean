import Verif.Riutil.ClassCounts
import Mathlib.Tactic.Ring
import Mathlib.Tactic.Linarith
import Mathlib.Algebra.Order.BigOperators.Group.List
import Mathlib.Data.List.Forall2
/-
C37: the class sizes demanded for patch meshes and curves are the numbers of
patches or segments, corners and control points.
-/
namespace Verif.Riutil.Counts

/-- `n` is the number of indices satisfying `P`, which are exactly `0 … n-1`. -/
def IsCount (n : Int) (P : Nat → Prop) : Prop := 0 ≤ n ∧ ∀ k : Nat, (k : Int) < n ↔ P k

theorem IsCount.unique {n m : Int} {P : Nat → Prop} (h : IsCount n P) (h' : IsCount m P) :
    n = m := by
  obtain ⟨hn, h⟩ := h
  obtain ⟨hm, h'⟩ := h'
  rcases Int.lt_trichotomy n m with hlt | heq | hgt
  · have := (h n.toNat).2 ((h' n.toNat).1 (by omega)); omega
  · exact heq
  · have := (h' m.toNat).2 ((h m.toNat).1 (by omega)); omega

/-- Patch (or segment) number `k` along a direction with `n` control points and
basis step `s` exists. Not periodic: its four control points `k*s … k*s+3` exist.
Periodic: the step it advances by is still within the period. -/
def CubicPatch (periodic : Bool) (n s : Int) (k : Nat) : Prop :=
  if periodic then (k + 1) * s ≤ n else k * s + 3 < n

/-- Quadrilateral `k` along a direction of a bilinear mesh exists: both its grid
lines do, the line after the last being the first when periodic. -/
def LinearPatch (periodic : Bool) (n : Int) (k : Nat) : Prop :=
  if periodic then (k : Int) < n else (k : Int) + 1 < n

/-- Number of patch boundaries in a direction with `a` patches. -/
def corners (periodic : Bool) (a : Int) : Int := if periodic then a else a + 1

theorem chk_eq {x : Int} (h1 : -2147483648 ≤ x) (h2 : x ≤ 2147483647) : chk x = some x :=
  if_pos ⟨h1, h2⟩

theorem cdiv_eq {a b : Int} (hb : 0 < b) (h0 : 0 ≤ a) (h2 : a ≤ 2147483647) :
    cdiv a b = some (a / b) := by
  unfold cdiv
  rw [if_neg (by omega), Int.tdiv_eq_ediv_of_nonneg h0]
  have h1 : 0 ≤ a / b := Int.ediv_nonneg h0 (by omega)
  have h3 : a / b ≤ a := Int.ediv_le_self b h0
  exact chk_eq (by omega) (by omega)

theorem cubicPatches_spec {per : Bool} {n s : Int} (hs : 0 < s)
    (hn : if per then 0 ≤ n else 4 ≤ n) (hmax : n ≤ 2147483647) :
    ∃ a, cubicPatches per n s = some a ∧ IsCount a (CubicPatch per n s) ∧ corners per a ≤ n := by
  cases per
  · simp only [Bool.false_eq_true, if_false] at hn
    have hd0 : 0 ≤ (n - 4) / s := Int.ediv_nonneg (by omega) (by omega)
    have hd1 : (n - 4) / s ≤ n - 4 := Int.ediv_le_self s (by omega)
    refine ⟨(n - 4) / s + 1, ?_, ⟨by omega, fun k => ?_⟩, ?_⟩
    · simp only [cubicPatches, Bool.false_eq_true, if_false]
      rw [chk_eq (by omega) (by omega)]
      simp only [Option.bind_eq_bind, Option.bind_some]
      rw [cdiv_eq hs (by omega) (by omega)]
      exact chk_eq (by omega) (by omega)
    · simp only [CubicPatch, Bool.false_eq_true, if_false]
      have := Int.le_ediv_iff_mul_le (a := (k : Int)) (b := n - 4) hs
      omega
    · simp only [corners, Bool.false_eq_true, if_false]; omega
  · simp only [if_true] at hn
    have hd0 : 0 ≤ n / s := Int.ediv_nonneg (by omega) (by omega)
    refine ⟨n / s, ?_, ⟨hd0, fun k => ?_⟩, ?_⟩
    · simp only [cubicPatches, if_true]
      exact cdiv_eq hs hn hmax
    · simp only [CubicPatch, if_true]
      have := Int.le_ediv_iff_mul_le (a := ((k : Int) + 1)) (b := n) hs
      omega
    · simp only [corners, if_true]; exact Int.ediv_le_self s hn

theorem linear_spec {per : Bool} {n : Int} (hn : 1 ≤ n) (hmax : n ≤ 2147483647) :
    ∃ a, linearPatches per n = some a ∧ IsCount a (LinearPatch per n) ∧ a ≤ n := by
  cases per
  · refine ⟨n - 1, ?_, ⟨by omega, fun k => ?_⟩, by omega⟩
    · exact chk_eq (by omega) (by omega)
    · simp only [LinearPatch, Bool.false_eq_true, if_false]; omega
  · refine ⟨n, rfl, ⟨by omega, fun k => ?_⟩, by omega⟩
    simp only [LinearPatch, if_true]

theorem le_of_mul_le {a b m : Int} (ha : 1 ≤ a) (hb : 1 ≤ b) (h : a * b ≤ m) : a ≤ m ∧ b ≤ m := by
  constructor
  · have : a * 1 ≤ a * b := Int.mul_le_mul_of_nonneg_left hb (by omega)
    omega
  · have : 1 * b ≤ a * b := Int.mul_le_mul_of_nonneg_right ha (by omega)
    omega

theorem mul_bound {a b x y : Int} (ha : 0 ≤ a) (hb : 0 ≤ b) (hax : a ≤ x) (hby : b ≤ y) :
    0 ≤ a * b ∧ a * b ≤ x * y :=
  ⟨Int.mul_nonneg ha hb, Int.mul_le_mul hax hby hb (by omega)⟩

/-- **C37**, bilinear meshes: one uniform value per quadrilateral, one varying and
one vertex value per grid point. The hypothesis on the product only excludes
meshes whose point count does not fit an `int`. -/
theorem C37_bilinear (nu nv us vs : Int) (up vp known : Bool) (hu : 1 ≤ nu) (hv : 1 ≤ nv)
    (hmax : nu * nv ≤ 2147483647) :
    ∃ c a b, patchMesh true nu up nv vp us vs known = some c ∧
      IsCount a (LinearPatch up nu) ∧ IsCount b (LinearPatch vp nv) ∧
      c.uniform = a * b ∧ c.varying = nu * nv ∧ c.vertex = nu * nv ∧
      c.facevarying = 1 ∧ c.facevertex = 1 := by
  obtain ⟨hun, hvn⟩ := le_of_mul_le hu hv hmax
  obtain ⟨a, ea, ca, la⟩ := linear_spec (per := up) hu hun
  obtain ⟨b, eb, cb, lb⟩ := linear_spec (per := vp) hv hvn
  have hm := mul_bound ca.1 cb.1 la lb
  have hn : 0 ≤ nu * nv := Int.mul_nonneg (by omega) (by omega)
  refine ⟨⟨a * b, nu * nv, nu * nv, 1, 1⟩, a, b, ?_, ca, cb, rfl, rfl, rfl, rfl, rfl⟩
  simp only [patchMesh, if_true, ea, eb, Option.bind_eq_bind, Option.bind_some,
    chk_eq (x := a * b) (by omega) (by omega), chk_eq (x := nu * nv) (by omega) (by omega)]

example : patchMesh true 3 false 4 true 3 3 true = some ⟨8, 12, 12, 1, 1⟩ := by decide

/-- **C37**, bicubic meshes with at least four control points in every direction
that is not periodic: one uniform value per patch, one varying value per patch
corner, one vertex value per control point. Missing: meshes with fewer than four
points in a non-periodic direction (the counts are wrong, see below). -/
theorem C37_bicubic_partial (nu nv us vs : Int) (up vp : Bool) (hus : 0 < us) (hvs : 0 < vs)
    (hu : if up then 1 ≤ nu else 4 ≤ nu) (hv : if vp then 1 ≤ nv else 4 ≤ nv)
    (hmax : nu * nv ≤ 2147483647) :
    ∃ c a b, patchMesh false nu up nv vp us vs true = some c ∧
      IsCount a (CubicPatch up nu us) ∧ IsCount b (CubicPatch vp nv vs) ∧
      c.uniform = a * b ∧ c.varying = corners up a * corners vp b ∧ c.vertex = nu * nv ∧
      c.facevarying = 1 ∧ c.facevertex = 1 := by
  have hu1 : 1 ≤ nu := by cases up <;> simp at hu <;> omega
  have hv1 : 1 ≤ nv := by cases vp <;> simp at hv <;> omega
  obtain ⟨hun, hvn⟩ := le_of_mul_le hu1 hv1 hmax
  obtain ⟨a, ea, ca, la⟩ := cubicPatches_spec (per := up) hus
    (by cases up <;> simp at hu ⊢ <;> omega) hun
  obtain ⟨b, eb, cb, lb⟩ := cubicPatches_spec (per := vp) hvs
    (by cases vp <;> simp at hv ⊢ <;> omega) hvn
  have hca : (if up = true then (0 : Int) else 1) + a = corners up a := by
    cases up <;> simp [corners, Int.add_comm]
  have hcb : (if vp = true then (0 : Int) else 1) + b = corners vp b := by
    cases vp <;> simp [corners, Int.add_comm]
  have ga : 0 ≤ corners up a ∧ a ≤ corners up a := by
    have := ca.1; unfold corners; split <;> omega
  have gb : 0 ≤ corners vp b ∧ b ≤ corners vp b := by
    have := cb.1; unfold corners; split <;> omega
  have hm := mul_bound ca.1 cb.1 (by omega : a ≤ nu) (by omega : b ≤ nv)
  have hm' := mul_bound ga.1 gb.1 la lb
  have hn : 0 ≤ nu * nv := Int.mul_nonneg (by omega) (by omega)
  refine ⟨⟨a * b, corners up a * corners vp b, nu * nv, 1, 1⟩, a, b, ?_, ca, cb,
    rfl, rfl, rfl, rfl, rfl⟩
  simp only [patchMesh, Bool.false_eq_true, if_false, if_true, ea, eb, Option.bind_eq_bind,
    Option.bind_some, hca, hcb,
    chk_eq (x := a * b) (by omega) (by omega), chk_eq (x := nu * nv) (by omega) (by omega),
    chk_eq (x := corners up a) (by omega) (by omega),
    chk_eq (x := corners vp b) (by omega) (by omega),
    chk_eq (x := corners up a * corners vp b) (by omega) (by omega)]

example : patchMesh false 7 false 6 true 3 1 true = some ⟨12, 18, 42, 1, 1⟩ := by decide

/-- **C37** fails for a bicubic mesh with 2 by 4 control points and basis step 3,
which passes the validator's checks `nu > 0`, `nv > 0`: it has no patch (a patch
needs four points) but one is counted. -/
theorem C37_bicubic_violated :
    ∃ c, patchMesh false 2 false 4 false 3 3 true = some c ∧ c.uniform = 1 ∧
      IsCount 0 (CubicPatch false 2 3) := by
  refine ⟨⟨1, 4, 8, 1, 1⟩, by decide, rfl, by omega, fun k => ?_⟩
  simp only [CubicPatch, Bool.false_eq_true, if_false]; omega

/-- With basis step 1 (B-splines) the count is even negative: 1 by 4 points give
-2 patches and a varying size of -2. -/
theorem C37_negative_violated :
    ∃ c, patchMesh false 1 false 4 false 1 1 true = some c ∧ c.uniform = -2 ∧ c.varying = -2 :=
  ⟨⟨-2, -2, 4, 1, 1⟩, by decide, rfl, rfl⟩

/-- Mesh sizes accepted by the validator can overflow `int` (undefined). -/
theorem C37_overflow_violated :
    patchMesh true 65536 false 65536 false 3 3 true = none := by decide

/-- The basis being unknown, bicubic meshes get "unknown" (-1) for the two sizes
that depend on it. -/
theorem C37_unknown (nu nv us vs : Int) (up vp : Bool) (h0 : 0 ≤ nu * nv)
    (hmax : nu * nv ≤ 2147483647) :
    patchMesh false nu up nv vp us vs false = some ⟨-1, -1, nu * nv, 1, 1⟩ := by
  simp only [patchMesh, Bool.false_eq_true, if_false, Option.bind_eq_bind,
    Option.bind_some, chk_eq (x := nu * nv) (by omega) (by omega)]

/-! Curves -/

theorem sumFrom_eq (l : List Int) : ∀ s : Int, 0 ≤ s → (∀ n ∈ l, 0 ≤ n) →
    s + l.sum ≤ 2147483647 → sumFrom s l = some (s + l.sum) := by
  induction l with
  | nil => intro s _ _ _; simp [sumFrom]
  | cons a l ih =>
    intro s hs hl hm
    have ha : 0 ≤ a := hl a (by simp)
    have hl' : ∀ n ∈ l, 0 ≤ n := fun n hn => hl n (by simp [hn])
    have hsum : 0 ≤ l.sum := List.sum_nonneg hl'
    rw [List.sum_cons] at hm ⊢
    rw [sumFrom, chk_eq (by omega) (by omega), Option.bind_some,
      ih (s + a) (by omega) hl' (by omega)]
    congr 1; ring

theorem segFrom_eq (per : Bool) (st : Int) (hst : 0 < st) (l : List Int) :
    ∀ s : Int, 0 ≤ s → (∀ n ∈ l, if per then 0 ≤ n else 4 ≤ n) →
    s + l.sum ≤ 2147483647 →
    ∃ segs : List Int, List.Forall₂ (fun n a => IsCount a (CubicPatch per n st)) l segs ∧
      segFrom per st s l = some (s + segs.sum) ∧
      segs.sum + (if per then 0 else (l.length : Int)) ≤ l.sum ∧ 0 ≤ segs.sum := by
  induction l with
  | nil => intro s _ _ _; exact ⟨[], .nil, by simp [segFrom], by simp, by simp⟩
  | cons n l ih =>
    intro s hs hl hm
    have hn := hl n (by simp)
    have hl' : ∀ m ∈ l, if per then 0 ≤ m else 4 ≤ m := fun m hm => hl m (by simp [hm])
    have hn0 : 0 ≤ n := by cases per <;> simp at hn <;> omega
    have hl0 : ∀ m ∈ l, 0 ≤ m := by
      intro m hm; have := hl' m hm; cases per <;> simp at this <;> omega
    have hsum : 0 ≤ l.sum := List.sum_nonneg hl0
    rw [List.sum_cons] at hm
    obtain ⟨a, ea, ca, la⟩ := cubicPatches_spec (per := per) hst hn (by omega)
    have ha0 := ca.1
    have hla : a ≤ n := by unfold corners at la; split at la <;> omega
    obtain ⟨segs, hf, he, hb, h0⟩ := ih (s + a) (by omega) hl' (by omega)
    refine ⟨a :: segs, .cons ca hf, ?_, ?_, ?_⟩
    · rw [segFrom, ea, Option.bind_some, chk_eq (by omega) (by omega), Option.bind_some, he,
        List.sum_cons]
      congr 1; ring
    · rw [List.sum_cons, List.sum_cons, List.length_cons]
      cases per
      · simp only [corners, Bool.false_eq_true, if_false] at la hb ⊢
        push_cast; omega
      · simp only [corners, if_true] at la hb ⊢; omega
    · rw [List.sum_cons]; omega

/-- **C37**, cubic curves with at least four control points per open curve: one
uniform value per curve, one varying value per segment end, one vertex value per
control point. Missing: open curves with fewer than four points. -/
theorem C37_cubic_partial (nverts : List Int) (per : Bool) (st : Int) (hst : 0 < st)
    (hn : ∀ n ∈ nverts, if per then 0 ≤ n else 4 ≤ n) (hlen : nverts.length ≤ 2147483647)
    (hmax : nverts.sum ≤ 2147483647) :
    ∃ c, ∃ segs : List Int, curves true nverts per st true = some c ∧
      List.Forall₂ (fun n a => IsCount a (CubicPatch per n st)) nverts segs ∧
      c.uniform = nverts.length ∧
      c.varying = (segs.map (corners per)).sum ∧
      c.vertex = nverts.sum ∧ c.facevarying = 1 ∧ c.facevertex = 1 := by
  have hn0 : ∀ m ∈ nverts, 0 ≤ m := by
    intro m hm; have := hn m hm; cases per <;> simp at this <;> omega
  have hs := sumFrom_eq nverts 0 (by omega) hn0 (by omega)
  obtain ⟨segs, hf, he, hb, h0⟩ := segFrom_eq per st hst nverts 0 (by omega) hn (by omega)
  rw [Int.zero_add] at hs he
  have hlen' := hf.length_eq
  have hlen2 : chk (nverts.length : Int) = some (nverts.length : Int) := chk_eq (by omega) (by omega)
  have hc : (segs.map (corners per)).sum = segs.sum + (if per then 0 else (nverts.length : Int)) := by
    rw [hlen']
    clear hf he hb h0 hlen'
    induction segs with
    | nil => simp
    | cons a l ih =>
      rw [List.map_cons, List.sum_cons, ih, List.sum_cons, List.length_cons]
      cases per
      · simp only [corners, Bool.false_eq_true, if_false]; push_cast; ring
      · simp [corners]
  refine ⟨⟨nverts.length, (segs.map (corners per)).sum, nverts.sum, 1, 1⟩, segs, ?_, hf,
    rfl, rfl, rfl, rfl, rfl⟩
  cases per
  · simp only [Bool.false_eq_true, if_false] at hc hb
    simp only [curves, if_true, Bool.false_eq_true, if_false, Option.bind_eq_bind, hlen2, hs, he,
      Option.bind_some, hc, chk_eq (x := segs.sum + (nverts.length : Int)) (by omega) (by omega)]
  · simp only [if_true, Int.add_zero] at hc hb
    simp only [curves, if_true, Option.bind_eq_bind, hlen2, hs, he, Option.bind_some, hc]

example : curves true [4, 7, 10] false 3 true = some ⟨3, 9, 21, 1, 1⟩ := by decide
example : curves true [6, 9] true 3 true = some ⟨2, 5, 15, 1, 1⟩ := by decide

/-- **C37**, linear curves: one uniform value per curve and one varying and one
vertex value per point. -/
theorem C37_linear (nverts : List Int) (per known : Bool) (st : Int)
    (hn : ∀ n ∈ nverts, 0 ≤ n) (hlen : nverts.length ≤ 2147483647)
    (hmax : nverts.sum ≤ 2147483647) :
    curves false nverts per st known =
      some ⟨nverts.length, nverts.sum, nverts.sum, 1, 1⟩ := by
  have hs := sumFrom_eq nverts 0 (by omega) hn (by omega)
  rw [Int.zero_add] at hs
  have hlen2 : chk (nverts.length : Int) = some (nverts.length : Int) := chk_eq (by omega) (by omega)
  simp only [curves, Bool.false_eq_true, if_false, Option.bind_eq_bind, hlen2, hs, Option.bind_some]

example : curves false [2, 3] false 3 true = some ⟨2, 5, 5, 1, 1⟩ := by decide

/-- The basis being unknown, cubic curves get "unknown" (-1) for the varying size. -/
theorem C37_unknown_curves (nverts : List Int) (per : Bool) (st : Int)
    (hn : ∀ n ∈ nverts, 0 ≤ n) (hlen : nverts.length ≤ 2147483647)
    (hmax : nverts.sum ≤ 2147483647) :
    curves true nverts per st false = some ⟨nverts.length, -1, nverts.sum, 1, 1⟩ := by
  have hs := sumFrom_eq nverts 0 (by omega) hn (by omega)
  rw [Int.zero_add] at hs
  have hlen2 : chk (nverts.length : Int) = some (nverts.length : Int) := chk_eq (by omega) (by omega)
  simp only [curves, Bool.false_eq_true, if_false, if_true, Option.bind_eq_bind, hlen2, hs, Option.bind_some]

example : curves true [7, 4] false 3 false = some ⟨2, -1, 11, 1, 1⟩ := by decide

/-- **C37** fails for an open cubic curve of two points with basis step 1: it has
no segment, but -1 segments are counted and no varying value is asked for. -/
theorem C37_cubic_violated :
    ∃ c, curves true [2] false 1 true = some c ∧ c.varying = 0 ∧
      ∀ a, IsCount a (CubicPatch false 2 1) → (([a].map (corners false)).sum = 1) := by
  refine ⟨⟨1, 0, 2, 1, 1⟩, by decide, rfl, fun a ha => ?_⟩
  have h0 : IsCount 0 (CubicPatch false 2 1) := by
    refine ⟨by omega, fun k => ?_⟩
    simp only [CubicPatch, Bool.false_eq_true, if_false]; omega
  rw [ha.unique h0]; rfl

end Verif.Riutil.Counts
