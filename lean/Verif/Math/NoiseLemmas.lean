import Verif.Math.Noise
import Mathlib.Algebra.BigOperators.Group.Finset.Basic
import Mathlib.Algebra.BigOperators.Ring.Finset
import Mathlib.Algebra.Order.Field.Basic
import Mathlib.Tactic.Linarith
import Mathlib.Tactic.Ring
import Mathlib.Tactic.NormNum
import Mathlib.Tactic.Positivity
import Mathlib.Tactic.FieldSimp
import Mathlib.Tactic.SplitIfs

/-!
Specification and lemmas for C90.
-/

namespace Verif.Math.Noise

namespace Spec

variable {K : Type} [Field K] [LinearOrder K]

/-- A bump of radius 1: 1 at 0, and 0 from the next lattice point on. -/
def bump (t : K) : K :=
  if |t| < 1 then 1 - 10 * |t| ^ 3 + 15 * |t| ^ 4 - 6 * |t| ^ 5 else 0

/-- The index of a lattice point, 256 of them before they repeat. -/
def wrap (i : ℤ) : Nat := (i % 256).toNat

/-- The index of a lattice point that repeats after `p` of them, with the remainder of C. -/
def pwrap (p i : ℤ) : Nat := ((i.tmod (max 1 p)) % 256).toNat

/-- A sum over lattice points. -/
def sum1 (w : ℤ → Nat) (g : Nat → K → K) (S : Finset ℤ) (x : K) : K :=
  ∑ i ∈ S, bump (x - i) * g (w i) (x - i)

/-- All lattice points that are less than 1 away. -/
def Near (x : K) (S : Finset ℤ) : Prop := ∀ i : ℤ, |x - i| < 1 → i ∈ S

/-- The directions of the gradients in three dimensions: to the middles of the edges of a cube. -/
def edges3 : List (ℤ × ℤ × ℤ) :=
  [(1, 1, 0), (-1, 1, 0), (1, -1, 0), (-1, -1, 0), (1, 0, 1), (-1, 0, 1), (1, 0, -1), (-1, 0, -1),
   (0, 1, 1), (0, -1, 1), (0, 1, -1), (0, -1, -1)]

/-- The directions in two dimensions: the moves of a knight. -/
def knight : List (ℤ × ℤ) :=
  [(1, 2), (-1, 2), (1, -2), (-1, -2), (2, 1), (-2, 1), (2, -1), (-2, -1)]

/-- The directions in four dimensions: one coordinate is 0, the others are 1 or -1. -/
def edges4 : List (ℤ × ℤ × ℤ × ℤ) :=
  [1, -1].flatMap fun a => [1, -1].flatMap fun b => [1, -1].flatMap fun c =>
    [(0, a, b, c), (a, 0, b, c), (a, b, 0, c), (a, b, c, 0)]

end Spec

open Spec

set_option linter.unusedSectionVars false

/-- The interpolation along one axis. -/
def interp {K : Type} [Field K] (a : Axis K) (φ : Nat → K → K) : K :=
  nlerp a.s (φ a.i0 a.f0) (φ a.i1 a.f1)

section

variable {K : Type} [Field K] [LinearOrder K] [FloorRing K]

/-- An axis with any way to wrap indices. -/
def axisW (w : ℤ → Nat) (x : K) : Axis K :=
  ⟨w (fastFloor x), w (fastFloor x + 1), x - fastFloor x, x - fastFloor x - 1, fade (x - fastFloor x)⟩

theorem axis_eq (x : K) : axis x = axisW wrap x := rfl

theorem paxis_eq (x : K) (p : ℤ) : paxis x p = axisW (pwrap p) x := by
  have h : (if p < 1 then 1 else p) = max 1 p := by split_ifs <;> omega
  unfold paxis axisW pwrap
  simp only [h]

theorem body1_interp (a : Axis K) :
    body1 a = 188 / 1000 * interp a (fun i x => grad1 (perm i) x) := rfl

theorem body2_interp (a b : Axis K) :
    body2 a b = 507 / 1000 * interp a (fun i x => interp b (fun j y => grad2 (perm (i + perm j)) x y)) := rfl

theorem body3_interp (a b c : Axis K) :
    body3 a b c = 936 / 1000 * interp a (fun i x => interp b (fun j y => interp c (fun k z =>
      grad3 (perm (i + perm (j + perm k))) x y z))) := rfl

theorem body4_interp (a b c d : Axis K) :
    body4 a b c d = 87 / 100 * interp a (fun i x => interp b (fun j y => interp c (fun k z =>
      interp d (fun l w => grad4 (perm (i + perm (j + perm (k + perm l)))) x y z w)))) := rfl

variable [IsStrictOrderedRing K]

theorem fastFloor_cases (x : K) :
    fastFloor x = ⌊x⌋ ∨ (fastFloor x = ⌊x⌋ - 1 ∧ (⌊x⌋ : K) = x) := by
  unfold fastFloor trunc
  by_cases h : x > 0
  · left; rw [if_pos h, if_pos h]
  · rw [if_neg h, if_neg h]
    by_cases hi : (⌊x⌋ : K) = x
    · right
      refine ⟨?_, hi⟩
      have : ⌊-x⌋ = -⌊x⌋ := by
        rw [← hi, Int.floor_intCast, ← Int.cast_neg, Int.floor_intCast]
      omega
    · left
      have h1 := Int.floor_le x
      have h2 := Int.lt_floor_add_one x
      have h3 : (⌊x⌋ : K) < x := lt_of_le_of_ne h1 hi
      have : ⌊-x⌋ = -⌊x⌋ - 1 := by
        rw [Int.floor_eq_iff]
        push_cast
        constructor <;> linarith
      omega

/-- The value does not depend on the way integers are rounded. -/
theorem interp_floor (w : ℤ → Nat) (x : K) (φ : Nat → K → K) :
    interp (axisW w x) φ =
      nlerp (fade (x - ⌊x⌋)) (φ (w ⌊x⌋) (x - ⌊x⌋)) (φ (w (⌊x⌋ + 1)) (x - ⌊x⌋ - 1)) := by
  rcases fastFloor_cases x with h | ⟨h, hi⟩
  · unfold interp axisW
    rw [h]
  · unfold interp axisW
    simp only
    rw [h, Int.cast_sub, Int.cast_one]
    have e1 : x - (⌊x⌋ - 1) = 1 := by rw [hi]; ring
    have e2 : x - (⌊x⌋ : K) = 0 := by rw [hi]; ring
    have e3 : ⌊x⌋ - 1 + 1 = ⌊x⌋ := by ring
    rw [e1, e2, e3]
    have e4 : (1 : K) - 1 = 0 := by ring
    rw [e4]
    unfold nlerp fade
    ring

theorem frac_bounds (x : K) : 0 ≤ x - ⌊x⌋ ∧ x - ⌊x⌋ < 1 := by
  have h1 := Int.floor_le x
  have h2 := Int.lt_floor_add_one x
  constructor <;> linarith

theorem bump_left (t : K) (h0 : 0 ≤ t) (h1 : t < 1) : bump t = 1 - fade t := by
  unfold bump fade
  rw [abs_of_nonneg h0, if_pos h1]
  ring

theorem bump_right (t : K) (h0 : 0 ≤ t) (h1 : t < 1) : bump (t - 1) = fade t := by
  unfold bump fade
  rw [abs_of_nonpos (by linarith)]
  by_cases h : -(t - 1) < 1
  · rw [if_pos h]; ring
  · have : t = 0 := by linarith
    subst this
    rw [if_neg h]; ring

theorem bump_far (t : K) (h : ¬ |t| < 1) : bump t = 0 := by
  unfold bump; rw [if_neg h]

/-- The interpolation is a sum over lattice points. -/
theorem interp_sum (w : ℤ → Nat) (x : K) (φ : Nat → K → K) (S : Finset ℤ) (hS : Near x S) :
    interp (axisW w x) φ = sum1 w φ S x := by
  rw [interp_floor]
  obtain ⟨h0, h1⟩ := frac_bounds x
  have hsub : sum1 w φ S x = sum1 w φ {⌊x⌋, ⌊x⌋ + 1} x := by
    unfold sum1
    have e1 : ∀ T : Finset ℤ, (∀ i : ℤ, |x - i| < 1 → i ∈ T) →
        ∑ i ∈ T, bump (x - i) * φ (w i) (x - i) =
        ∑ i ∈ T ∪ {⌊x⌋, ⌊x⌋ + 1}, bump (x - i) * φ (w i) (x - i) := by
      intro T hT
      apply Finset.sum_subset Finset.subset_union_left
      intro i _ hi
      rw [bump_far _ (fun h => hi (hT i h)), zero_mul]
    rw [e1 S hS]
    symm
    apply Finset.sum_subset Finset.subset_union_right
    intro i _ hi
    rw [bump_far, zero_mul]
    intro h
    apply hi
    rw [abs_lt] at h
    have h2 := Int.floor_le x
    have h3 := Int.lt_floor_add_one x
    have h4 : (⌊x⌋ : K) < i + 1 := by linarith [h.2]
    have h5 : (i : K) < ⌊x⌋ + 2 := by linarith [h.1]
    have h6 : ⌊x⌋ < i + 1 := by exact_mod_cast h4
    have h7 : i < ⌊x⌋ + 2 := by exact_mod_cast h5
    simp only [Finset.mem_insert, Finset.mem_singleton]
    omega
  rw [hsub]
  unfold sum1
  rw [Finset.sum_pair (by omega)]
  rw [bump_left _ h0 h1]
  have e : x - ((⌊x⌋ + 1 : ℤ) : K) = x - ⌊x⌋ - 1 := by push_cast; ring
  rw [e, bump_right _ h0 h1]
  unfold nlerp
  ring

/-- Shifting by a whole number along which the indices repeat. -/
theorem interp_shift (w : ℤ → Nat) (x : K) (p : ℤ) (φ : Nat → K → K)
    (h0 : w (⌊x⌋ + p) = w ⌊x⌋) (h1 : w (⌊x⌋ + 1 + p) = w (⌊x⌋ + 1)) :
    interp (axisW w (x + p)) φ = interp (axisW w x) φ := by
  rw [interp_floor, interp_floor, Int.floor_add_intCast]
  have e : x + p - ((⌊x⌋ + p : ℤ) : K) = x - ⌊x⌋ := by push_cast; ring
  have e2 : ⌊x⌋ + p + 1 = ⌊x⌋ + 1 + p := by ring
  rw [e, h0, e2, h1]

theorem wrap_shift (i : ℤ) (n : ℤ) : wrap (i + 256 * n) = wrap i := by
  unfold wrap
  rw [Int.add_mul_emod_self_left]

theorem pwrap_shift (p i : ℤ) (hp : 1 ≤ p) (h : 0 ≤ i ∨ i + p ≤ 0 ∨ (256 : ℤ) ∣ p) :
    pwrap p (i + p) = pwrap p i := by
  unfold pwrap
  rw [max_eq_right hp]
  rcases h with h | h | h
  · rw [Int.tmod_eq_emod_of_nonneg (by omega), Int.tmod_eq_emod_of_nonneg h, Int.add_emod_right]
  · have e1 : (i + p).tmod p = -((-(i + p)).tmod p) := by rw [Int.neg_tmod]; ring
    have e2 : i.tmod p = -((-i).tmod p) := by rw [Int.neg_tmod]; ring
    rw [e1, e2, Int.tmod_eq_emod_of_nonneg (by omega : 0 ≤ -(i + p)),
      Int.tmod_eq_emod_of_nonneg (by omega : 0 ≤ -i)]
    have : -(i + p) % p = -i % p := by
      have : -(i + p) = -i + p * (-1) := by ring
      rw [this, Int.add_mul_emod_self_left]
    rw [this]
  · have key : ∀ j : ℤ, (j.tmod p) % 256 = j % 256 := by
      intro j
      have h1 : j.tmod p = j - p * j.tdiv p := by have := Int.mul_tdiv_add_tmod j p; linarith
      obtain ⟨q, rfl⟩ := h
      rw [h1]
      have : j - 256 * q * j.tdiv (256 * q) = j + 256 * (-(q * j.tdiv (256 * q))) := by ring
      rw [this, Int.add_mul_emod_self_left]
    rw [key, key]
    obtain ⟨q, rfl⟩ := h
    rw [Int.add_mul_emod_self_left]

/-! ### Sizes -/

theorem fade_bounds (t : K) (h0 : 0 ≤ t) (h1 : t ≤ 1) : 0 ≤ fade t ∧ fade t ≤ 1 := by
  unfold fade
  constructor
  · have : 0 ≤ t * (t * 6 - 15) + 10 := by nlinarith [sq_nonneg (t - 1)]
    positivity
  · have e : 1 - t * t * t * (t * (t * 6 - 15) + 10) = (1 - t) ^ 3 * (1 + 3 * t + 6 * t ^ 2) := by ring
    have : 0 ≤ (1 - t) ^ 3 * (1 + 3 * t + 6 * t ^ 2) :=
      mul_nonneg (pow_nonneg (by linarith) 3) (by positivity)
    linarith

theorem fade_le (u : K) (h0 : 0 ≤ u) (h1 : u ≤ 1 / 2) : fade u ≤ u := by
  unfold fade
  have e : u - u * u * u * (u * (u * 6 - 15) + 10) =
      u * ((1 - 2 * u) * (1 + 2 * u - 6 * u ^ 2 + 3 * u ^ 3)) := by ring
  have h2 : 0 ≤ 1 + 2 * u - 6 * u ^ 2 + 3 * u ^ 3 := by
    have : 0 ≤ u ^ 3 := by positivity
    nlinarith
  have : 0 ≤ u * ((1 - 2 * u) * (1 + 2 * u - 6 * u ^ 2 + 3 * u ^ 3)) :=
    mul_nonneg h0 (mul_nonneg (by linarith) h2)
  linarith

/-- A mean over two distances, the farther one with the smaller weight. -/
def mean (p d : K) (f : K → K) : K := p * f (1 / 2 + d) + (1 - p) * f (1 / 2 - d)

/-- Weights and distances that occur. -/
structure Good (p d : K) : Prop where
  d0 : 0 ≤ d
  d1 : d ≤ 1 / 2
  p0 : 0 ≤ p
  p1 : p ≤ 1 / 2
  pd : p ≤ 1 / 2 - d
  prod : p * d ≤ 1 / 25

theorem good_fade (d : K) (h0 : 0 ≤ d) (h1 : d ≤ 1 / 2) : Good (fade (1 / 2 - d)) d := by
  have hb := fade_bounds (1 / 2 - d) (by linarith) (by linarith)
  have hl := fade_le (1 / 2 - d) (by linarith) (by linarith)
  refine ⟨h0, h1, hb.1, by linarith, hl, ?_⟩
  by_cases h : d ≤ 1 / 4
  · have e : fade (1 / 2 - d) = 1 / 2 - 15 / 8 * d + 5 * d ^ 3 - 6 * d ^ 5 := by unfold fade; ring
    rw [e]
    have h2 : 0 ≤ d ^ 6 := by positivity
    have h3 : d ^ 4 ≤ 1 / 16 * d ^ 2 := by
      have : d ^ 2 ≤ 1 / 16 := by nlinarith
      nlinarith [sq_nonneg d]
    nlinarith [sq_nonneg (d - 4 / 25)]
  · have hu : 0 ≤ 1 / 2 - d := by linarith
    have hu2 : 1 / 2 - d ≤ 1 / 4 := by linarith [not_le.mp h]
    obtain ⟨u, hd⟩ : ∃ u, u = 1 / 2 - d := ⟨_, rfl⟩
    rw [← hd] at hu hu2 ⊢
    have e : d = 1 / 2 - u := by rw [hd]; ring
    rw [e]
    have h3 : fade u ≤ 5 / 8 * u := by
      unfold fade
      have h4 : u * u ≤ 1 / 16 := by nlinarith
      have h5 : u * (u * 6 - 15) + 10 ≤ 10 := by nlinarith
      have h6 : 0 ≤ u * u * u := by positivity
      calc u * u * u * (u * (u * 6 - 15) + 10) ≤ u * u * u * 10 := mul_le_mul_of_nonneg_left h5 h6
        _ ≤ 5 / 8 * u := by nlinarith
    have h4 : fade u * (1 / 2 - u) ≤ 5 / 8 * u * (1 / 2 - u) :=
      mul_le_mul_of_nonneg_right h3 (by linarith)
    nlinarith [sq_nonneg (u - 1 / 4)]

theorem nlerp_le (s a b A B : K) (h0 : 0 ≤ s) (h1 : s ≤ 1) (ha : |a| ≤ A) (hb : |b| ≤ B) :
    |nlerp s a b| ≤ (1 - s) * A + s * B := by
  have e : nlerp s a b = (1 - s) * a + s * b := by unfold nlerp; ring
  rw [e]
  refine (abs_add_le _ _).trans ?_
  rw [abs_mul, abs_mul, abs_of_nonneg h0, abs_of_nonneg (by linarith : 0 ≤ 1 - s)]
  have := mul_le_mul_of_nonneg_left ha (by linarith : 0 ≤ 1 - s)
  have := mul_le_mul_of_nonneg_left hb h0
  linarith

/-- Sizes of interpolated values. -/
theorem interp_le (w : ℤ → Nat) (x : K) : ∃ p d : K, Good p d ∧ ∀ (φ : Nat → K → K) (B : K → K),
    (∀ i t, |t| ≤ 1 → |φ i t| ≤ B |t|) → |interp (axisW w x) φ| ≤ mean p d B := by
  obtain ⟨h0, h1⟩ := frac_bounds x
  have hf := fade_bounds _ h0 h1.le
  by_cases h : x - ⌊x⌋ ≤ 1 / 2
  · refine ⟨_, 1 / 2 - (x - ⌊x⌋), good_fade _ (by linarith) (by linarith), ?_⟩
    intro φ B hB
    rw [interp_floor]
    have ha := hB (w ⌊x⌋) (x - ⌊x⌋) (by rw [abs_of_nonneg h0]; exact h1.le)
    have hb := hB (w (⌊x⌋ + 1)) (x - ⌊x⌋ - 1) (by rw [abs_of_nonpos (by linarith)]; linarith)
    rw [abs_of_nonneg h0] at ha
    rw [abs_of_nonpos (by linarith : x - ⌊x⌋ - 1 ≤ 0)] at hb
    refine (nlerp_le _ _ _ _ _ hf.1 hf.2 ha hb).trans (le_of_eq ?_)
    unfold mean
    have e1 : (1 : K) / 2 - (1 / 2 - (x - ⌊x⌋)) = x - ⌊x⌋ := by ring
    have e2 : (1 : K) / 2 + (1 / 2 - (x - ⌊x⌋)) = -(x - ⌊x⌋ - 1) := by ring
    rw [e1, e2]
    ring
  · have h := not_le.mp h
    refine ⟨_, (x - ⌊x⌋) - 1 / 2, good_fade _ (by linarith) (by linarith), ?_⟩
    intro φ B hB
    rw [interp_floor]
    have ha := hB (w ⌊x⌋) (x - ⌊x⌋) (by rw [abs_of_nonneg h0]; exact h1.le)
    have hb := hB (w (⌊x⌋ + 1)) (x - ⌊x⌋ - 1) (by rw [abs_of_nonpos (by linarith)]; linarith)
    rw [abs_of_nonneg h0] at ha
    rw [abs_of_nonpos (by linarith : x - ⌊x⌋ - 1 ≤ 0)] at hb
    refine (nlerp_le _ _ _ _ _ hf.1 hf.2 ha hb).trans (le_of_eq ?_)
    unfold mean
    have e1 : (1 : K) / 2 + ((x - ⌊x⌋) - 1 / 2) = x - ⌊x⌋ := by ring
    have e2 : (1 : K) / 2 - ((x - ⌊x⌋) - 1 / 2) = -(x - ⌊x⌋ - 1) := by ring
    rw [e1, e2]
    have e3 : fade (-(x - ⌊x⌋ - 1)) = 1 - fade (x - ⌊x⌋) := by unfold fade; ring
    rw [e3]
    ring

/-- The sum of the two largest of three numbers. -/
def top2 (x y z : K) : K := x + y + z - min x (min y z)

/-- The mean of it. -/
def M (p1 d1 p2 d2 p3 d3 : K) : K :=
  mean p1 d1 fun x => mean p2 d2 fun y => mean p3 d3 fun z => top2 x y z

theorem M_swap12 (p1 d1 p2 d2 p3 d3 : K) : M p1 d1 p2 d2 p3 d3 = M p2 d2 p1 d1 p3 d3 := by
  have h : ∀ x y z : K, top2 x y z = top2 y x z := by
    intro x y z; unfold top2; rw [min_left_comm]; ring
  unfold M mean
  beta_reduce
  rw [h (1 / 2 + d2) (1 / 2 + d1) (1 / 2 + d3), h (1 / 2 + d2) (1 / 2 + d1) (1 / 2 - d3),
    h (1 / 2 + d2) (1 / 2 - d1) (1 / 2 + d3), h (1 / 2 + d2) (1 / 2 - d1) (1 / 2 - d3),
    h (1 / 2 - d2) (1 / 2 + d1) (1 / 2 + d3), h (1 / 2 - d2) (1 / 2 + d1) (1 / 2 - d3),
    h (1 / 2 - d2) (1 / 2 - d1) (1 / 2 + d3), h (1 / 2 - d2) (1 / 2 - d1) (1 / 2 - d3)]
  ring

theorem M_swap23 (p1 d1 p2 d2 p3 d3 : K) : M p1 d1 p2 d2 p3 d3 = M p1 d1 p3 d3 p2 d2 := by
  have h : ∀ x y z : K, top2 x y z = top2 x z y := by
    intro x y z; unfold top2; rw [min_comm y z]; ring
  unfold M mean
  beta_reduce
  rw [h (1 / 2 + d1) (1 / 2 + d3) (1 / 2 + d2), h (1 / 2 + d1) (1 / 2 + d3) (1 / 2 - d2),
    h (1 / 2 + d1) (1 / 2 - d3) (1 / 2 + d2), h (1 / 2 + d1) (1 / 2 - d3) (1 / 2 - d2),
    h (1 / 2 - d1) (1 / 2 + d3) (1 / 2 + d2), h (1 / 2 - d1) (1 / 2 + d3) (1 / 2 - d2),
    h (1 / 2 - d1) (1 / 2 - d3) (1 / 2 + d2), h (1 / 2 - d1) (1 / 2 - d3) (1 / 2 - d2)]
  ring

theorem M_sorted (p1 d1 p2 d2 p3 d3 : K) (h1 : Good p1 d1) (h2 : Good p2 d2) (h3 : Good p3 d3)
    (h12 : d2 ≤ d1) (h23 : d3 ≤ d2) : M p1 d1 p2 d2 p3 d3 ≤ 53 / 50 := by
  have a1 := h1.d0
  have a2 := h2.d0
  have a3 := h3.d0
  have m1 : ∀ y z : K, 1 / 2 - d1 ≤ y → 1 / 2 - d1 ≤ z → min (1 / 2 - d1) (min y z) = 1 / 2 - d1 :=
    fun y z hy hz => min_eq_left (le_min hy hz)
  have m2 : ∀ z : K, 1 / 2 - d2 ≤ z → min (1 / 2 + d1) (min (1 / 2 - d2) z) = 1 / 2 - d2 := by
    intro z hz
    rw [min_eq_left hz, min_eq_right (by linarith)]
  have m3 : min (1 / 2 + d1) (min (1 / 2 + d2) (1 / 2 - d3)) = 1 / 2 - d3 := by
    rw [min_eq_right (by linarith : 1 / 2 - d3 ≤ 1 / 2 + d2), min_eq_right (by linarith)]
  have m4 : min (1 / 2 + d1) (min (1 / 2 + d2) (1 / 2 + d3)) = 1 / 2 + d3 := by
    rw [min_eq_right (by linarith : 1 / 2 + d3 ≤ 1 / 2 + d2), min_eq_right (by linarith)]
  have e : M p1 d1 p2 d2 p3 d3 = 1 + p1 * d1 + d2 * (2 * p2 - 1 + p1 * (1 - p2)) -
      d3 * (1 - 2 * p3) * (1 - p1 * p2) := by
    unfold M mean top2
    beta_reduce
    rw [m4, m3, m2 _ (by linarith : 1 / 2 - d2 ≤ 1 / 2 + d3), m2 _ (by linarith : 1 / 2 - d2 ≤ 1 / 2 - d3),
      m1 _ _ (by linarith : 1 / 2 - d1 ≤ 1 / 2 + d2) (by linarith : 1 / 2 - d1 ≤ 1 / 2 + d3),
      m1 _ _ (by linarith : 1 / 2 - d1 ≤ 1 / 2 + d2) (by linarith : 1 / 2 - d1 ≤ 1 / 2 - d3),
      m1 _ _ (by linarith : 1 / 2 - d1 ≤ 1 / 2 - d2) (by linarith : 1 / 2 - d1 ≤ 1 / 2 + d3),
      m1 _ _ (by linarith : 1 / 2 - d1 ≤ 1 / 2 - d2) (by linarith : 1 / 2 - d1 ≤ 1 / 2 - d3)]
    ring
  rw [e]
  have b1 : 0 ≤ d3 * (1 - 2 * p3) * (1 - p1 * p2) := by
    have : p1 * p2 ≤ 1 := by nlinarith [h1.p0, h1.p1, h2.p0, h2.p1]
    exact mul_nonneg (mul_nonneg a3 (by linarith [h3.p1])) (by linarith)
  have b2 : 2 * p2 - 1 + p1 * (1 - p2) ≤ 1 / 4 - 3 / 2 * d2 := by
    have : p1 * (1 - p2) ≤ 1 / 2 * (1 - p2) :=
      mul_le_mul_of_nonneg_right h1.p1 (by linarith [h2.p1])
    linarith [h2.pd]
  have b3 : d2 * (2 * p2 - 1 + p1 * (1 - p2)) ≤ d2 * (1 / 4 - 3 / 2 * d2) :=
    mul_le_mul_of_nonneg_left b2 a2
  have b4 : d2 * (1 / 4 - 3 / 2 * d2) ≤ 1 / 90 := by nlinarith [sq_nonneg (d2 - 1 / 12)]
  have b5 := h1.prod
  linarith

theorem M_le (p1 d1 p2 d2 p3 d3 : K) (h1 : Good p1 d1) (h2 : Good p2 d2) (h3 : Good p3 d3) :
    M p1 d1 p2 d2 p3 d3 ≤ 53 / 50 := by
  rcases le_total d1 d2 with h12 | h12 <;> rcases le_total d2 d3 with h23 | h23 <;>
    rcases le_total d1 d3 with h13 | h13
  · rw [M_swap12, M_swap23, M_swap12]; exact M_sorted _ _ _ _ _ _ h3 h2 h1 h23 h12
  · rw [M_swap12, M_swap23, M_swap12]; exact M_sorted _ _ _ _ _ _ h3 h2 h1 h23 h12
  · rw [M_swap12, M_swap23]; exact M_sorted _ _ _ _ _ _ h2 h3 h1 h23 h13
  · rw [M_swap12]; exact M_sorted _ _ _ _ _ _ h2 h1 h3 h12 h13
  · rw [M_swap23, M_swap12]; exact M_sorted _ _ _ _ _ _ h3 h1 h2 h13 h12
  · rw [M_swap23]; exact M_sorted _ _ _ _ _ _ h1 h3 h2 h13 h23
  · exact M_sorted _ _ _ _ _ _ h1 h2 h3 h12 h23
  · exact M_sorted _ _ _ _ _ _ h1 h2 h3 h12 h23

/-! ### Gradients -/

theorem grad1_le (h : Nat) (x : K) : |grad1 h x| ≤ 8 * |x| := by
  unfold grad1
  simp only
  rw [abs_mul]
  apply mul_le_mul_of_nonneg_right _ (abs_nonneg x)
  have h7 : ((h % 16 % 8 : Nat) : K) ≤ 7 := by
    have : h % 16 % 8 ≤ 7 := by omega
    exact_mod_cast this
  have h0 : (0 : K) ≤ ((h % 16 % 8 : Nat) : K) := Nat.cast_nonneg _
  split_ifs
  · rw [abs_neg, abs_of_nonneg (by linarith)]; linarith
  · rw [abs_of_nonneg (by linarith)]; linarith

theorem pm_le (b : Prop) [Decidable b] (u : K) : |if b then -u else u| = |u| := by
  split_ifs
  · exact abs_neg u
  · rfl

theorem grad2_le (h : Nat) (x y : K) (hx : |x| ≤ 1) (hy : |y| ≤ 1) :
    |grad2 h x y| ≤ 2 * |x| + 2 * |y| - |x| * |y| := by
  unfold grad2
  simp only
  refine (abs_add_le _ _).trans ?_
  have e : ∀ (b : Prop) [Decidable b] (v : K), |if b then -2 * v else 2 * v| = 2 * |v| := by
    intro b _ v
    split_ifs
    · rw [abs_mul, abs_neg, abs_of_pos (by norm_num : (0 : K) < 2)]
    · rw [abs_mul, abs_of_pos (by norm_num : (0 : K) < 2)]
  rw [pm_le, e]
  have h1 := abs_nonneg x
  have h2 := abs_nonneg y
  split_ifs <;> nlinarith

theorem grad3_le (h : Nat) (x y z : K) : |grad3 h x y z| ≤ top2 |x| |y| |z| := by
  have m1 := min_le_left |x| (min |y| |z|)
  have m2 := (min_le_right |x| (min |y| |z|)).trans (min_le_left _ _)
  have m3 := (min_le_right |x| (min |y| |z|)).trans (min_le_right _ _)
  unfold grad3 top2
  simp only
  refine (abs_add_le _ _).trans ?_
  rw [pm_le, pm_le]
  by_cases h1 : h % 16 < 4
  · rw [if_pos (by omega), if_pos h1]; linarith
  · rw [if_neg h1]
    by_cases h2 : h % 16 < 8
    · rw [if_pos h2, if_neg (by omega)]; linarith
    · rw [if_neg h2]
      split_ifs <;> linarith

theorem grad4_le (h : Nat) (x y z t : K) : |grad4 h x y z t| ≤ |x| + |y| + |z| + |t| := by
  have m1 := abs_nonneg x
  have m2 := abs_nonneg y
  have m3 := abs_nonneg z
  have m4 := abs_nonneg t
  unfold grad4
  simp only
  refine (abs_add_three _ _ _).trans ?_
  rw [pm_le, pm_le, pm_le]
  by_cases h1 : h % 32 < 8
  · rw [if_pos (by omega), if_pos (by omega), if_pos h1]; linarith
  · rw [if_neg h1]
    by_cases h2 : h % 32 < 16
    · rw [if_pos (by omega), if_pos h2]; linarith
    · rw [if_neg h2]
      split_ifs <;> linarith

end

end Verif.Math.Noise
