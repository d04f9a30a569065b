import Verif.Math.LowDiscrep
import Mathlib.Data.Nat.Digits.Lemmas
import Mathlib.Data.Nat.Prime.Basic
import Mathlib.Data.Nat.ChineseRemainder
import Mathlib.Algebra.Order.Floor.Ring
import Mathlib.Algebra.Field.Rat
import Mathlib.Data.Rat.Floor
import Mathlib.Tactic.Linarith
import Mathlib.Tactic.FieldSimp
import Mathlib.Tactic.Ring
import Mathlib.Tactic.IntervalCases

/-!
Lemmas about quasi-random points.
-/

namespace Verif.Math.LowDiscrep

namespace Spec

/-- The digits of a number in base `b`, mirrored at the point: 123 becomes 0.321. -/
def mirrored (b n : Nat) : ℚ := (Nat.digits b n).foldr (fun d acc => (d + acc) / b) 0

/-- Random numbers below the range asked for, 0 if it is 0. -/
def Fair (rnd : Nat → Nat → Nat) : Prop := ∀ k r, rnd k r < max r 1

/-- The point `x` is in cell `i` of `n` equal cells of the unit interval. -/
def InCell (n i : Nat) (x : ℚ) : Prop := (i : ℚ) / n ≤ x ∧ x < ((i : ℚ) + 1) / n

end Spec

open Spec

/-! ### The mirrored digits -/

theorem mirrored_zero (b : Nat) : mirrored b 0 = 0 := by simp [mirrored]

theorem mirrored_pos {b n : Nat} (hb : 2 ≤ b) (hn : n ≠ 0) :
    mirrored b n = ((n % b : Nat) + mirrored b (n / b)) / b := by
  unfold mirrored
  rw [Nat.digits_def' (by omega) (by omega)]
  rfl

theorem mirrored_step {b : Nat} (hb : 2 ≤ b) (n : Nat) :
    mirrored b n = ((n % b : Nat) + mirrored b (n / b)) / b := by
  by_cases hn : n = 0
  · subst hn; simp [mirrored_zero]
  · exact mirrored_pos hb hn

theorem radLoop_eq {b : Nat} (hb : 2 ≤ b) : ∀ (f n : Nat) (scale value : ℚ), n ≤ f →
    radLoop f n b scale value = value + scale * b * mirrored b n := by
  intro f
  induction f with
  | zero =>
    intro n scale value hn
    have : n = 0 := by omega
    subst this
    simp [radLoop, mirrored_zero]
  | succ f ih =>
    intro n scale value hn
    unfold radLoop
    by_cases h0 : n = 0
    · subst h0; simp [mirrored_zero]
    · rw [if_neg h0, ih _ _ _ (by have := Nat.div_lt_self (by omega : 0 < n) (by omega : 1 < b); omega),
        mirrored_pos hb h0]
      have hb0 : (b : ℚ) ≠ 0 := by exact_mod_cast (by omega : b ≠ 0)
      field_simp
      ring

/-- the numbers are the digits of the ordinals, mirrored at the point. -/
theorem digits_eq (n b : Nat) (hb : 2 ≤ b) : reverseRadical n b = mirrored b n := by
  have hb0 : (b : ℚ) ≠ 0 := by exact_mod_cast (by omega : b ≠ 0)
  unfold reverseRadical
  rw [radLoop_eq hb _ _ _ _ (le_refl _)]
  field_simp
  ring

theorem mirrored_range {b : Nat} (hb : 2 ≤ b) (n : Nat) : 0 ≤ mirrored b n ∧ mirrored b n < 1 := by
  induction n using Nat.strong_induction_on with
  | _ n ih =>
    by_cases h0 : n = 0
    · subst h0; simp [mirrored_zero]
    · obtain ⟨i0, i1⟩ := ih (n / b) (Nat.div_lt_self (by omega) (by omega))
      rw [mirrored_pos hb h0]
      have hb0 : (0 : ℚ) < b := by exact_mod_cast (by omega : 0 < b)
      have hm : ((n % b : Nat) : ℚ) + 1 ≤ b := by exact_mod_cast Nat.mod_lt n (by omega)
      have hm0 : (0 : ℚ) ≤ ((n % b : Nat) : ℚ) := Nat.cast_nonneg _
      constructor
      · positivity
      · rw [div_lt_one hb0]; linarith

/-! ### Cells -/

/-- The last `k` digits in opposite order. -/
def rev (b : Nat) : Nat → Nat → Nat
  | 0, _ => 0
  | k + 1, n => b ^ k * (n % b) + rev b k (n / b)

theorem rev_lt {b : Nat} (hb : 2 ≤ b) (k n : Nat) : rev b k n < b ^ k := by
  induction k generalizing n with
  | zero => simp [rev]
  | succ k ih =>
    unfold rev
    have h1 := ih (n / b)
    have h2 : n % b + 1 ≤ b := Nat.mod_lt n (by omega)
    calc b ^ k * (n % b) + rev b k (n / b) < b ^ k * (n % b) + b ^ k := by omega
      _ = b ^ k * (n % b + 1) := by ring
      _ ≤ b ^ k * b := Nat.mul_le_mul_left _ h2
      _ = b ^ (k + 1) := by ring

theorem rev_cell {b : Nat} (hb : 2 ≤ b) (k n : Nat) :
    (rev b k n : ℚ) ≤ (b : ℚ) ^ k * mirrored b n ∧ (b : ℚ) ^ k * mirrored b n < rev b k n + 1 := by
  induction k generalizing n with
  | zero =>
    have := mirrored_range hb n
    simp [rev, this]
  | succ k ih =>
    obtain ⟨h1, h2⟩ := ih (n / b)
    have hb0 : (b : ℚ) ≠ 0 := by exact_mod_cast (by omega : b ≠ 0)
    have e : (b : ℚ) ^ (k + 1) * mirrored b n =
        (b : ℚ) ^ k * (n % b : Nat) + (b : ℚ) ^ k * mirrored b (n / b) := by
      rw [mirrored_step hb n]
      field_simp
      ring
    rw [e]
    unfold rev
    push_cast
    constructor <;> linarith

theorem rev_mod {b : Nat} (hb : 2 ≤ b) (k : Nat) : ∀ n m : Nat, rev b k n = rev b k m ↔ n ≡ m [MOD b ^ k] := by
  induction k with
  | zero => intro n m; simp [rev, Nat.ModEq, Nat.mod_one]
  | succ k ih =>
    intro n m
    have hp : 0 < b ^ k := Nat.pow_pos (by omega)
    have hn := rev_lt hb k (n / b)
    have hm := rev_lt hb k (m / b)
    have key : (n % b = m % b ∧ n / b ≡ m / b [MOD b ^ k]) ↔ n ≡ m [MOD b ^ (k + 1)] := by
      unfold Nat.ModEq
      rw [pow_succ', Nat.mod_mul, Nat.mod_mul]
      constructor
      · rintro ⟨e1, e2⟩; rw [e1, e2]
      · intro e
        have a1 : n % b < b := Nat.mod_lt _ (by omega)
        have a2 : m % b < b := Nat.mod_lt _ (by omega)
        have e1 : n % b = m % b := by
          have := congrArg (· % b) e
          simpa [Nat.add_mul_mod_self_left, Nat.mod_mod] using this
        refine ⟨e1, ?_⟩
        rw [e1] at e
        exact Nat.eq_of_mul_eq_mul_left (by omega) (by omega : b * (n / b % b ^ k) = b * (m / b % b ^ k))
    rw [← key, ← ih]
    have u : ∀ n, rev b (k + 1) n = b ^ k * (n % b) + rev b k (n / b) := fun _ => rfl
    rw [u, u]
    constructor
    · intro e
      have e1 : n % b = m % b := by
        have := congrArg (· / b ^ k) e
        simpa [Nat.mul_add_div hp, Nat.div_eq_of_lt hn, Nat.div_eq_of_lt hm] using this
      refine ⟨e1, ?_⟩
      rw [e1] at e
      omega
    · rintro ⟨e1, e2⟩; rw [e1, e2]

theorem rev_onto {b : Nat} (hb : 2 ≤ b) (k i : Nat) (hi : i < b ^ k) : ∃ r, rev b k r = i := by
  let f : Fin (b ^ k) → Fin (b ^ k) := fun r => ⟨rev b k r, rev_lt hb k r⟩
  have hf : Function.Injective f := by
    intro x y h
    have h' : rev b k x = rev b k y := congrArg Fin.val h
    have := (rev_mod hb k x y).mp h'
    apply Fin.ext
    rwa [Nat.ModEq, Nat.mod_eq_of_lt x.2, Nat.mod_eq_of_lt y.2] at this
  obtain ⟨r, hr⟩ := Finite.surjective_of_injective hf ⟨i, hi⟩
  exact ⟨r, congrArg Fin.val hr⟩

theorem cell_iff {b : Nat} (hb : 2 ≤ b) (k i n : Nat) :
    InCell (b ^ k) i (mirrored b n) ↔ rev b k n = i := by
  obtain ⟨h1, h2⟩ := rev_cell hb k n
  have hp : (0 : ℚ) < (b : ℚ) ^ k := by
    have : (0 : ℚ) < b := by exact_mod_cast (by omega : 0 < b)
    positivity
  unfold InCell
  push_cast
  rw [div_le_iff₀ hp, lt_div_iff₀ hp]
  constructor
  · rintro ⟨a, c⟩
    have x1 : (i : ℚ) < rev b k n + 1 := by linarith
    have x2 : (rev b k n : ℚ) < i + 1 := by linarith
    have y1 : i < rev b k n + 1 := by exact_mod_cast x1
    have y2 : rev b k n < i + 1 := by exact_mod_cast x2
    omega
  · rintro rfl
    constructor <;> linarith

/-- One number of each residue in a window. -/
theorem window (N s x : Nat) (hN : 0 < N) : ∃! n, (s ≤ n ∧ n < s + N) ∧ n ≡ x [MOD N] := by
  have hs : s ≤ N * s := Nat.le_mul_of_pos_left s hN
  refine ⟨s + (x + N * s - s) % N, ⟨⟨by omega, ?_⟩, ?_⟩, ?_⟩
  · have := Nat.mod_lt (x + N * s - s) hN
    omega
  · have e : s + (x + N * s - s) % N ≡ s + (x + N * s - s) [MOD N] := (Nat.mod_modEq _ _).add_left _
    refine e.trans ?_
    rw [show s + (x + N * s - s) = x + N * s by omega]
    simp [Nat.ModEq]
  · rintro m ⟨⟨m0, m1⟩, hm⟩
    have e : s + (x + N * s - s) % N ≡ x [MOD N] := by
      have e : s + (x + N * s - s) % N ≡ s + (x + N * s - s) [MOD N] := (Nat.mod_modEq _ _).add_left _
      refine e.trans ?_
      rw [show s + (x + N * s - s) = x + N * s by omega]
      simp [Nat.ModEq]
    have h : m ≡ s + (x + N * s - s) % N [MOD N] := hm.trans e.symm
    have hr := Nat.mod_lt (x + N * s - s) hN
    have h' : (m - s) ≡ (x + N * s - s) % N [MOD N] := by
      have : s + (m - s) ≡ s + (x + N * s - s) % N [MOD N] := by rwa [show s + (m - s) = m by omega]
      exact Nat.ModEq.add_left_cancel' s this
    rw [Nat.ModEq, Nat.mod_eq_of_lt (show m - s < N by omega), Nat.mod_eq_of_lt hr] at h'
    omega

/-! ### Bases -/

/-- Divisors of all composite numbers below 53². -/
def smallDivs : List Nat := [2, 3, 5, 7, 11, 13, 17, 19, 23, 29, 31, 37, 41, 43, 47]

/-- All numbers of a range are in the list, in order, or have a small divisor. -/
def walk : Nat → Nat → List Nat → Bool
  | 0, _, _ => true
  | f + 1, n, [] => smallDivs.any (fun d => n % d == 0 && Nat.blt d n) && walk f (n + 1) []
  | f + 1, n, p :: ps =>
    if n = p then walk f (n + 1) ps
    else smallDivs.any (fun d => n % d == 0 && Nat.blt d n) && walk f (n + 1) (p :: ps)

theorem walk_sound : ∀ (f n : Nat) (l : List Nat), walk f n l = true → ∀ m, n ≤ m → m < n + f →
    m ∈ l ∨ ∃ d, 2 ≤ d ∧ d ∣ m ∧ d < m := by
  have div : ∀ n, smallDivs.any (fun d => n % d == 0 && Nat.blt d n) = true →
      ∃ d, 2 ≤ d ∧ d ∣ n ∧ d < n := by
    intro n h
    rw [List.any_eq_true] at h
    obtain ⟨d, hd, h⟩ := h
    rw [Bool.and_eq_true, beq_iff_eq, Nat.blt_eq] at h
    have h2 : ∀ d ∈ smallDivs, 2 ≤ d := by decide
    exact ⟨d, h2 d hd, Nat.dvd_of_mod_eq_zero h.1, h.2⟩
  intro f
  induction f with
  | zero => intro n l _ m h1 h2; omega
  | succ f ih =>
    intro n l h m h1 h2
    cases l with
    | nil =>
      unfold walk at h
      rw [Bool.and_eq_true] at h
      by_cases e : m = n
      · subst e; exact Or.inr (div _ h.1)
      · exact ih (n + 1) [] h.2 m (by omega) (by omega)
    | cons p ps =>
      unfold walk at h
      by_cases hp : n = p
      · rw [if_pos hp] at h
        by_cases e : m = n
        · left; rw [e, hp]; exact List.mem_cons_self ..
        · rcases ih (n + 1) ps h m (by omega) (by omega) with h' | h'
          · exact Or.inl (List.mem_cons_of_mem _ h')
          · exact Or.inr h'
      · rw [if_neg hp, Bool.and_eq_true] at h
        by_cases e : m = n
        · subst e; exact Or.inr (div _ h.1)
        · exact ih (n + 1) _ h.2 m (by omega) (by omega)

/-- the table has the prime numbers below 2310, in order. -/
theorem primes_spec : primes.length = 343 ∧ primes.Pairwise (· < ·) ∧
    ∀ n, n ∈ primes ↔ n.Prime ∧ n < 2310 := by
  have h1 : primes.length = 343 := by decide +kernel
  have h2 : primes.Pairwise (· < ·) := List.isChain_iff_pairwise.mp (by decide +kernel)
  have h3 : ∀ p ∈ primes, 2 ≤ p ∧ p < 2310 ∧ ∀ d < 49, 2 ≤ d → d ∣ p → d = p := by decide +kernel
  have h4 : walk 2308 2 primes = true := by decide +kernel
  refine ⟨h1, h2, ?_⟩
  intro n
  constructor
  · intro hn
    obtain ⟨a, b, c⟩ := h3 n hn
    refine ⟨?_, b⟩
    by_contra hnp
    have hsq := Nat.minFac_sq_le_self (by omega : 0 < n) hnp
    have hlt : n.minFac < 49 := by
      by_contra h
      have : 49 * 49 ≤ n.minFac ^ 2 := by nlinarith [not_lt.mp h]
      omega
    have hp : n.minFac.Prime := Nat.minFac_prime (by omega)
    have := c n.minFac hlt hp.two_le (Nat.minFac_dvd n)
    rw [this] at hp
    exact hnp hp
  · rintro ⟨hp, hn⟩
    by_contra hni
    rcases walk_sound _ _ _ h4 n hp.two_le (by omega) with h | ⟨d, d2, d3, d4⟩
    · exact hni h
    · rcases (Nat.dvd_prime hp).mp d3 with e | e <;> omega

theorem pick_eq {rnd : Nat → Nat → Nat} (hr : Fair rnd) (dims : Nat) (hd : dims ≤ 343) :
    ∀ (f i : Nat) (bases : List Nat), dims = i + f → bases.length = dims → bases.take i = primes.take i →
      pick rnd dims f i i i bases = .ok (primes.take dims) := by
  intro f
  induction f with
  | zero =>
    intro i bases hi hl hp
    unfold pick
    have : dims = i := by omega
    subst this
    rw [← hp, ← hl, List.take_length]
  | succ f ih =>
    intro i bases hi hl hp
    unfold pick
    rw [if_neg (by omega)]
    have hz : usub i i = 0 := by unfold usub; rw [Nat.add_sub_cancel_left]; rfl
    have hr0 : rnd i 0 = 0 := by have := hr i 0; simp at this; exact this
    simp only [hz, hr0, Nat.zero_add]
    have hlt : i < primes.length := by rw [primes_spec.1]; omega
    rw [List.getElem?_eq_getElem hlt]
    apply ih (i + 1) _ (by omega) (by rw [List.length_set]; exact hl)
    rw [List.take_add_one, List.take_add_one, List.take_set_of_le (le_refl i), hp]
    congr 1
    rw [List.getElem?_set_self (by omega), List.getElem?_eq_getElem hlt]

theorem swap_perm (l : List Nat) (i j : Nat) (hi : i < l.length) (hj : j < l.length) :
    ∃ l', swap l i j = .ok l' ∧ l'.Perm l := by
  unfold swap
  rw [List.getElem?_eq_getElem hi, List.getElem?_eq_getElem hj]
  exact ⟨_, rfl, List.set_set_perm hi hj⟩

theorem permute_perm {rnd : Nat → Nat → Nat} (hr : Fair rnd) : ∀ (i k : Nat) (l : List Nat), i < l.length →
    ∃ l', permute rnd i k l = .ok l' ∧ l'.Perm l := by
  intro i
  induction i with
  | zero => intro k l _; exact ⟨l, rfl, List.Perm.refl _⟩
  | succ i ih =>
    intro k l hl
    unfold permute
    have hj : rnd k i < l.length := by
      have := hr k i
      omega
    obtain ⟨l1, e1, p1⟩ := swap_perm l (i + 1) (rnd k i) hl hj
    obtain ⟨l2, e2, p2⟩ := ih (k + 1) l1 (by rw [p1.length_eq]; omega)
    exact ⟨l2, by rw [e1]; exact e2, p2.trans p1⟩

theorem construct_eq {rnd : Nat → Nat → Nat} (hr : Fair rnd) (dims : Nat) (h0 : 1 ≤ dims)
    (h1 : dims ≤ 343) : construct rnd dims = permute rnd (dims - 1) dims (primes.take dims) := by
  unfold construct reset
  rw [List.length_replicate]
  have hz : usub dims dims = 0 := by unfold usub; rw [Nat.add_sub_cancel_left]; rfl
  have h1' : usub dims 1 = dims - 1 := by
    unfold usub
    rw [show dims + 2 ^ 32 - 1 = (dims - 1) + 2 ^ 32 by omega, Nat.add_mod_right]
    exact Nat.mod_eq_of_lt (by omega)
  rw [hz, pick_eq hr dims h1 dims 0 _ (by omega) (List.length_replicate ..) rfl, h1']
  rfl

end Verif.Math.LowDiscrep
