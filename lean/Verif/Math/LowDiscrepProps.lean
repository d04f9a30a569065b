import Verif.Math.LowDiscrepLemmas

/-!
C92: quasi-random points.
-/

namespace Verif.Math.LowDiscrep

open Spec

/-- C92: the numbers are the digits of the ordinals, mirrored at the point. -/
theorem C92_digits (n b : Nat) (hb : 2 ≤ b) : reverseRadical n b = mirrored b n :=
  digits_eq n b hb

/-- C92: all numbers are in the unit interval. -/
theorem C92_range (n b : Nat) (hb : 2 ≤ b) : 0 ≤ reverseRadical n b ∧ reverseRadical n b < 1 := by
  rw [C92_digits n b hb]
  exact mirrored_range hb n

/-- C92: in one dimension, among any `bᵏ` ordinals in a row, exactly one is in each of `bᵏ` equal
cells. -/
theorem C92_cells (b k i s : Nat) (hb : 2 ≤ b) (hi : i < b ^ k) :
    ∃! n, (s ≤ n ∧ n < s + b ^ k) ∧ InCell (b ^ k) i (reverseRadical n b) := by
  obtain ⟨r, hr⟩ := rev_onto hb k i hi
  have e : ∀ n, InCell (b ^ k) i (reverseRadical n b) ↔ n ≡ r [MOD b ^ k] := by
    intro n
    rw [C92_digits n b hb, cell_iff hb, ← rev_mod hb, hr]
  simp only [e]
  exact window _ s r (Nat.pow_pos (by omega))

/-- C92: in two dimensions with coprime bases, among any `pᵃ·qᶜ` ordinals in a row, exactly one is in
each of the cells of a grid of `pᵃ` by `qᶜ`. -/
theorem C92_grid (p q a c i j s : Nat) (hp : 2 ≤ p) (hq : 2 ≤ q) (hco : Nat.Coprime p q) (hi : i < p ^ a)
    (hj : j < q ^ c) :
    ∃! n, (s ≤ n ∧ n < s + p ^ a * q ^ c) ∧ InCell (p ^ a) i (reverseRadical n p) ∧
      InCell (q ^ c) j (reverseRadical n q) := by
  obtain ⟨r, hr⟩ := rev_onto hp a i hi
  obtain ⟨t, ht⟩ := rev_onto hq c j hj
  have hco' : Nat.Coprime (p ^ a) (q ^ c) := hco.pow a c
  obtain ⟨x, hx1, hx2⟩ := Nat.chineseRemainder hco' r t
  have e : ∀ n, (InCell (p ^ a) i (reverseRadical n p) ∧ InCell (q ^ c) j (reverseRadical n q)) ↔
      n ≡ x [MOD p ^ a * q ^ c] := by
    intro n
    rw [C92_digits n p hp, cell_iff hp, ← hr, rev_mod hp, C92_digits n q hq, cell_iff hq, ← ht, rev_mod hq,
      ← Nat.modEq_and_modEq_iff_modEq_mul hco']
    constructor
    · rintro ⟨h1, h2⟩; exact ⟨h1.trans hx1.symm, h2.trans hx2.symm⟩
    · rintro ⟨h1, h2⟩; exact ⟨h1.trans hx1, h2.trans hx2⟩
  simp only [e]
  exact window _ s x (Nat.mul_pos (Nat.pow_pos (by omega)) (Nat.pow_pos (by omega)))

/-- C92: the table has the prime numbers below 2310, in order. -/
theorem C92_primes : primes.length = 343 ∧ primes.Pairwise (· < ·) ∧
    ∀ n, n ∈ primes ↔ n.Prime ∧ n < 2310 :=
  primes_spec

/-- C92: the bases of up to 343 dimensions are the first primes in some order, so any two of them are
coprime. -/
theorem C92_bases_partial {rnd : Nat → Nat → Nat} (hr : Fair rnd) (dims : Nat) (h0 : 1 ≤ dims)
    (h1 : dims ≤ 343) : ∃ bases, construct rnd dims = .ok bases ∧ bases.Perm (primes.take dims) ∧
      (∀ b ∈ bases, b.Prime) ∧ bases.Pairwise Nat.Coprime := by
  rw [construct_eq hr dims h0 h1]
  obtain ⟨l, e, p⟩ := permute_perm hr (dims - 1) dims (primes.take dims)
    (by rw [List.length_take, C92_primes.1]; omega)
  have hprime : ∀ b ∈ l, b.Prime := by
    intro b hb
    have := List.mem_of_mem_take (p.mem_iff.mp hb)
    exact ((C92_primes.2.2 b).mp this).1
  refine ⟨l, e, p, hprime, ?_⟩
  have hn : l.Nodup := by
    rw [p.nodup_iff]
    have : primes.Nodup := C92_primes.2.1.imp (fun h => Nat.ne_of_lt h)
    exact this.sublist (List.take_sublist _ _)
  refine List.Pairwise.imp_of_mem ?_ hn
  intro a b ha hb hab
  exact (Nat.coprime_primes (hprime a ha) (hprime b hb)).mpr hab

/-- C92 fails for the choice of bases: it is not random, as the range of the choice is 0 (it has the
number of bases in the place of the number of primes); no dimension or more than 343 of them are
undefined behaviour. -/
theorem C92_bases_violated {rnd : Nat → Nat → Nat} (hr : Fair rnd) :
    construct rnd 2 = .ok [3, 2] ∧ construct rnd 0 = .ub ∧ construct rnd 344 = .ub := by
  have hr0 : ∀ k, rnd k 0 = 0 := fun k => by have := hr k 0; simp at this; exact this
  refine ⟨?_, ?_, ?_⟩
  · rw [construct_eq hr 2 (by norm_num) (by norm_num)]
    have h : primes.take 2 = [2, 3] := by decide +kernel
    rw [h]
    simp [permute, swap, hr0, Res.bind]
  · unfold construct reset
    have h : usub 0 1 = 4294967294 + 1 := by decide
    rw [h]
    generalize 4294967294 = m
    rfl
  · have key : ∀ (f i : Nat) (bases : List Nat), 344 = i + f → i ≤ 343 →
        pick rnd 344 f i i i bases = .ub := by
      intro f
      induction f with
      | zero => intro i bases h1 h2; omega
      | succ f ih =>
        intro i bases h1 h2
        unfold pick
        have hz : usub i i = 0 := by unfold usub; rw [Nat.add_sub_cancel_left]; rfl
        rw [if_neg (by omega)]
        simp only [hz, hr0, Nat.zero_add]
        by_cases hi : i = 343
        · rw [List.getElem?_eq_none (by rw [C92_primes.1]; omega)]
        · rw [List.getElem?_eq_getElem (by rw [C92_primes.1]; omega)]
          exact ih (i + 1) _ (by omega) (by omega)
    unfold construct reset
    rw [List.length_replicate]
    have hz : usub 344 344 = 0 := by decide
    rw [hz, key 344 0 _ rfl (by norm_num)]
    rfl

/-- C92: numbers for an axis are those of its base; there is no other axis. -/
theorem C92_generate (bases : List Nat) (axis i : Nat) :
    (∀ b, bases[axis]? = some b → generate bases axis i = .ok (reverseRadical i b)) ∧
    (bases.length ≤ axis → generate bases axis i = .ub) := by
  unfold generate
  constructor
  · intro b hb; rw [hb]
  · intro h; rw [List.getElem?_eq_none h]

/-- C92: the points of the table are the points after the first, moved around the unit square by the
offset; there are 1024 of them. -/
theorem C92_table {rnd : Nat → Nat → Nat} (hr : Fair rnd) (offset : ℚ) (index : Nat) (h0 : 0 ≤ offset)
    (h1 : offset < 1) :
    sample rnd offset 0 index = .ok (Int.fract (mirrored 3 (index % 1024 + 1) + offset)) ∧
    sample rnd offset 1 index = .ok (Int.fract (mirrored 2 (index % 1024 + 1) + offset)) := by
  have key : ∀ b n, 2 ≤ b → (let res := reverseRadical n b + offset; res - if res ≥ 1 then 1 else 0) =
      Int.fract (mirrored b n + offset) := by
    intro b n hb
    obtain ⟨m0, m1⟩ := mirrored_range hb n
    simp only
    rw [C92_digits n b hb]
    unfold Int.fract
    by_cases h : mirrored b n + offset ≥ 1
    · rw [if_pos h]
      have : ⌊mirrored b n + offset⌋ = 1 := by
        rw [Int.floor_eq_iff]; push_cast; constructor <;> linarith
      rw [this]; push_cast; ring
    · rw [if_neg h]
      have : ⌊mirrored b n + offset⌋ = 0 := by
        rw [Int.floor_eq_iff]; push_cast; constructor <;> linarith
      rw [this]; push_cast; ring
  unfold sample entries
  rw [(C92_bases_violated hr).1]
  constructor
  · show Res.ok _ = Res.ok _
    rw [Res.ok.injEq]
    exact key 3 _ (by norm_num)
  · show Res.ok _ = Res.ok _
    rw [Res.ok.injEq]
    exact key 2 _ (by norm_num)

/-- Non-vacuity: a fair source of random numbers, and points. -/
example : Fair (fun _ _ => 0) ∧ reverseRadical 6 2 = 3 / 8 ∧ reverseRadical 5 3 = 7 / 9 ∧
    InCell 4 1 (reverseRadical 6 2) := by
  refine ⟨fun k r => by simp, by decide +kernel, by decide +kernel, ?_⟩
  rw [show reverseRadical 6 2 = 3 / 8 by decide +kernel]
  unfold InCell
  norm_num

end Verif.Math.LowDiscrep
