import Verif.Math.Random
import Verif.Core.SamplerProps
import Mathlib.Data.Int.Log
import Mathlib.Data.Nat.Bitwise
import Mathlib.Data.Finite.Card
import Mathlib.Algebra.Order.Round
import Mathlib.Algebra.Order.Field.Power
import Mathlib.Tactic.Ring
import Mathlib.Tactic.Choose
import Mathlib.Tactic.Push
import Mathlib.Tactic.Linarith
import Mathlib.Tactic.NormNum
import Mathlib.Tactic.FieldSimp
import Mathlib.Tactic.Positivity

/-!
# C55: random numbers

The generator gives the sequence of MT19937 whatever the size of `unsigned long`; the numbers made of it are in their
ranges in spite of rounding.
-/

namespace Verif.Math.Random

open Verif.Core.Sampler (Arr put get loop loop_inv put_lt get_lt)

/-! ## Specification -/

/-- The recurrence of M. Matsumoto and T. Nishimura, "Mersenne Twister", with `(w, n, m, r) = (32, 624, 397, 31)`: the
upper bit of one word with the lower 31 bits of the next, multiplied by the matrix `A`. -/
def matrixA (u v : Nat) : Nat :=
  let y := u / 2 ^ 31 * 2 ^ 31 + v % 2 ^ 31
  (y / 2) ^^^ (if y % 2 = 1 then 0x9908b0df else 0)

/-- A sequence of 32-bit words started from a seed by Knuth's multiplier and continued by the recurrence. -/
structure MersenneTwister (seed : Nat) (x : Nat → Nat) : Prop where
  first : x 0 = seed % 2 ^ 32
  init : ∀ i, i + 1 < 624 → x (i + 1) = (1812433253 * (x i ^^^ (x i / 2 ^ 30)) + (i + 1)) % 2 ^ 32
  next : ∀ k, x (k + 624) = x (k + 397) ^^^ matrixA (x k) (x (k + 1))

/-- The tempering, on 32 bits. -/
def tempered (x : Nat) : Nat :=
  let y := x ^^^ (x / 2 ^ 11)
  let y := y ^^^ ((y * 2 ^ 7 % 2 ^ 32) &&& 0x9d2c5680)
  let y := y ^^^ ((y * 2 ^ 15 % 2 ^ 32) &&& 0xefc60000)
  y ^^^ (y / 2 ^ 18)

/-- A number with a significand of `p` bits. Exponents are not limited. -/
def Rep (p : Nat) (x : ℚ) : Prop := ∃ m e : ℤ, |m| < 2 ^ p ∧ x = m * 2 ^ e

/-- `fl` rounds to the nearest number of `p` bits, in either direction for a tie. -/
def Nearest (p : Nat) (fl : ℚ → ℚ) : Prop := ∀ x, Rep p (fl x) ∧ ∀ y, Rep p y → |x - fl x| ≤ |x - y|

/-! ## Words -/

lemma and_mask {s : Nat} : s &&& 0xffffffff = s % 2 ^ 32 := Nat.and_two_pow_sub_one_eq_mod s 32

lemma and_lower {s : Nat} : s &&& 0x7fffffff = s % 2 ^ 31 := Nat.and_two_pow_sub_one_eq_mod s 31

lemma and_upper {s : Nat} (h : s < 2 ^ 32) : s &&& 0x80000000 = s / 2 ^ 31 * 2 ^ 31 := by
  have e : (0x80000000 : Nat) = 2 ^ 31 := by norm_num
  rw [e, Nat.and_two_pow]
  congr 1
  rw [Nat.testBit_eq_decide_div_mod_eq]
  have : s / 2 ^ 31 < 2 := Nat.div_lt_of_lt_mul (by omega)
  have h2 : s / 2 ^ 31 = 0 ∨ s / 2 ^ 31 = 1 := by omega
  rcases h2 with h | h <;> rw [h] <;> rfl

lemma mod_and {a b w : Nat} (hb : b < 2 ^ w) : (a % 2 ^ w) &&& b = a &&& b := by
  apply Nat.eq_of_testBit_eq
  intro i
  rw [Nat.testBit_and, Nat.testBit_and, Nat.testBit_mod_two_pow]
  by_cases hi : i < w
  · simp [hi]
  · have : b.testBit i = false := Nat.testBit_lt_two_pow (lt_of_lt_of_le hb (Nat.pow_le_pow_right (by norm_num) (by omega)))
    simp [this]

lemma temper_eq {w : Nat} (hw : 32 ≤ w) (y : Nat) : temper w y = tempered y := by
  have hp : (2 : Nat) ^ 32 ≤ 2 ^ w := Nat.pow_le_pow_right (by norm_num) hw
  have h1 : (0x9d2c5680 : Nat) < 2 ^ 32 := by norm_num
  have h2 : (0xefc60000 : Nat) < 2 ^ 32 := by norm_num
  unfold temper tempered
  simp only [Nat.shiftRight_eq_div_pow, Nat.shiftLeft_eq]
  rw [mod_and (lt_of_lt_of_le h1 hp), mod_and (lt_of_lt_of_le h2 hp), mod_and h1, mod_and h2]

lemma mod_mod_w {w : Nat} (hw : 32 ≤ w) (a : Nat) : (a % 2 ^ w) % 2 ^ 32 = a % 2 ^ 32 :=
  Nat.mod_mod_of_dvd a (pow_dvd_pow 2 hw)

lemma twist_eq {a b c : Nat} (ha : a < 2 ^ 32) :
    c ^^^ (((a &&& 0x80000000) ||| (b &&& 0x7fffffff)) >>> 1) ^^^
      (if ((a &&& 0x80000000) ||| (b &&& 0x7fffffff)) &&& 1 = 0 then 0 else 0x9908b0df) = c ^^^ matrixA a b := by
  have e : (a &&& 0x80000000) ||| (b &&& 0x7fffffff) = a / 2 ^ 31 * 2 ^ 31 + b % 2 ^ 31 := by
    rw [and_upper ha, and_lower, Nat.mul_comm (a / 2 ^ 31)]
    exact (Nat.two_pow_add_eq_or_of_lt (Nat.mod_lt _ (by norm_num)) _).symm
  rw [e]
  unfold matrixA
  dsimp only
  rw [Nat.and_one_is_mod, Nat.shiftRight_eq_div_pow, Nat.xor_assoc]
  congr 2
  generalize a / 2 ^ 31 * 2 ^ 31 + b % 2 ^ 31 = y
  have : y % 2 = 0 ∨ y % 2 = 1 := by omega
  rcases this with h | h <;> rw [h] <;> rfl

lemma matrixA_lt {a b : Nat} (ha : a < 2 ^ 32) : matrixA a b < 2 ^ 32 := by
  unfold matrixA
  dsimp only
  apply Nat.xor_lt_two_pow
  · have h1 : a / 2 ^ 31 ≤ 1 := by
      have : a / 2 ^ 31 < 2 := Nat.div_lt_of_lt_mul (by omega)
      omega
    have h2 : b % 2 ^ 31 < 2 ^ 31 := Nat.mod_lt _ (by norm_num)
    have : a / 2 ^ 31 * 2 ^ 31 ≤ 1 * 2 ^ 31 := Nat.mul_le_mul_right _ h1
    omega
  · by_cases h : (a / 2 ^ 31 * 2 ^ 31 + b % 2 ^ 31) % 2 = 1
    · rw [if_pos h]; norm_num
    · rw [if_neg h]; norm_num

lemma MersenneTwister.lt {seed : Nat} {x : Nat → Nat} (h : MersenneTwister seed x) (k : Nat) : x k < 2 ^ 32 := by
  induction k using Nat.strong_induction_on with
  | _ k ih =>
    by_cases hk : k < 624
    · rcases k with _ | k
      · rw [h.first]; exact Nat.mod_lt _ (by norm_num)
      · rw [h.init k hk]; exact Nat.mod_lt _ (by norm_num)
    · obtain ⟨j, rfl⟩ : ∃ j, k = j + 624 := ⟨k - 624, by omega⟩
      rw [h.next j]
      exact Nat.xor_lt_two_pow (ih _ (by omega)) (matrixA_lt (ih _ (by omega)))

/-! ## The state -/

/-- The array holds 624 successive words of the sequence. -/
def Holds (x : Nat → Nat) (mt : Arr Nat) (base : Nat) : Prop := ∀ i, i < 624 → mt i = x (base + i)

lemma init_spec {w seed : Nat} (hw : 32 ≤ w) {x : Nat → Nat} (hx : MersenneTwister seed x) (st : State) :
    ∃ mt, initGenrand w seed st = some ⟨mt, N⟩ ∧ Holds x mt 0 := by
  unfold initGenrand
  rw [put_lt _ _ (by unfold N; norm_num), Option.bind_some]
  obtain ⟨mt, e, h⟩ := loop_inv (fun (mt : Arr Nat) i =>
      (get N mt i).bind fun p =>
        put N mt (i + 1) (((1812433253 * (p ^^^ (p >>> 30)) + (i + 1)) % 2 ^ w) &&& 0xffffffff))
    (fun i mt => ∀ j, j ≤ i → mt j = x j) (N - 1)
    (by
      intro i hi mt hmt
      unfold N at hi
      rw [get_lt _ (by unfold N; omega), Option.bind_some, put_lt _ _ (by unfold N; omega)]
      refine ⟨_, rfl, ?_⟩
      intro j hj
      by_cases hEq : j = i + 1
      · show (if _ then _ else _) = _
        rw [if_pos hEq, hEq, hx.init i (by omega), and_mask, mod_mod_w hw, hmt i (le_refl _), Nat.shiftRight_eq_div_pow]
      · show (if _ then _ else _) = _
        rw [if_neg hEq]; exact hmt j (by omega))
    (fun j => if j = 0 then seed &&& 0xffffffff else st.mt j) (by
      intro j hj
      have : j = 0 := by omega
      subst this
      dsimp only
      rw [if_pos rfl, hx.first, and_mask])
  rw [e, Option.bind_some]
  refine ⟨mt, rfl, ?_⟩
  intro i hi
  rw [Nat.zero_add]
  exact h i (by unfold N; omega)

lemma twist_spec {x : Nat → Nat} (mt : Arr Nat) {kk k1 m : Nat} (h1 : kk < N) (h2 : k1 < N) (h3 : m < N)
    {K : Nat} (hlt : x K < 2 ^ 32) (hn : x (K + 624) = x (K + 397) ^^^ matrixA (x K) (x (K + 1)))
    (a1 : mt kk = x K) (a2 : mt k1 = x (K + 1)) (a3 : mt m = x (K + 397)) :
    twist mt kk k1 m = some (fun j => if j = kk then x (K + 624) else mt j) := by
  unfold twist
  rw [get_lt _ h1, Option.bind_some, get_lt _ h2, Option.bind_some, get_lt _ h3, Option.bind_some]
  dsimp only
  rw [a1, a2, a3]
  rw [get_lt _ (by rw [Nat.and_one_is_mod]; omega), Option.bind_some, put_lt _ _ h1]
  rw [twist_eq hlt, hn]

lemma regenerate_spec {seed : Nat} {x : Nat → Nat} (hx : MersenneTwister seed x) (mt : Arr Nat) (base : Nat)
    (h : Holds x mt base) : ∃ mt', regenerate mt = some mt' ∧ Holds x mt' (base + 624) := by
  let I : Nat → Arr Nat → Prop := fun kk mt => ∀ i, i < 624 →
    mt i = if i < kk then x (base + 624 + i) else x (base + i)
  have step : ∀ kk, ∀ mt, I kk mt → kk < 623 → ∀ m, m < 624 → (kk < 227 ∧ m = kk + 397 ∨ 227 ≤ kk ∧ m + 227 = kk) →
      ∃ mt', twist mt kk (kk + 1) m = some mt' ∧ I (kk + 1) mt' := by
    intro kk mt hI hk m hm hc
    have a1 := hI kk (by omega)
    rw [if_neg (by omega)] at a1
    have a2 := hI (kk + 1) (by omega)
    rw [if_neg (by omega)] at a2
    have a3 : mt m = x (base + kk + 397) := by
      rw [hI m hm]
      rcases hc with ⟨q1, q2⟩ | ⟨q1, q2⟩
      · rw [if_neg (by omega)]; congr 1; omega
      · rw [if_pos (by omega)]; congr 1; omega
    refine ⟨_, twist_spec mt (by unfold N; omega) (by unfold N; omega) (by unfold N; omega) (hx.lt _) (hx.next (base + kk))
      a1 a2 a3, ?_⟩
    intro i hi
    by_cases hEq : i = kk
    · subst hEq
      show (if _ then _ else _) = _
      rw [if_pos rfl, if_pos (by omega)]; congr 1; omega
    · show (if _ then _ else _) = _
      rw [if_neg hEq, hI i hi]
      by_cases hlt : i < kk
      · rw [if_pos hlt, if_pos (by omega)]
      · rw [if_neg hlt, if_neg (by omega)]
  unfold regenerate
  obtain ⟨mt1, e1, h1⟩ := loop_inv (fun (mt : Arr Nat) kk => twist mt kk (kk + 1) (kk + M)) I (N - M)
    (fun i hi s hs => by
      unfold N M at hi
      exact step i s hs (by omega) _ (by unfold M; omega) (Or.inl ⟨by omega, rfl⟩))
    mt (by
      intro i hi
      rw [if_neg (by omega)]; exact h i hi)
  rw [e1, Option.bind_some]
  obtain ⟨mt2, e2, h2⟩ := loop_inv (fun (mt : Arr Nat) i => twist mt (N - M + i) (N - M + i + 1) i)
    (fun i mt => I (227 + i) mt) (M - 1)
    (fun i hi s hs => by
      unfold M at hi
      exact step (227 + i) s hs (by omega) i (by omega) (Or.inr ⟨by omega, by omega⟩))
    mt1 h1
  rw [e2, Option.bind_some]
  have h2' : I 623 mt2 := h2
  have a1 := h2' 623 (by norm_num)
  rw [if_neg (by omega)] at a1
  have a2 := h2' 0 (by norm_num)
  rw [if_pos (by omega)] at a2
  have a3 := h2' 396 (by norm_num)
  rw [if_pos (by omega)] at a3
  have ht := twist_spec mt2 (kk := N - 1) (k1 := 0) (m := M - 1) (by unfold N; omega) (by unfold N; omega)
    (by unfold M N; omega) (hx.lt _) (hx.next (base + 623)) a1 a2 (by rw [show M - 1 = 396 from rfl, a3])
  refine ⟨_, ht, ?_⟩
  intro i hi
  by_cases hEq : i = 623
  · subst hEq
    show (if _ then _ else _) = _
    rw [if_pos (by rfl)]
  · show (if _ then _ else _) = _
    rw [if_neg (by unfold N; omega), h2' i hi, if_pos (by omega)]

lemma genrand_spec {w seed : Nat} (hw : 32 ≤ w) {x : Nat → Nat} (hx : MersenneTwister seed x) (mt : Arr Nat)
    (base j k : Nat) (h : Holds x mt base) (hj : j ≤ 624) (hk : base + j = k + 624) :
    ∃ mt' base' j', genrand w ⟨mt, j⟩ = some (tempered (x (k + 624)), ⟨mt', j'⟩) ∧ Holds x mt' base' ∧ j' ≤ 624 ∧
      base' + j' = k + 1 + 624 := by
  unfold genrand
  by_cases hj' : N ≤ j
  · have hj'' : j = 624 := le_antisymm hj hj'
    subst hj''
    rw [if_pos hj', if_neg (by unfold N; norm_num), Option.bind_some]
    obtain ⟨mt', e, h'⟩ := regenerate_spec hx mt base h
    dsimp only
    rw [e, Option.bind_some, Option.bind_some, get_lt _ (by unfold N; norm_num), Option.bind_some]
    refine ⟨mt', base + 624, 1, ?_, h', by norm_num, by omega⟩
    dsimp only
    rw [temper_eq hw, h' 0 (by norm_num)]
    rw [show base + 624 + 0 = k + 624 by omega]
  · rw [if_neg hj', Option.bind_some]
    dsimp only
    rw [get_lt _ (by omega), Option.bind_some, temper_eq hw]
    have : j < 624 := by unfold N at hj'; omega
    refine ⟨mt, base, j + 1, ?_, h, by omega, by omega⟩
    rw [h j this, hk]

lemma nth_spec {w seed : Nat} (hw : 32 ≤ w) {x : Nat → Nat} (hx : MersenneTwister seed x) (i : Nat) :
    ∀ (mt : Arr Nat) (base j k : Nat), Holds x mt base → j ≤ 624 → base + j = k + 624 →
      nth w i ⟨mt, j⟩ = some (tempered (x (k + i + 624))) := by
  induction i with
  | zero =>
    intro mt base j k h hj hk
    obtain ⟨mt', base', j', e, -⟩ := genrand_spec hw hx mt base j k h hj hk
    unfold nth
    rw [e, Option.bind_some]
  | succ i ih =>
    intro mt base j k h hj hk
    obtain ⟨mt', base', j', e, h1, h2, h3⟩ := genrand_spec hw hx mt base j k h hj hk
    unfold nth
    rw [e, Option.bind_some]
    dsimp only
    rw [ih mt' base' j' (k + 1) h1 h2 h3]
    congr 3
    omega

/-! ## The theorems -/

/-- After `Reseed( seed )`, in whatever state before, the outputs are those of MT19937 for the seed, for `unsigned long`
of 32 bits or more. -/
theorem C55_reseed (w : Nat) (hw : 32 ≤ w) (seed : Nat) (x : Nat → Nat) (hx : MersenneTwister seed x) (st : State) :
    ∃ st', reseed w seed st = some st' ∧ ∀ k, nth w k st' = some (tempered (x (k + 624))) := by
  obtain ⟨mt, e, h⟩ := init_spec hw hx st
  refine ⟨⟨mt, N⟩, e, ?_⟩
  intro k
  rw [nth_spec hw hx k mt 0 N 0 h (le_refl _) (by unfold N; norm_num), Nat.zero_add]

/-- Without a call of `Reseed` the seed is 5489, and nothing is read before it is set. -/
theorem C55_start (w : Nat) (hw : 32 ≤ w) (x : Nat → Nat) (hx : MersenneTwister 5489 x) (mt : Arr Nat) (k : Nat) :
    nth w k ⟨mt, N + 1⟩ = some (tempered (x (k + 624))) := by
  obtain ⟨mt1, e1, h1⟩ := init_spec hw hx ⟨mt, N + 1⟩
  have hg : genrand w ⟨mt, N + 1⟩ = genrand w ⟨mt1, N⟩ := by
    unfold genrand
    dsimp only
    rw [if_pos (by omega), if_pos (le_refl _), if_pos rfl, e1, if_neg (by unfold N; norm_num)]
  have hn : nth w k ⟨mt, N + 1⟩ = nth w k ⟨mt1, N⟩ := by
    cases k <;> (unfold nth; rw [hg])
  rw [hn, nth_spec hw hx k mt1 0 N 0 h1 (le_refl _) (by unfold N; norm_num), Nat.zero_add]

/-- The sequence of the recurrence. -/
def sequence (seed : Nat) : Nat → Nat
  | 0 => seed % 2 ^ 32
  | i + 1 =>
    if i + 1 < 624 then (1812433253 * (sequence seed i ^^^ (sequence seed i / 2 ^ 30)) + (i + 1)) % 2 ^ 32
    else if _h : 624 ≤ i + 1 then
      sequence seed (i + 1 - 227) ^^^ matrixA (sequence seed (i + 1 - 624)) (sequence seed (i + 1 - 623))
    else 0
termination_by i => i
decreasing_by all_goals omega

/-- There is such a sequence for every seed. -/
theorem C55_sequence (seed : Nat) : MersenneTwister seed (sequence seed) := by
  constructor
  · rw [sequence]
  · intro i hi
    rw [sequence, if_pos hi]
  · intro k
    have e := sequence.eq_2 seed (k + 623)
    rw [if_neg (by omega), dif_pos (by omega)] at e
    rw [show k + 623 + 1 - 227 = k + 397 by omega, show k + 623 + 1 - 624 = k by omega,
      show k + 623 + 1 - 623 = k + 1 by omega] at e
    exact e

/-- The initial words of the sequence computed in a row. -/
def initWord (seed : Nat) : Nat → Nat
  | 0 => seed % 2 ^ 32
  | i + 1 => (fun p => (1812433253 * (p ^^^ (p / 2 ^ 30)) + (i + 1)) % 2 ^ 32) (initWord seed i)

lemma initWord_eq (seed i : Nat) (hi : i < 624) : sequence seed i = initWord seed i := by
  induction i with
  | zero => exact (C55_sequence seed).first
  | succ i ih => rw [(C55_sequence seed).init i hi, ih (by omega)]; rfl

/-- The first output for the default seed is the published one, 3499211612. -/
example : nth 64 0 start = some 3499211612 := by
  have h := C55_start 64 (by norm_num) _ (C55_sequence 5489) start.mt 0
  refine h.trans ?_
  rw [Nat.zero_add, (C55_sequence 5489).next 0]
  rw [initWord_eq _ _ (by norm_num), initWord_eq _ _ (by norm_num), initWord_eq _ _ (by norm_num)]
  decide +kernel

/-- "Regardless which frame the user renders it will be able to recreate it": the outputs after `Reseed` depend only on
the seed, and not on the size of `unsigned long`. -/
theorem C55_reproducible (w w' : Nat) (hw : 32 ≤ w) (hw' : 32 ≤ w') (seed : Nat) (st st' : State) (k : Nat) :
    (reseed w seed st).bind (nth w k) = (reseed w' seed st').bind (nth w' k) := by
  obtain ⟨s, e, h⟩ := C55_reseed w hw seed _ (C55_sequence seed) st
  obtain ⟨s', e', h'⟩ := C55_reseed w' hw' seed _ (C55_sequence seed) st'
  rw [e, e', Option.bind_some, Option.bind_some, h, h']

lemma xor_cancel_shiftRight {a b n : Nat} (hn : 0 < n) (h : a ^^^ (a / 2 ^ n) = b ^^^ (b / 2 ^ n)) : a = b := by
  have hd : a ^^^ b = (a ^^^ b) / 2 ^ n := by
    rw [← Nat.shiftRight_eq_div_pow, Nat.shiftRight_xor_distrib, Nat.shiftRight_eq_div_pow, Nat.shiftRight_eq_div_pow]
    have h1 : a ^^^ b = (a ^^^ (a / 2 ^ n)) ^^^ (b ^^^ (b / 2 ^ n)) ^^^ ((a / 2 ^ n) ^^^ (b / 2 ^ n)) := by
      apply Nat.eq_of_testBit_eq
      intro i
      simp only [Nat.testBit_xor]
      cases a.testBit i <;> cases b.testBit i <;> cases (a / 2 ^ n).testBit i <;> cases (b / 2 ^ n).testBit i <;> rfl
    rw [h1, h, Nat.xor_self, Nat.zero_xor]
  by_contra hne
  have hpos : 0 < a ^^^ b := Nat.pos_of_ne_zero (fun h0 => hne (Nat.xor_eq_zero_iff.mp h0))
  have : (a ^^^ b) / 2 ^ n < a ^^^ b := Nat.div_lt_self hpos (Nat.one_lt_two_pow (by omega))
  omega

lemma xor_cancel_shiftLeft {a b n c : Nat} (hn : 0 < n)
    (h : a ^^^ ((a * 2 ^ n % 2 ^ 32) &&& c) = b ^^^ ((b * 2 ^ n % 2 ^ 32) &&& c)) : a = b := by
  apply Nat.eq_of_testBit_eq
  intro i
  induction i using Nat.strong_induction_on with
  | _ i ih =>
    have h1 : ∀ a : Nat, (a ^^^ ((a * 2 ^ n % 2 ^ 32) &&& c)).testBit i =
        (a.testBit i ^^ (decide (i < 32) && (decide (n ≤ i) && a.testBit (i - n)) && c.testBit i)) := by
      intro a
      rw [Nat.testBit_xor, Nat.testBit_and, Nat.testBit_mod_two_pow, ← Nat.shiftLeft_eq, Nat.testBit_shiftLeft]
    have h2 := congrArg (fun v : Nat => v.testBit i) h
    rw [h1, h1] at h2
    by_cases hi : n ≤ i
    · rw [ih (i - n) (by omega)] at h2
      revert h2
      generalize (decide (i < 32) && (decide (n ≤ i) && b.testBit (i - n)) && c.testBit i) = z
      cases a.testBit i <;> cases b.testBit i <;> cases z <;> simp
    · simpa [hi] using h2

lemma tempered_inj {a b : Nat} (h : tempered a = tempered b) : a = b := by
  unfold tempered at h
  dsimp only at h
  have h1 := xor_cancel_shiftRight (by norm_num) h
  have h2 := xor_cancel_shiftLeft (by norm_num) h1
  have h3 := xor_cancel_shiftLeft (by norm_num) h2
  exact xor_cancel_shiftRight (by norm_num) h3

lemma tempered_lt {a : Nat} (h : a < 2 ^ 32) : tempered a < 2 ^ 32 := by
  have hdiv : ∀ (a n : Nat), a < 2 ^ 32 → a / 2 ^ n < 2 ^ 32 := fun a n h => lt_of_le_of_lt (Nat.div_le_self _ _) h
  have hand : ∀ (a c : Nat), (a % 2 ^ 32) &&& c < 2 ^ 32 := fun a c =>
    lt_of_le_of_lt Nat.and_le_left (Nat.mod_lt _ (by norm_num))
  unfold tempered
  dsimp only
  have h1 := Nat.xor_lt_two_pow h (hdiv a 11 h)
  have h2 := Nat.xor_lt_two_pow h1 (hand ((a ^^^ a / 2 ^ 11) * 2 ^ 7) 0x9d2c5680)
  have h3 := Nat.xor_lt_two_pow h2 (hand (((a ^^^ a / 2 ^ 11) ^^^ ((a ^^^ a / 2 ^ 11) * 2 ^ 7 % 2 ^ 32 &&& 0x9d2c5680)) * 2 ^ 15)
    0xefc60000)
  exact Nat.xor_lt_two_pow h3 (hdiv _ 18 h3)

/-- "Get a random integer in the range (0 <= value < 2^32)". -/
theorem C55_range (w : Nat) (hw : 32 ≤ w) (seed k : Nat) (st : State) :
    ∃ u, (reseed w seed st).bind (nth w k) = some u ∧ u < 2 ^ 32 := by
  obtain ⟨s, e, h⟩ := C55_reseed w hw seed _ (C55_sequence seed) st
  rw [e, Option.bind_some]
  exact ⟨_, h k, tempered_lt ((C55_sequence seed).lt _)⟩

/-- Tempering loses nothing: every 32-bit number is the output for exactly one word of the state. -/
theorem C55_tempering (w : Nat) (hw : 32 ≤ w) (v : Nat) (hv : v < 2 ^ 32) : ∃! y, y < 2 ^ 32 ∧ temper w y = v := by
  let f : Fin (2 ^ 32) → Fin (2 ^ 32) := fun a => ⟨tempered a.1, tempered_lt a.2⟩
  have hinj : Function.Injective f := by
    intro a b hab
    have : tempered a.1 = tempered b.1 := congrArg Fin.val hab
    exact Fin.ext (tempered_inj this)
  obtain ⟨a, ha⟩ := Finite.surjective_of_injective hinj ⟨v, hv⟩
  refine ⟨a.1, ⟨a.2, ?_⟩, ?_⟩
  · rw [temper_eq hw]; exact congrArg Fin.val ha
  · rintro y ⟨hy, he⟩
    rw [temper_eq hw] at he
    exact tempered_inj (he.trans (congrArg Fin.val ha).symm)

example : ∃! y, y < 2 ^ 32 ∧ temper 64 y = 0xffffffff := C55_tempering 64 (by norm_num) _ (by norm_num)

/-- A seed given to the constructor has no effect: all generators continue one sequence. (The parameter has no
documentation; the reader of `CqRandom random( 42 )`, libs/core/multijitter.cpp:85, expects otherwise.) -/
theorem C55_constructor (w a b : Nat) (st : State) (k : Nat) :
    nth w k (construct a st) = nth w k (construct b st) := rfl

/-! ## Rounding -/

lemma Nearest.le {p : Nat} {fl : ℚ → ℚ} (h : Nearest p fl) {x y : ℚ} (hy : Rep p y) (hxy : x ≤ y) : fl x ≤ y := by
  by_contra hc
  push Not at hc
  have h1 := (h x).2 y hy
  rw [abs_of_nonpos (by linarith), abs_of_nonpos (by linarith)] at h1
  linarith

lemma Nearest.ge {p : Nat} {fl : ℚ → ℚ} (h : Nearest p fl) {x y : ℚ} (hy : Rep p y) (hxy : y ≤ x) : y ≤ fl x := by
  by_contra hc
  push Not at hc
  have h1 := (h x).2 y hy
  rw [abs_of_nonneg (by linarith), abs_of_nonneg (by linarith)] at h1
  linarith

lemma rep_zero (p : Nat) : Rep p 0 := ⟨0, 0, by positivity, by simp⟩

lemma rep_lt_one {x : ℚ} (h : Rep 24 x) (hx : x < 1) : x ≤ 1 - 1 / 2 ^ 24 := by
  obtain ⟨m, e, hm, rfl⟩ := h
  have hm' : m < 2 ^ 24 := lt_of_le_of_lt (le_abs_self m) (by exact_mod_cast hm)
  have h2 : (0 : ℚ) < 2 ^ e := by positivity
  by_cases hm0 : m ≤ 0
  · have : (m : ℚ) ≤ 0 := by exact_mod_cast hm0
    have := mul_nonpos_of_nonpos_of_nonneg this h2.le
    norm_num; linarith
  push Not at hm0
  by_cases he : 0 ≤ e
  · exfalso
    have h1 : (1 : ℚ) ≤ 2 ^ e := one_le_zpow₀ (by norm_num) he
    have h3 : (1 : ℚ) ≤ m := by exact_mod_cast hm0
    nlinarith
  · push Not at he
    obtain ⟨n, rfl⟩ : ∃ n : Nat, e = -(n : ℤ) := ⟨e.natAbs, by omega⟩
    rw [zpow_neg, zpow_natCast] at hx h2 ⊢
    have hn2 : (0 : ℚ) < 2 ^ n := by positivity
    rw [← div_eq_mul_inv] at hx ⊢
    rw [div_lt_one hn2] at hx
    have hmn : m < 2 ^ n := by exact_mod_cast hx
    by_cases hn : n ≤ 24
    · have h4 : (m : ℚ) ≤ 2 ^ n - 1 := by
        have : m ≤ 2 ^ n - 1 := by omega
        exact_mod_cast this
      have h5 : (2 : ℚ) ^ n ≤ 2 ^ 24 := pow_le_pow_right₀ (by norm_num) hn
      have h6 : (1 : ℚ) / 2 ^ 24 ≤ 1 / 2 ^ n := one_div_le_one_div_of_le hn2 h5
      have h7 : (m : ℚ) / 2 ^ n ≤ (2 ^ n - 1) / 2 ^ n := div_le_div_of_nonneg_right h4 hn2.le
      have h8 : ((2 : ℚ) ^ n - 1) / 2 ^ n = 1 - 1 / 2 ^ n := by field_simp
      linarith
    · have h5 : (2 : ℚ) ^ 25 ≤ 2 ^ n := pow_le_pow_right₀ (by norm_num) (by omega)
      rw [div_le_iff₀ hn2]
      have h4 : (m : ℚ) ≤ 2 ^ 24 := by exact_mod_cast hm'.le
      norm_num at h4 h5 ⊢
      linarith

lemma rep_normal {x : ℚ} (h : Rep 24 x) (hx : 0 < x) : ∃ (m e : ℤ), 2 ^ 23 ≤ m ∧ m < 2 ^ 24 ∧ x = m * 2 ^ e := by
  obtain ⟨m, e, hm, rfl⟩ := h
  have h2 : (0 : ℚ) < 2 ^ e := by positivity
  have hm0 : 0 < m := by
    have := pos_of_mul_pos_left hx h2.le
    exact_mod_cast this
  obtain ⟨k, rfl⟩ := Int.eq_ofNat_of_zero_le hm0.le
  have hk0 : k ≠ 0 := by omega
  have hk : k < 2 ^ 24 := by
    have : |((k : Nat) : ℤ)| = k := abs_of_nonneg (by omega)
    rw [this] at hm
    exact_mod_cast hm
  have l1 := Nat.pow_log_le_self 2 hk0
  have l2 := Nat.lt_pow_succ_log_self (b := 2) (by norm_num) k
  have l3 : Nat.log 2 k < 24 := Nat.log_lt_of_lt_pow hk0 hk
  generalize Nat.log 2 k = l at *
  refine ⟨((k * 2 ^ (23 - l) : Nat) : ℤ), e - (23 - l : Nat), ?_, ?_, ?_⟩
  · have : 2 ^ l * 2 ^ (23 - l) ≤ k * 2 ^ (23 - l) := Nat.mul_le_mul_right _ l1
    rw [← pow_add, show l + (23 - l) = 23 by omega] at this
    exact_mod_cast this
  · have : k * 2 ^ (23 - l) < 2 ^ (l + 1) * 2 ^ (23 - l) := Nat.mul_lt_mul_of_pos_right l2 (by positivity)
    rw [← pow_add, show l + 1 + (23 - l) = 24 by omega] at this
    exact_mod_cast this
  · rw [zpow_sub₀ (by norm_num), zpow_natCast]
    push_cast
    field_simp

/-- "Get a random float (0.0 <= value < 1.0)": for all 2^32 outputs of the generator, with every rounding to nearest. -/
theorem C55_float {fl24 fl53 : ℚ → ℚ} (h24 : Nearest 24 fl24) (h53 : Nearest 53 fl53) (u : Nat) (hu : u < 2 ^ 32) :
    0 ≤ randomFloat fl24 fl53 u ∧ randomFloat fl24 fl53 u < 1 := by
  unfold randomFloat
  have c0 : 0 ≤ fl53 (1 / 4294967424) := h53.ge (rep_zero _) (by norm_num)
  have c1 : fl53 (1 / 4294967424) ≤ 9007198986305544 * 2 ^ (-85 : ℤ) :=
    h53.le ⟨9007198986305544, -85, by norm_num, by norm_num⟩ (by norm_num)
  have u0 : (0 : ℚ) ≤ u := Nat.cast_nonneg _
  have u1 : (u : ℚ) ≤ 4294967295 := by
    have : u ≤ 4294967295 := by omega
    exact_mod_cast this
  have d1 : (u : ℚ) * fl53 (1 / 4294967424) ≤ 9007198984208393 * 2 ^ (-53 : ℤ) := by
    have := mul_le_mul u1 c1 c0 (by norm_num)
    refine le_trans this ?_
    norm_num
  have e1 : fl53 ((u : ℚ) * fl53 (1 / 4294967424)) ≤ 9007198984208393 * 2 ^ (-53 : ℤ) :=
    h53.le ⟨9007198984208393, -53, by norm_num, by norm_num⟩ d1
  have e0 : 0 ≤ fl53 ((u : ℚ) * fl53 (1 / 4294967424)) := h53.ge (rep_zero _) (mul_nonneg u0 c0)
  generalize fl53 ((u : ℚ) * fl53 (1 / 4294967424)) = d at *
  refine ⟨h24.ge (rep_zero _) e0, ?_⟩
  have hy := (h24 d).2 (16777215 * 2 ^ (-24 : ℤ)) ⟨16777215, -24, by norm_num, by norm_num⟩
  by_contra hc
  push Not at hc
  have hd1 : d < 1 - 1 / 2 ^ 25 := lt_of_le_of_lt e1 (by norm_num)
  rw [abs_of_nonpos (by norm_num at hd1 ⊢; linarith)] at hy
  rcases abs_cases (d - 16777215 * 2 ^ (-24 : ℤ)) with ⟨q, -⟩ | ⟨q, q'⟩
  · rw [q] at hy; norm_num at hy hd1; linarith
  · rw [q] at hy; norm_num at hy hd1 q'; linarith

/-- "If we just divide by 2^32 in double precision and truncate to a float then sometimes the float will get rounded up
to 1": the reason for the constant. -/
theorem C55_divisor {fl24 fl53 : ℚ → ℚ} (h24 : Nearest 24 fl24) (h53 : Nearest 53 fl53) :
    fl24 (fl53 ((4294967295 : ℚ) * fl53 (1 / 4294967296))) = 1 := by
  have hr : ∀ (x : ℚ), Rep 53 x → fl53 x = x := fun x hx => le_antisymm (h53.le hx (le_refl _)) (h53.ge hx (le_refl _))
  rw [hr (1 / 4294967296) ⟨1, -32, by norm_num, by norm_num⟩,
    hr (4294967295 * (1 / 4294967296)) ⟨4294967295, -32, by norm_num, by norm_num⟩]
  have h1 : fl24 (4294967295 * (1 / 4294967296)) ≤ 1 := h24.le ⟨1, 0, by norm_num, by norm_num⟩ (by norm_num)
  have hy := (h24 (4294967295 * (1 / 4294967296))).2 1 ⟨1, 0, by norm_num, by norm_num⟩
  obtain ⟨⟨m, e, hm, he⟩, -⟩ := h24 (4294967295 * (1 / 4294967296))
  have hlow : 1 - 2 / 4294967296 ≤ fl24 (4294967295 * (1 / 4294967296)) := by
    have a2 : |(4294967295 : ℚ) * (1 / 4294967296) - 1| = 1 / 4294967296 := by norm_num
    rw [a2] at hy
    have := (abs_le.mp hy).2
    norm_num at this ⊢
    linarith
  by_contra hne
  have hlt : fl24 (4294967295 * (1 / 4294967296)) < 1 := lt_of_le_of_ne h1 hne
  have := rep_lt_one ⟨m, e, hm, he⟩ hlt
  norm_num at this hlow
  linarith

/-- "Get a random float in the specified range (0 <= value < Range)", for every `float` above 0. -/
theorem C55_float_range {fl24 fl53 : ℚ → ℚ} (h24 : Nearest 24 fl24) (h53 : Nearest 53 fl53) (range : ℚ)
    (hrep : Rep 24 range) (hpos : 0 < range) (u : Nat) (hu : u < 2 ^ 32) :
    0 ≤ randomFloatRange fl24 fl53 range u ∧ randomFloatRange fl24 fl53 range u < range := by
  obtain ⟨r0, r1⟩ := C55_float h24 h53 u hu
  unfold randomFloatRange
  have hr : Rep 24 (randomFloat fl24 fl53 u) := (h24 _).1
  generalize randomFloat fl24 fl53 u = r at *
  refine ⟨h24.ge (rep_zero _) (mul_nonneg hpos.le r0), ?_⟩
  have r2 := rep_lt_one hr r1
  obtain ⟨m, e, hm1, hm2, rfl⟩ := rep_normal hrep hpos
  have h2 : (0 : ℚ) < 2 ^ e := by positivity
  have q1 : (2 : ℚ) ^ 23 ≤ m := by exact_mod_cast hm1
  have q2 : (m : ℚ) < 2 ^ 24 := by exact_mod_cast hm2
  generalize hX : (m : ℚ) * 2 ^ e * r = X
  have hgap : (m : ℚ) * 2 ^ e / 2 ^ 24 ≤ m * 2 ^ e - X := by
    have := mul_le_mul_of_nonneg_left r2 hpos.le
    rw [← hX]
    norm_num at this ⊢
    linarith
  by_cases hEq : m = 2 ^ 23
  · have hy : Rep 24 ((16777215 : ℤ) * 2 ^ (e - 1)) := ⟨16777215, e - 1, by norm_num, rfl⟩
    have hval : ((16777215 : ℤ) : ℚ) * 2 ^ (e - 1) = m * 2 ^ e - 2 ^ e / 2 := by
      rw [zpow_sub₀ (by norm_num), hEq]; norm_num; ring
    have : X ≤ (16777215 : ℤ) * 2 ^ (e - 1) := by
      rw [hval]
      rw [hEq] at hgap ⊢
      norm_num at hgap ⊢
      linarith
    have := h24.le hy this
    rw [hval] at this
    linarith
  · have hm1' : 2 ^ 23 + 1 ≤ m := by omega
    have q1' : (2 : ℚ) ^ 23 + 1 ≤ m := by exact_mod_cast hm1'
    have hy : Rep 24 (((m - 1 : ℤ) : ℚ) * 2 ^ e) := ⟨m - 1, e, by rw [abs_of_nonneg (by omega)]; omega, rfl⟩
    have hval : ((m - 1 : ℤ) : ℚ) * 2 ^ e = m * 2 ^ e - 2 ^ e := by push_cast; ring
    rw [hval] at hy
    by_cases hle : X ≤ m * 2 ^ e - 2 ^ e
    · have := h24.le hy hle
      linarith
    · push Not at hle
      have hn := (h24 X).2 _ hy
      by_contra hc
      push Not at hc
      have hXlt : X < m * 2 ^ e := by
        have : 0 < (m : ℚ) * 2 ^ e / 2 ^ 24 := by positivity
        linarith
      rw [abs_of_nonpos (by linarith), abs_of_nonneg (by linarith)] at hn
      have hhalf : (2 : ℚ) ^ e / 2 < m * 2 ^ e / 2 ^ 24 := by
        rw [lt_div_iff₀ (by norm_num)]
        have := mul_lt_mul_of_pos_right (show (2 : ℚ) ^ 23 < m by linarith) h2
        norm_num at this ⊢
        linarith
      linarith

/-- "Get a random integer in the specified range (0 <= value < Range)", for every range of an unsigned integer above 0,
although not all of these are `float`s. -/
theorem C55_int_range {fl24 fl53 : ℚ → ℚ} (h24 : Nearest 24 fl24) (h53 : Nearest 53 fl53) (range : Nat)
    (hpos : 0 < range) (u : Nat) (hu : u < 2 ^ 32) :
    0 ≤ randomIntRange fl24 fl53 range u ∧ randomIntRange fl24 fl53 range u < range := by
  have hq : (1 : ℚ) ≤ range := by exact_mod_cast hpos
  have hone : (1 : ℚ) ≤ fl24 range := h24.ge ⟨1, 0, by norm_num, by norm_num⟩ hq
  obtain ⟨a, b⟩ := C55_float_range h24 h53 (fl24 range) (h24 _).1 (by linarith) u hu
  have hrep : Rep 24 (randomFloatRange fl24 fl53 (fl24 range) u) := (h24 _).1
  unfold randomIntRange
  generalize randomFloatRange fl24 fl53 (fl24 range) u = f at *
  refine ⟨Int.floor_nonneg.mpr a, ?_⟩
  rw [Int.floor_lt]
  push_cast
  by_contra hc
  push Not at hc
  have hn := (h24 range).2 f hrep
  rw [abs_of_nonpos (by linarith), abs_of_nonpos (by linarith)] at hn
  linarith

/-- So the assumption of C54 on the random numbers holds: the pixel samplers may be fed with this generator. -/
theorem C55_feeds_sampler {fl24 fl53 : ℚ → ℚ} (h24 : Nearest 24 fl24) (h53 : Nearest 53 fl53) (w : Nat) (hw : 32 ≤ w)
    (seed : Nat) (st : State) : ∃ u : Nat → Nat, (∀ k, (reseed w seed st).bind (nth w k) = some (u k)) ∧
      ∀ xs ys, 0 < xs → 0 < ys → ∃ T,
        Verif.Core.Sampler.jittered (fun k => randomFloat fl24 fl53 (u k)) xs ys 0 = some T ∧
        Verif.Core.Sampler.GoodTables xs ys T := by
  have h := fun k => C55_range w hw seed k st
  choose u hu hlt using h
  exact ⟨u, hu, fun xs ys hx hy => Verif.Core.Sampler.C54_jittered _ (fun k => C55_float h24 h53 _ (hlt k)) xs ys hx hy 0⟩

/-- There are roundings to nearest, of every precision: the theorems above are not about nothing. -/
theorem C55_rounding (p : Nat) (hp : 0 < p) : ∃ fl : ℚ → ℚ, Nearest p fl := by
  have key : ∀ x : ℚ, ∃ z, Rep p z ∧ ∀ y, Rep p y → |x - z| ≤ |x - y| := by
    intro x
    by_cases hx : x = 0
    · exact ⟨0, rep_zero p, fun y _ => by rw [hx]; simp⟩
    have hx' : 0 < |x| := abs_pos.mpr hx
    set l := Int.log 2 |x| with hl
    have l1 : (2 : ℚ) ^ l ≤ |x| := by exact_mod_cast Int.zpow_log_le_self (b := 2) (by norm_num) hx'
    have l2 : |x| < (2 : ℚ) ^ (l + 1) := by exact_mod_cast Int.lt_zpow_succ_log_self (b := 2) (by norm_num) |x|
    set e : ℤ := l - p + 1 with he
    have he0 : (0 : ℚ) < 2 ^ e := by positivity
    have hround : ∀ n : ℤ, |x - round (x / 2 ^ e) * 2 ^ e| ≤ |x - n * 2 ^ e| := by
      intro n
      have h1 := round_le (x / 2 ^ e) n
      have h2 : ∀ n : ℤ, |x - n * 2 ^ e| = |x / 2 ^ e - n| * 2 ^ e := by
        intro n
        rw [← abs_of_pos he0, ← abs_mul, abs_of_pos he0, sub_mul, div_mul_cancel₀ _ he0.ne']
      rw [h2, h2]
      exact mul_le_mul_of_nonneg_right h1 he0.le
    have hpe : (2 : ℚ) ^ (l + 1) = 2 ^ p * 2 ^ e := by
      rw [← zpow_natCast, ← zpow_add₀ (by norm_num)]; congr 1; omega
    have hpl : (2 : ℚ) ^ l = 2 ^ (p - 1) * 2 ^ e := by
      rw [← zpow_natCast, ← zpow_add₀ (by norm_num)]; congr 1; omega
    refine ⟨round (x / 2 ^ e) * 2 ^ e, ?_, ?_⟩
    · have hle : |round (x / 2 ^ e)| ≤ 2 ^ p := by
        have h1 : |x / 2 ^ e| < 2 ^ p := by
          rw [abs_div, abs_of_pos he0, div_lt_iff₀ he0, ← hpe]; exact l2
        have h3 := abs_sub_round (x / 2 ^ e)
        have h4 : |(round (x / 2 ^ e) : ℚ)| < 2 ^ p + 1 := by
          have := abs_sub_abs_le_abs_sub (round (x / 2 ^ e) : ℚ) (x / 2 ^ e)
          rw [abs_sub_comm] at this
          linarith
        have h5 : |round (x / 2 ^ e)| < 2 ^ p + 1 := by exact_mod_cast h4
        omega
      rcases lt_or_eq_of_le hle with h | h
      · exact ⟨_, e, h, rfl⟩
      · rcases abs_eq (by positivity) |>.mp h with h' | h'
        · refine ⟨1, l + 1, by rw [abs_one]; exact_mod_cast Nat.one_lt_two_pow (by omega), ?_⟩
          rw [h', hpe]; push_cast; ring
        · refine ⟨-1, l + 1, by rw [abs_neg, abs_one]; exact_mod_cast Nat.one_lt_two_pow (by omega), ?_⟩
          rw [h', hpe]; push_cast; ring
    · rintro y ⟨m, f, hm, rfl⟩
      by_cases hf : e ≤ f
      · have := hround (m * 2 ^ (f - e).toNat)
        have hEq : (((m * 2 ^ (f - e).toNat : ℤ)) : ℚ) * 2 ^ e = m * 2 ^ f := by
          push_cast
          rw [mul_assoc, ← zpow_natCast, ← zpow_add₀ (by norm_num)]
          congr 2
          omega
        rwa [hEq] at this
      · push Not at hf
        have hy : |(m : ℚ) * 2 ^ f| < 2 ^ l := by
          rw [abs_mul, abs_of_pos (show (0 : ℚ) < 2 ^ f by positivity), hpl]
          have hm' : |(m : ℚ)| < 2 ^ p := by exact_mod_cast hm
          have h6 : (2 : ℚ) ^ f ≤ 2 ^ (e - 1) := zpow_le_zpow_right₀ (by norm_num) (by omega)
          have h7 : (2 : ℚ) ^ p * 2 ^ (e - 1) = 2 ^ (p - 1) * 2 ^ e := by
            rw [← zpow_natCast, ← zpow_natCast, ← zpow_add₀ (by norm_num), ← zpow_add₀ (by norm_num)]; congr 1; omega
          rw [← h7]
          exact mul_lt_mul hm' h6 (by positivity) (by positivity)
        rcases lt_or_gt_of_ne hx with hneg | hpos
        · refine le_trans (hround (-2 ^ (p - 1))) ?_
          rw [abs_of_neg hneg] at l1
          have := (abs_lt.mp hy).1
          push_cast
          rw [neg_mul, ← hpl, abs_of_nonpos (by linarith), abs_of_nonpos (by linarith)]
          linarith
        · refine le_trans (hround (2 ^ (p - 1))) ?_
          rw [abs_of_pos hpos] at l1
          have := (abs_lt.mp hy).2
          push_cast
          rw [← hpl, abs_of_nonneg (by linarith), abs_of_nonneg (by linarith)]
          linarith
  choose fl h1 h2 using key
  exact ⟨fl, fun x => ⟨h1 x, h2 x⟩⟩

end Verif.Math.Random
