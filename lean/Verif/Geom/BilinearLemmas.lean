import Verif.Geom.Bilinear
import Mathlib.Tactic.Linarith
import Mathlib.Tactic.Ring
import Mathlib.Tactic.NormNum
import Mathlib.Tactic.SplitIfs
import Mathlib.Algebra.Order.Floor.Ring
import Mathlib.Tactic.FieldSimp
import Mathlib.Tactic.LinearCombination
import Mathlib.Tactic.Positivity

/-! # Lemmas about bilinear patches -/

namespace Verif.Geom.Bilinear

variable {K : Type} [Field K] [LinearOrder K] [IsStrictOrderedRing K]

/-- Specification: the value of a patch at a parameter point. -/
def Quad.at (q : Quad K) (s t : K) : K := (1 - s) * (1 - t) * q.a + s * (1 - t) * q.b + (1 - s) * t * q.c + s * t * q.d

/-- Specification: the part of the parameter square that is surface. -/
def Region (phantom : Bool) (s t : K) : Prop := 0 ≤ s ∧ s ≤ 1 ∧ 0 ≤ t ∧ t ≤ 1 ∧ (phantom = true → s + t ≤ 1)

/-- Specification: its interior. -/
def Interior (phantom : Bool) (s t : K) : Prop := 0 < s ∧ s < 1 ∧ 0 < t ∧ t < 1 ∧ (phantom = true → s + t < 1)

theorem split_u (q : Quad K) (s t : K) :
    (q.split true).1.at s t = q.at (s / 2) t ∧ (q.split true).2.at s t = q.at ((1 + s) / 2) t := by
  simp only [Quad.split, if_true, Quad.at]
  constructor <;> ring

theorem split_v (q : Quad K) (s t : K) :
    (q.split false).1.at s t = q.at s (t / 2) ∧ (q.split false).2.at s t = q.at s ((1 + t) / 2) := by
  simp only [Quad.split, Bool.false_eq_true, if_false, Quad.at]
  constructor <;> ring

/-! ## Bounds -/

omit [IsStrictOrderedRing K] in
theorem bound_fold (l : List K) : ∀ r : K × K,
    (l.foldl (fun r v => (if v < r.1 then v else r.1, if r.2 < v then v else r.2)) r).1 ≤ r.1 ∧
    r.2 ≤ (l.foldl (fun r v => (if v < r.1 then v else r.1, if r.2 < v then v else r.2)) r).2 ∧
    ∀ v ∈ l, (l.foldl (fun r v => (if v < r.1 then v else r.1, if r.2 < v then v else r.2)) r).1 ≤ v ∧
      v ≤ (l.foldl (fun r v => (if v < r.1 then v else r.1, if r.2 < v then v else r.2)) r).2 := by
  induction l with
  | nil => intro r; exact ⟨le_refl _, le_refl _, fun v hv => absurd hv List.not_mem_nil⟩
  | cons w l ih =>
    intro r
    rw [List.foldl_cons]
    obtain ⟨h1, h2, h3⟩ := ih (if w < r.1 then w else r.1, if r.2 < w then w else r.2)
    have a1 : (if w < r.1 then w else r.1) ≤ r.1 := by split_ifs with h; exacts [h.le, le_refl _]
    have a2 : (if w < r.1 then w else r.1) ≤ w := by split_ifs with h; exacts [le_refl _, not_lt.1 h]
    have a3 : r.2 ≤ (if r.2 < w then w else r.2) := by split_ifs with h; exacts [h.le, le_refl _]
    have a4 : w ≤ (if r.2 < w then w else r.2) := by split_ifs with h; exacts [le_refl _, not_lt.1 h]
    refine ⟨h1.trans a1, a3.trans h2, ?_⟩
    intro v hv
    rcases List.mem_cons.1 hv with e | hv
    · rw [e]; exact ⟨h1.trans a2, a4.trans h2⟩
    · exact h3 v hv

omit [IsStrictOrderedRing K] in
/-- The bounds are tight: they are values, or the starting values. -/
theorem bound_fold_mem (l : List K) : ∀ r : K × K,
    ((l.foldl (fun r v => (if v < r.1 then v else r.1, if r.2 < v then v else r.2)) r).1 = r.1 ∨
      (l.foldl (fun r v => (if v < r.1 then v else r.1, if r.2 < v then v else r.2)) r).1 ∈ l) ∧
    ((l.foldl (fun r v => (if v < r.1 then v else r.1, if r.2 < v then v else r.2)) r).2 = r.2 ∨
      (l.foldl (fun r v => (if v < r.1 then v else r.1, if r.2 < v then v else r.2)) r).2 ∈ l) := by
  induction l with
  | nil => intro r; exact ⟨Or.inl rfl, Or.inl rfl⟩
  | cons w l ih =>
    intro r
    rw [List.foldl_cons]
    obtain ⟨h1, h2⟩ := ih (if w < r.1 then w else r.1, if r.2 < w then w else r.2)
    constructor
    · rcases h1 with h | h
      · rw [h]
        dsimp only
        split_ifs
        · exact Or.inr List.mem_cons_self
        · exact Or.inl rfl
      · exact Or.inr (List.mem_cons_of_mem _ h)
    · rcases h2 with h | h
      · rw [h]
        dsimp only
        split_ifs
        · exact Or.inr List.mem_cons_self
        · exact Or.inl rfl
      · exact Or.inr (List.mem_cons_of_mem _ h)

/-! ## Lengths -/

omit [IsStrictOrderedRing K] in
theorem uLen2_eq (h : Hull K) : uLen2 h = max (nsq fun i => (h i).b - (h i).a) (nsq fun i => (h i).d - (h i).c) := by
  unfold uLen2
  dsimp only
  split_ifs with c
  · exact (max_eq_left (le_of_lt c)).symm
  · exact (max_eq_right (not_lt.1 c)).symm

omit [IsStrictOrderedRing K] in
theorem vLen2_eq (h : Hull K) : vLen2 h = max (nsq fun i => (h i).c - (h i).a) (nsq fun i => (h i).d - (h i).b) := by
  unfold vLen2
  dsimp only
  split_ifs with c
  · exact (max_eq_left (le_of_lt c)).symm
  · exact (max_eq_right (not_lt.1 c)).symm

theorem nsq_half (v : Fin 3 → K) (w : Fin 3 → K) (h : ∀ i, w i = v i / 2) : nsq w = nsq v / 4 := by
  unfold nsq
  rw [h 0, h 1, h 2]
  ring

/-- The square of the length of a mean is at most the larger one. -/
theorem nsq_mean (v w x : Fin 3 → K) (h : ∀ i, x i = (v i + w i) / 2) : nsq x ≤ max (nsq v) (nsq w) := by
  have e : nsq x ≤ (nsq v + nsq w) / 2 := by
    unfold nsq
    rw [h 0, h 1, h 2]
    nlinarith [sq_nonneg (v 0 - w 0), sq_nonneg (v 1 - w 1), sq_nonneg (v 2 - w 2)]
  have h1 := le_max_left (nsq v) (nsq w)
  have h2 := le_max_right (nsq v) (nsq w)
  linarith

/-- Halving a hull in one direction. -/
def hullSplit (u : Bool) (h : Hull K) : Hull K × Hull K := (fun i => ((h i).split u).1, fun i => ((h i).split u).2)

theorem hullSplit_u (h : Hull K) : uLen2 (hullSplit true h).1 = uLen2 h / 4 ∧ uLen2 (hullSplit true h).2 = uLen2 h / 4 ∧
    vLen2 (hullSplit true h).1 ≤ vLen2 h ∧ vLen2 (hullSplit true h).2 ≤ vLen2 h := by
  have four : (0 : K) ≤ 4 := by norm_num
  refine ⟨?_, ?_, ?_, ?_⟩
  · rw [uLen2_eq, uLen2_eq, ← max_div_div_right four]
    congr 1 <;> exact nsq_half _ _ fun i => by simp only [hullSplit, Quad.split, if_true]; ring
  · rw [uLen2_eq, uLen2_eq, ← max_div_div_right four]
    congr 1 <;> exact nsq_half _ _ fun i => by simp only [hullSplit, Quad.split, if_true]; ring
  · rw [vLen2_eq, vLen2_eq]
    refine max_le (le_max_left _ _) ?_
    exact nsq_mean _ _ _ fun i => by simp only [hullSplit, Quad.split, if_true]; ring
  · rw [vLen2_eq, vLen2_eq]
    refine max_le ?_ (le_max_right _ _)
    exact nsq_mean _ _ _ fun i => by simp only [hullSplit, Quad.split, if_true]; ring

theorem hullSplit_v (h : Hull K) : vLen2 (hullSplit false h).1 = vLen2 h / 4 ∧ vLen2 (hullSplit false h).2 = vLen2 h / 4 ∧
    uLen2 (hullSplit false h).1 ≤ uLen2 h ∧ uLen2 (hullSplit false h).2 ≤ uLen2 h := by
  have four : (0 : K) ≤ 4 := by norm_num
  refine ⟨?_, ?_, ?_, ?_⟩
  · rw [vLen2_eq, vLen2_eq, ← max_div_div_right four]
    congr 1 <;> exact nsq_half _ _ fun i => by simp only [hullSplit, Quad.split, Bool.false_eq_true, if_false]; ring
  · rw [vLen2_eq, vLen2_eq, ← max_div_div_right four]
    congr 1 <;> exact nsq_half _ _ fun i => by simp only [hullSplit, Quad.split, Bool.false_eq_true, if_false]; ring
  · rw [uLen2_eq, uLen2_eq]
    refine max_le (le_max_left _ _) ?_
    exact nsq_mean _ _ _ fun i => by simp only [hullSplit, Quad.split, Bool.false_eq_true, if_false]; ring
  · rw [uLen2_eq, uLen2_eq]
    refine max_le ?_ (le_max_right _ _)
    exact nsq_mean _ _ _ fun i => by simp only [hullSplit, Quad.split, Bool.false_eq_true, if_false]; ring

theorem nsq_nonneg (v : Fin 3 → K) : 0 ≤ nsq v := by
  unfold nsq
  have := mul_self_nonneg (v 0)
  have := mul_self_nonneg (v 1)
  have := mul_self_nonneg (v 2)
  linarith

theorem uLen2_nonneg (h : Hull K) : 0 ≤ uLen2 h := by rw [uLen2_eq]; exact (nsq_nonneg _).trans (le_max_left _ _)
theorem vLen2_nonneg (h : Hull K) : 0 ≤ vLen2 h := by rw [vLen2_eq]; exact (nsq_nonneg _).trans (le_max_left _ _)

/-- What the pieces of a hull are. -/
theorem hullPieces_false (u : Bool) (h : Hull K) :
    hullPieces false u h = [((hullSplit u h).1, false), ((hullSplit u h).2, false)] := rfl

theorem hullPieces_true (u : Bool) (h : Hull K) :
    hullPieces true u h = [((hullSplit (!u) (hullSplit u h).1).1, false), ((hullSplit (!u) (hullSplit u h).1).2, true),
      ((hullSplit (!u) (hullSplit u h).2).1, true)] := rfl

/-- Every piece of a hull has lengths that are not larger, and the longer direction is halved. -/
theorem hullPieces_len (phantom : Bool) (h p : Hull K) (f : Bool) (hp : (p, f) ∈ hullPieces phantom (splitU h) h) :
    uLen2 p ≤ uLen2 h ∧ vLen2 p ≤ vLen2 h ∧
    (uLen2 h > vLen2 h → uLen2 p ≤ uLen2 h / 4) ∧ (¬ uLen2 h > vLen2 h → vLen2 p ≤ vLen2 h / 4) := by
  have hu0 := uLen2_nonneg h
  have hv0 := vLen2_nonneg h
  have su : ∀ g : Hull K, ∀ r, r = (hullSplit true g).1 ∨ r = (hullSplit true g).2 → uLen2 r = uLen2 g / 4 ∧ vLen2 r ≤ vLen2 g := by
    rintro g r (e | e) <;> rw [e]
    · exact ⟨(hullSplit_u g).1, (hullSplit_u g).2.2.1⟩
    · exact ⟨(hullSplit_u g).2.1, (hullSplit_u g).2.2.2⟩
  have sv : ∀ g : Hull K, ∀ r, r = (hullSplit false g).1 ∨ r = (hullSplit false g).2 → vLen2 r = vLen2 g / 4 ∧ uLen2 r ≤ uLen2 g := by
    rintro g r (e | e) <;> rw [e]
    · exact ⟨(hullSplit_v g).1, (hullSplit_v g).2.2.1⟩
    · exact ⟨(hullSplit_v g).2.1, (hullSplit_v g).2.2.2⟩
  by_cases hc : uLen2 h > vLen2 h
  · have hs : splitU h = true := decide_eq_true hc
    rw [hs] at hp
    cases phantom
    · rw [hullPieces_false] at hp
      have : p = (hullSplit true h).1 ∨ p = (hullSplit true h).2 := by
        simp only [List.mem_cons, Prod.mk.injEq, List.not_mem_nil, or_false] at hp
        rcases hp with hp | hp
        · exact Or.inl hp.1
        · exact Or.inr hp.1
      obtain ⟨e1, e2⟩ := su h p this
      refine ⟨by rw [e1]; linarith, e2, fun _ => e1.le, fun hn => absurd hc hn⟩
    · rw [hullPieces_true] at hp
      have : ∃ g, (g = (hullSplit true h).1 ∨ g = (hullSplit true h).2) ∧ (p = (hullSplit false g).1 ∨ p = (hullSplit false g).2) := by
        simp only [List.mem_cons, Prod.mk.injEq, List.not_mem_nil, or_false, Bool.not_true] at hp
        rcases hp with hp | hp | hp
        · exact ⟨_, Or.inl rfl, Or.inl hp.1⟩
        · exact ⟨_, Or.inl rfl, Or.inr hp.1⟩
        · exact ⟨_, Or.inr rfl, Or.inl hp.1⟩
      obtain ⟨g, hg, hpg⟩ := this
      obtain ⟨e1, e2⟩ := su h g hg
      obtain ⟨e3, e4⟩ := sv g p hpg
      have hg0 := vLen2_nonneg g
      refine ⟨by linarith, by linarith, fun _ => by linarith, fun hn => absurd hc hn⟩
  · have hs : splitU h = false := decide_eq_false hc
    rw [hs] at hp
    cases phantom
    · rw [hullPieces_false] at hp
      have : p = (hullSplit false h).1 ∨ p = (hullSplit false h).2 := by
        simp only [List.mem_cons, Prod.mk.injEq, List.not_mem_nil, or_false] at hp
        rcases hp with hp | hp
        · exact Or.inl hp.1
        · exact Or.inr hp.1
      obtain ⟨e1, e2⟩ := sv h p this
      refine ⟨e2, by rw [e1]; linarith, fun hn => absurd hn hc, fun _ => e1.le⟩
    · rw [hullPieces_true] at hp
      have : ∃ g, (g = (hullSplit false h).1 ∨ g = (hullSplit false h).2) ∧ (p = (hullSplit true g).1 ∨ p = (hullSplit true g).2) := by
        simp only [List.mem_cons, Prod.mk.injEq, List.not_mem_nil, or_false, Bool.not_false] at hp
        rcases hp with hp | hp | hp
        · exact ⟨_, Or.inl rfl, Or.inl hp.1⟩
        · exact ⟨_, Or.inl rfl, Or.inr hp.1⟩
        · exact ⟨_, Or.inr rfl, Or.inl hp.1⟩
      obtain ⟨g, hg, hpg⟩ := this
      obtain ⟨e1, e2⟩ := sv h g hg
      obtain ⟨e3, e4⟩ := su g p hpg
      have hg0 := uLen2_nonneg g
      refine ⟨by linarith, by linarith, fun hn => absurd hn hc, fun _ => by linarith⟩

/-! ## Powers of two -/

/-- What is in the number after `k` steps. -/
def Filled (y z k : ℕ) : Prop := ∀ i, z.testBit i = true ↔ ∃ d, d < 2 ^ k ∧ y.testBit (i + d) = true

theorem filled_step {y z k : ℕ} (h : Filled y z k) : Filled y (z ||| z >>> 2 ^ k) (k + 1) := by
  intro i
  rw [Nat.testBit_or, Bool.or_eq_true, Nat.testBit_shiftRight, h i, h (2 ^ k + i)]
  rw [Nat.pow_succ]
  constructor
  · rintro (⟨d, hd, e⟩ | ⟨d, hd, e⟩)
    · exact ⟨d, by omega, e⟩
    · exact ⟨2 ^ k + d, by omega, by rw [show i + (2 ^ k + d) = 2 ^ k + i + d by omega]; exact e⟩
  · rintro ⟨d, hd, e⟩
    by_cases c : d < 2 ^ k
    · exact Or.inl ⟨d, c, e⟩
    · exact Or.inr ⟨d - 2 ^ k, by omega, by rw [show 2 ^ k + i + (d - 2 ^ k) = i + d by omega]; exact e⟩

theorem fillBits_idle (n : ℕ) : ∀ k y, fillBits shrX86 n (2 ^ (5 + k)) y = some y := by
  induction n with
  | zero => intro k y; rfl
  | succ n ih =>
    intro k y
    unfold fillBits shrX86
    have : 2 ^ (5 + k) % 32 = 0 := by rw [Nat.pow_add]; exact Nat.mul_mod_right _ _
    rw [this]
    simp only [Nat.shiftRight_zero, Nat.or_self, Option.bind_some]
    have := ih (k + 1) y
    rw [show 2 ^ (5 + (k + 1)) = 2 * 2 ^ (5 + k) by rw [← Nat.add_assoc, Nat.pow_succ]; omega] at this
    exact this

theorem fillBits_run (y : ℕ) : ∀ m k z, k + m = 5 → Filled y z k →
    ∃ z', fillBits shrX86 (27 + m) (2 ^ k) z = some z' ∧ Filled y z' 5 := by
  intro m
  induction m with
  | zero =>
    intro k z hk h
    have e : k = 5 := by omega
    subst e
    exact ⟨z, fillBits_idle 27 0 z, h⟩
  | succ m ih =>
    intro k z hk h
    obtain ⟨z', e, h'⟩ := ih (k + 1) _ (by omega) (filled_step h)
    refine ⟨z', ?_, h'⟩
    rw [← Nat.add_assoc]
    show (shrX86 z (2 ^ k)).bind (fun w => fillBits shrX86 (27 + m) (2 * 2 ^ k) (z ||| w)) = some z'
    unfold shrX86
    have hlt : 2 ^ k < 32 := by
      have : 2 ^ k < 2 ^ 5 := Nat.pow_lt_pow_right (by decide) (by omega)
      omega
    rw [Nat.mod_eq_of_lt hlt, Option.bind_some, show 2 * 2 ^ k = 2 ^ (k + 1) by rw [Nat.pow_succ]; omega]
    exact e

theorem fillBits_ok (y : ℕ) : ∃ z, fillBits shrX86 32 1 y = some z ∧ Filled y z 5 := by
  refine fillBits_run y 5 0 y rfl ?_
  intro i
  constructor
  · intro h; exact ⟨0, by decide, h⟩
  · rintro ⟨d, hd, e⟩
    have : d = 0 := by simpa using hd
    rwa [this] at e

theorem filled_eq {y z : ℕ} (h : Filled y z 5) (hy : y ≠ 0) (hl : y < 2 ^ 32) : z = 2 ^ (Nat.log2 y + 1) - 1 := by
  apply Nat.eq_of_testBit_eq
  intro i
  rw [Nat.testBit_two_pow_sub_one]
  have hlog : Nat.log2 y < 32 := (Nat.log2_lt hy).2 hl
  rw [Bool.eq_iff_iff, h i, decide_eq_true_iff]
  constructor
  · rintro ⟨d, hd, e⟩
    by_contra hc
    have : y < 2 ^ (i + d) := lt_of_lt_of_le ((Nat.log2_lt hy).1 (Nat.lt_succ_self _)) (Nat.pow_le_pow_right (by decide) (by omega))
    rw [Nat.testBit_lt_two_pow this] at e
    cases e
  · intro hi
    refine ⟨Nat.log2 y - i, by omega, ?_⟩
    rw [show i + (Nat.log2 y - i) = Nat.log2 y by omega]
    exact Nat.testBit_log2 hy

end Verif.Geom.Bilinear
