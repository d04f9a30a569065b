import Verif.Geom.Trim
import Mathlib.Tactic.Linarith
import Mathlib.Tactic.Ring
import Mathlib.Tactic.FieldSimp
import Mathlib.Tactic.LinearCombination
import Mathlib.Tactic.Push
import Mathlib.Tactic.ByContra
import Mathlib.Tactic.Tauto
/-!
# Lemmas on the test of points against loops
-/
namespace Verif.Geom.Trim

set_option linter.unusedSectionVars false

variable {K : Type} [Field K] [LinearOrder K] [IsStrictOrderedRing K]

/-- The point of the line through `a` and `b` at parameter `s`. Specification. -/
def at' (a b : K × K) (s : K) : K × K := (a.1 + s * (b.1 - a.1), a.2 + s * (b.2 - a.2))

/-- Two segments have a common point. Specification. -/
def Touch (v w a b : K × K) : Prop := ∃ r s : K, 0 ≤ r ∧ r ≤ 1 ∧ 0 ≤ s ∧ s ≤ 1 ∧ at' v w r = at' a b s

/-- Twice the signed area of a triangle. Specification. -/
def area (a b c : K × K) : K := (b.1 - a.1) * (c.2 - a.2) - (b.2 - a.2) * (c.1 - a.1)

theorem crosses_true (v a b : K × K) : crosses v a b = true ↔ ((a.2 < v.2 ∧ v.2 ≤ b.2) ∨ (b.2 < v.2 ∧ v.2 ≤ a.2)) ∧
    a.1 + (v.2 - a.2) / (b.2 - a.2) * (b.1 - a.1) < v.1 := by
  unfold crosses
  simp

theorem crosses_up (v a b : K × K) (h1 : a.2 < v.2) (h2 : v.2 ≤ b.2) : crosses v a b = true ↔ area a b v < 0 := by
  rw [crosses_true]
  have hd : 0 < b.2 - a.2 := by linarith
  have e : a.1 + (v.2 - a.2) / (b.2 - a.2) * (b.1 - a.1) - v.1 = area a b v / (b.2 - a.2) := by
    unfold area
    field_simp
    ring
  constructor
  · rintro ⟨_, h⟩
    have : area a b v / (b.2 - a.2) < 0 := by rw [← e]; linarith
    by_contra hc
    push Not at hc
    exact absurd (div_nonneg hc hd.le) (not_le.2 this)
  · intro h
    refine ⟨Or.inl ⟨h1, h2⟩, ?_⟩
    have := div_neg_of_neg_of_pos h hd
    rw [← e] at this
    linarith

theorem crosses_down (v a b : K × K) (h1 : b.2 < v.2) (h2 : v.2 ≤ a.2) : crosses v a b = true ↔ 0 < area a b v := by
  rw [crosses_true]
  have hd : b.2 - a.2 < 0 := by linarith
  have hn : b.2 - a.2 ≠ 0 := hd.ne
  have e : a.1 + (v.2 - a.2) / (b.2 - a.2) * (b.1 - a.1) - v.1 = area a b v / (b.2 - a.2) := by
    unfold area
    field_simp
    ring
  constructor
  · rintro ⟨_, h⟩
    have : area a b v / (b.2 - a.2) < 0 := by rw [← e]; linarith
    by_contra hc
    push Not at hc
    exact absurd (div_nonneg_of_nonpos hc hd.le) (not_le.2 this)
  · intro h
    refine ⟨Or.inr ⟨h1, h2⟩, ?_⟩
    have := div_neg_of_pos_of_neg h hd
    rw [← e] at this
    linarith

theorem crosses_none (v a b : K × K) (h : (a.2 < v.2 ∧ b.2 < v.2) ∨ (v.2 ≤ a.2 ∧ v.2 ≤ b.2)) : crosses v a b = false := by
  rw [Bool.eq_false_iff]
  intro hc
  rw [crosses_true] at hc
  rcases h with h | h <;> rcases hc.1 with g | g
  · exact absurd h.2 (not_lt.2 g.2)
  · exact absurd h.1 (not_lt.2 g.2)
  · exact absurd g.1 (not_lt.2 h.1)
  · exact absurd g.1 (not_lt.2 h.2)

theorem area_flip (a b v : K × K) : area b a v = - area a b v := by unfold area; ring

/-- An edge counts the same in both directions. -/
theorem crosses_symm (v a b : K × K) : crosses v a b = crosses v b a := by
  by_cases h1 : a.2 < v.2 <;> by_cases h2 : b.2 < v.2
  · rw [crosses_none v a b (Or.inl ⟨h1, h2⟩), crosses_none v b a (Or.inl ⟨h2, h1⟩)]
  · push Not at h2
    rw [Bool.eq_iff_iff, crosses_up v a b h1 h2, crosses_down v b a h1 h2, area_flip a b, neg_pos]
  · push Not at h1
    rw [Bool.eq_iff_iff, crosses_up v b a h2 h1, crosses_down v a b h2 h1, area_flip a b, neg_lt_zero]
  · push Not at h1 h2
    rw [crosses_none v a b (Or.inr ⟨h1, h2⟩), crosses_none v b a (Or.inr ⟨h2, h1⟩)]

/-! ## Loops -/

/-- The parity of the crossings along a path. -/
def par (v : K × K) : K × K → List (K × K) → Bool
  | _, [] => false
  | z, a :: l => (crosses v a z) ^^ par v a l

theorem trimLoop_par (v z : K × K) (l : List (K × K)) (odd : Bool) : trimLoop v z l odd = (odd ^^ par v z l) := by
  induction l generalizing z odd with
  | nil => simp [trimLoop, par]
  | cons a l ih =>
    unfold trimLoop par
    rw [ih]
    cases crosses v a z <;> cases odd <;> simp

theorem trimPoint_par (l : List (K × K)) (z v : K × K) (h : l.getLast? = some z) : trimPoint l v = par v z l := by
  unfold trimPoint
  rw [h]
  simp [trimLoop_par]

theorem trimPoint_concat (l : List (K × K)) (z v : K × K) : trimPoint (l ++ [z]) v = par v z (l ++ [z]) :=
  trimPoint_par _ _ _ (by simp)

theorem par_append (v z : K × K) (l : List (K × K)) (y : K × K) (m : List (K × K)) :
    par v z (l ++ y :: m) = (par v z (l ++ [y]) ^^ par v y m) := by
  induction l generalizing z with
  | nil => simp [par]
  | cons a l ih => simp [par, ih]

theorem par_reverse (v : K × K) (l : List (K × K)) (y z : K × K) : par v z (l ++ [y]) = par v y (l.reverse ++ [z]) := by
  induction l generalizing z with
  | nil => simp [par, crosses_symm v y z]
  | cons a l ih =>
    rw [List.cons_append, List.reverse_cons, List.append_assoc]
    show par v z (a :: (l ++ [y])) = par v y (l.reverse ++ a :: [z])
    rw [par_append, ← ih]
    simp only [par, Bool.xor_false]
    rw [crosses_symm v a z, Bool.xor_comm]

theorem xor_false_eq {x y : Bool} (h : (x ^^ y) = false) : x = y := by
  cases x <;> cases y <;> simp_all

/-! ## Points joined by a segment that touches nothing -/

theorem touch_symm (v w a b : K × K) (h : Touch v w a b) : Touch v w b a := by
  obtain ⟨r, s, h1, h2, h3, h4, e⟩ := h
  refine ⟨r, 1 - s, h1, h2, by linarith, by linarith, ?_⟩
  rw [e]
  unfold at'
  ext <;> simp <;> ring

theorem touch_swap (v w a b : K × K) (h : Touch v w a b) : Touch w v a b := by
  obtain ⟨r, s, h1, h2, h3, h4, e⟩ := h
  refine ⟨1 - r, s, by linarith, by linarith, h3, h4, ?_⟩
  rw [← e]
  unfold at'
  ext <;> simp <;> ring

/-- Two points of an edge in the strip between `v` and `w` are on the same side of the line through them. -/
theorem same_side (v w a b : K × K) (hvw : v.2 < w.2) (hn : ¬ Touch v w a b) (s1 s2 : K) (h1 : 0 ≤ s1) (h1' : s1 ≤ 1) (h2 : 0 ≤ s2) (h2' : s2 ≤ 1)
    (g1 : v.2 ≤ (at' a b s1).2) (g1' : (at' a b s1).2 ≤ w.2) (g2 : v.2 ≤ (at' a b s2).2) (g2' : (at' a b s2).2 ≤ w.2) :
    0 < area v w (at' a b s1) → 0 < area v w (at' a b s2) := by
  intro hp
  by_contra hc
  push Not at hc
  -- the zero between
  set f1 := area v w (at' a b s1) with hf1
  set f2 := area v w (at' a b s2) with hf2
  have hd : 0 < f1 - f2 := by linarith
  have hdn : f1 - f2 ≠ 0 := hd.ne'
  set l := f1 / (f1 - f2) with hl
  have l0 : 0 ≤ l := div_nonneg hp.le hd.le
  have l1 : l ≤ 1 := by rw [hl, div_le_one hd]; linarith
  set s := s1 + l * (s2 - s1) with hs
  have hlin : ∀ x y : K, x + l * (y - x) = (1 - l) * x + l * y := fun x y => by ring
  have s0 : 0 ≤ s := by
    rw [hs, hlin]
    have := mul_nonneg (sub_nonneg.2 l1) h1
    have := mul_nonneg l0 h2
    linarith
  have s1' : s ≤ 1 := by
    rw [hs, hlin]
    have a1 := mul_le_mul_of_nonneg_left h1' (sub_nonneg.2 l1)
    have a2 := mul_le_mul_of_nonneg_left h2' l0
    linarith
  have ey : (at' a b s).2 = (1 - l) * (at' a b s1).2 + l * (at' a b s2).2 := by
    unfold at'
    simp only [hs]
    ring
  have y0 : v.2 ≤ (at' a b s).2 := by
    rw [ey]
    have a1 := mul_le_mul_of_nonneg_left g1 (sub_nonneg.2 l1)
    have a2 := mul_le_mul_of_nonneg_left g2 l0
    linarith
  have y1 : (at' a b s).2 ≤ w.2 := by
    rw [ey]
    have a1 := mul_le_mul_of_nonneg_left g1' (sub_nonneg.2 l1)
    have a2 := mul_le_mul_of_nonneg_left g2' l0
    linarith
  have ez : area v w (at' a b s) = 0 := by
    have : area v w (at' a b s) = (1 - l) * f1 + l * f2 := by
      rw [hf1, hf2]
      unfold area at'
      simp only [hs]
      ring
    rw [this]
    have : l * (f1 - f2) = f1 := by rw [hl]; field_simp
    linarith
  have hw : 0 < w.2 - v.2 := by linarith
  have hwn : w.2 - v.2 ≠ 0 := hw.ne'
  apply hn
  refine ⟨((at' a b s).2 - v.2) / (w.2 - v.2), s, div_nonneg (by linarith) hw.le, ?_, s0, s1', ?_⟩
  · rw [div_le_one hw]; linarith
  · generalize at' a b s = q at *
    unfold area at ez
    unfold at'
    ext
    · show v.1 + (q.2 - v.2) / (w.2 - v.2) * (w.1 - v.1) = q.1
      have : (w.1 - v.1) * (q.2 - v.2) = (w.2 - v.2) * (q.1 - v.1) := by linarith
      field_simp
      linarith
    · show v.2 + (q.2 - v.2) / (w.2 - v.2) * (w.2 - v.2) = q.2
      field_simp
      ring

/-- The same, as an equivalence. -/
theorem same_side_iff (v w a b : K × K) (hvw : v.2 < w.2) (hn : ¬ Touch v w a b) (s1 s2 : K) (h1 : 0 ≤ s1) (h1' : s1 ≤ 1) (h2 : 0 ≤ s2) (h2' : s2 ≤ 1)
    (g1 : v.2 ≤ (at' a b s1).2) (g1' : (at' a b s1).2 ≤ w.2) (g2 : v.2 ≤ (at' a b s2).2) (g2' : (at' a b s2).2 ≤ w.2) :
    0 < area v w (at' a b s1) ↔ 0 < area v w (at' a b s2) :=
  ⟨same_side v w a b hvw hn s1 s2 h1 h1' h2 h2' g1 g1' g2 g2', same_side v w a b hvw hn s2 s1 h2 h2' h1 h1' g2 g2' g1 g1'⟩

/-- The region left of the segment from `v` to `w`. -/
def region (v w q : K × K) : Bool := decide (v.2 ≤ q.2) && decide (q.2 < w.2) && decide (0 < area v w q)

theorem at_zero (a b : K × K) : at' a b 0 = a := by unfold at'; simp
theorem at_one (a b : K × K) : at' a b 1 = b := by unfold at'; simp

/-- A crossing in terms of the point of the edge at the same height. -/
theorem crosses_lower (v w a b : K × K) (hvw : v.2 < w.2) (h1 : a.2 < v.2) (h2 : v.2 ≤ b.2) :
    crosses v a b = true ↔ 0 < area v w (at' a b ((v.2 - a.2) / (b.2 - a.2))) := by
  rw [crosses_true]
  have hd : b.2 - a.2 ≠ 0 := by intro h; linarith
  have ey : a.2 + (v.2 - a.2) / (b.2 - a.2) * (b.2 - a.2) = v.2 := by field_simp; ring
  unfold area at'
  simp only
  rw [ey]
  generalize a.1 + (v.2 - a.2) / (b.2 - a.2) * (b.1 - a.1) = q
  have e : (w.1 - v.1) * (v.2 - v.2) - (w.2 - v.2) * (q - v.1) = (w.2 - v.2) * (v.1 - q) := by ring
  rw [e, mul_pos_iff_of_pos_left (by linarith : 0 < w.2 - v.2)]
  constructor
  · rintro ⟨_, h⟩; linarith
  · intro h; exact ⟨Or.inl ⟨h1, h2⟩, by linarith⟩

theorem crosses_upper (v w a b : K × K) (hvw : v.2 < w.2) (h1 : a.2 < w.2) (h2 : w.2 ≤ b.2) :
    crosses w a b = true ↔ 0 < area v w (at' a b ((w.2 - a.2) / (b.2 - a.2))) := by
  rw [crosses_true]
  have hd : b.2 - a.2 ≠ 0 := by intro h; linarith
  have ey : a.2 + (w.2 - a.2) / (b.2 - a.2) * (b.2 - a.2) = w.2 := by field_simp; ring
  unfold area at'
  simp only
  rw [ey]
  generalize a.1 + (w.2 - a.2) / (b.2 - a.2) * (b.1 - a.1) = q
  have e : (w.1 - v.1) * (w.2 - v.2) - (w.2 - v.2) * (q - v.1) = (w.2 - v.2) * (w.1 - q) := by ring
  rw [e, mul_pos_iff_of_pos_left (by linarith : 0 < w.2 - v.2)]
  constructor
  · rintro ⟨_, h⟩; linarith
  · intro h; exact ⟨Or.inl ⟨h1, h2⟩, by linarith⟩

theorem at_height (a b : K × K) (y : K) (h1 : a.2 < y) (h2 : y ≤ b.2) :
    0 ≤ (y - a.2) / (b.2 - a.2) ∧ (y - a.2) / (b.2 - a.2) ≤ 1 ∧ (at' a b ((y - a.2) / (b.2 - a.2))).2 = y := by
  have hd : 0 < b.2 - a.2 := by linarith
  have hn := hd.ne'
  refine ⟨div_nonneg (by linarith) hd.le, by rw [div_le_one hd]; linarith, ?_⟩
  unfold at'
  simp only
  field_simp
  ring

/-- One edge, rising: it is crossed by the one ray and not by the other exactly if it has one end in the region. -/
theorem edge_up (v w a b : K × K) (hvw : v.2 < w.2) (hn : ¬ Touch v w a b) (hab : a.2 ≤ b.2) :
    (crosses v a b ^^ crosses w a b) = (region v w a ^^ region v w b) := by
  have cv0 : ∀ h : (a.2 < v.2 ∧ b.2 < v.2) ∨ (v.2 ≤ a.2 ∧ v.2 ≤ b.2), crosses v a b = false := crosses_none v a b
  have cw0 : ∀ h : (a.2 < w.2 ∧ b.2 < w.2) ∨ (w.2 ≤ a.2 ∧ w.2 ≤ b.2), crosses w a b = false := crosses_none w a b
  have rout : ∀ q : K × K, (q.2 < v.2 ∨ w.2 ≤ q.2) → region v w q = false := by
    intro q h
    unfold region
    rcases h with h | h
    · rw [decide_eq_false (not_le.2 h)]; rfl
    · rw [decide_eq_false (not_lt.2 h)]; simp
  have rin : ∀ q : K × K, v.2 ≤ q.2 → q.2 < w.2 → (region v w q = true ↔ 0 < area v w q) := by
    intro q h1 h2
    unfold region
    rw [decide_eq_true h1, decide_eq_true h2]
    simp
  have ss := same_side_iff v w a b hvw hn
  by_cases a1 : a.2 < v.2
  · rw [rout a (Or.inl a1), Bool.false_xor]
    by_cases b1 : b.2 < v.2
    · rw [cv0 (Or.inl ⟨a1, b1⟩), cw0 (Or.inl ⟨by linarith, by linarith⟩), rout b (Or.inl b1)]; rfl
    · push Not at b1
      have cl := crosses_lower v w a b hvw a1 b1
      obtain ⟨p1, p2, p3⟩ := at_height a b v.2 a1 b1
      by_cases b2 : b.2 < w.2
      · rw [cw0 (Or.inl ⟨by linarith, b2⟩), Bool.xor_false, Bool.eq_iff_iff, cl, rin b b1 b2]
        have := ss _ 1 p1 p2 (by norm_num) (by norm_num) (by rw [p3]) (by rw [p3]; linarith) (by rw [at_one]; linarith) (by rw [at_one]; linarith)
        rw [at_one] at this
        exact this
      · push Not at b2
        rw [rout b (Or.inr b2)]
        have cu := crosses_upper v w a b hvw (by linarith) b2
        obtain ⟨q1, q2, q3⟩ := at_height a b w.2 (by linarith) b2
        have := ss _ _ p1 p2 q1 q2 (by rw [p3]) (by rw [p3]; linarith) (by rw [q3]; linarith) (by rw [q3])
        rw [← cl, ← cu, ← Bool.eq_iff_iff] at this
        rw [this, Bool.xor_self]
  · push Not at a1
    rw [cv0 (Or.inr ⟨a1, by linarith⟩), Bool.false_xor]
    by_cases a2 : a.2 < w.2
    · by_cases b2 : b.2 < w.2
      · rw [cw0 (Or.inl ⟨a2, b2⟩)]
        have := ss 0 1 (by norm_num) (by norm_num) (by norm_num) (by norm_num) (by rw [at_zero]; exact a1) (by rw [at_zero]; linarith)
          (by rw [at_one]; linarith) (by rw [at_one]; linarith)
        rw [at_zero, at_one, ← rin a a1 a2, ← rin b (by linarith) b2, ← Bool.eq_iff_iff] at this
        rw [this, Bool.xor_self]
      · push Not at b2
        rw [rout b (Or.inr b2), Bool.xor_false, Bool.eq_iff_iff]
        have cu := crosses_upper v w a b hvw a2 b2
        obtain ⟨q1, q2, q3⟩ := at_height a b w.2 a2 b2
        have := ss 0 _ (by norm_num) (by norm_num) q1 q2 (by rw [at_zero]; exact a1) (by rw [at_zero]; linarith) (by rw [q3]; linarith) (by rw [q3])
        rw [at_zero] at this
        rw [cu, rin a a1 a2, this]
    · push Not at a2
      rw [cw0 (Or.inr ⟨a2, by linarith⟩), rout a (Or.inr a2), rout b (Or.inr (by linarith))]; rfl

theorem edge_any (v w a b : K × K) (hvw : v.2 < w.2) (hn : ¬ Touch v w a b) :
    (crosses v a b ^^ crosses w a b) = (region v w a ^^ region v w b) := by
  rcases le_total a.2 b.2 with h | h
  · exact edge_up v w a b hvw hn h
  · rw [crosses_symm v a b, crosses_symm w a b, edge_up v w b a hvw (fun ht => hn (touch_symm _ _ _ _ ht)) h, Bool.xor_comm]

/-- Along a path. -/
theorem par_path (v w : K × K) (hvw : v.2 < w.2) (l : List (K × K)) (z y : K × K)
    (hn : ∀ e ∈ (z :: l).zip l, ¬ Touch v w e.2 e.1) (hy : (z :: l).getLast? = some y) :
    (par v z l ^^ par w z l) = (region v w z ^^ region v w y) := by
  induction l generalizing z with
  | nil =>
    simp at hy
    subst hy
    simp [par]
  | cons a l ih =>
    have h1 := edge_any v w a z hvw (hn (z, a) (by simp))
    have h2 := ih a (fun e he => hn e (by simp at he ⊢; tauto)) (by simpa using hy)
    unfold par
    have : ((crosses v a z ^^ par v a l) ^^ (crosses w a z ^^ par w a l)) = ((crosses v a z ^^ crosses w a z) ^^ (par v a l ^^ par w a l)) := by
      cases crosses v a z <;> cases crosses w a z <;> cases par v a l <;> cases par w a l <;> rfl
    rw [this, h1, h2]
    cases region v w a <;> cases region v w z <;> cases region v w y <;> rfl

/-- Horizontal segments. -/
theorem edge_flat (v w a b : K × K) (hvw : v.2 = w.2) (hn : ¬ Touch v w a b) : crosses v a b = crosses w a b := by
  rw [Bool.eq_iff_iff, crosses_true, crosses_true, ← hvw]
  refine and_congr_right fun hsp => ?_
  have key : ∀ p q : K × K, p.2 = v.2 → q.2 = v.2 → (¬ Touch p q a b) → a.1 + (v.2 - a.2) / (b.2 - a.2) * (b.1 - a.1) < p.1 →
      a.1 + (v.2 - a.2) / (b.2 - a.2) * (b.1 - a.1) < q.1 := by
    intro p q hp hq hnt hlt
    by_contra hc
    push Not at hc
    have hd : b.2 - a.2 ≠ 0 := by
      rcases hsp with h | h <;> intro h0 <;> linarith
    have hs : 0 ≤ (v.2 - a.2) / (b.2 - a.2) ∧ (v.2 - a.2) / (b.2 - a.2) ≤ 1 := by
      rcases hsp with h | h
      · have : 0 < b.2 - a.2 := by linarith
        exact ⟨div_nonneg (by linarith) this.le, by rw [div_le_one this]; linarith⟩
      · have : b.2 - a.2 < 0 := by linarith
        exact ⟨div_nonneg_of_nonpos (by linarith) this.le, by rw [div_le_one_of_neg this]; linarith⟩
    have hy : a.2 + (v.2 - a.2) / (b.2 - a.2) * (b.2 - a.2) = v.2 := by field_simp; ring
    apply hnt
    generalize (v.2 - a.2) / (b.2 - a.2) = s at *
    have hpq : 0 < p.1 - q.1 := by linarith
    have hpq' := hpq.ne'
    refine ⟨(p.1 - (a.1 + s * (b.1 - a.1))) / (p.1 - q.1), s, div_nonneg (by linarith) hpq.le, by rw [div_le_one hpq]; linarith, hs.1, hs.2, ?_⟩
    unfold at'
    ext
    · show p.1 + (p.1 - (a.1 + s * (b.1 - a.1))) / (p.1 - q.1) * (q.1 - p.1) = a.1 + s * (b.1 - a.1)
      have : q.1 - p.1 = -(p.1 - q.1) := by ring
      rw [this, mul_neg, div_mul_cancel₀ _ hpq']
      ring
    · show p.2 + _ * (q.2 - p.2) = a.2 + s * (b.2 - a.2)
      rw [hy, hp, hq, sub_self, mul_zero, add_zero]
  exact ⟨key v w rfl hvw.symm hn, key w v hvw.symm rfl (fun h => hn (touch_swap _ _ _ _ h))⟩

/-- The edges of a closed loop. Specification. -/
def edges (l : List (K × K)) : List ((K × K) × (K × K)) :=
  match l.getLast? with
  | none => []
  | some z => (z :: l).zip l

/-- The state does not change along a segment that touches no edge. -/
theorem trimPoint_touch (l : List (K × K)) (v w : K × K) (hn : ∀ e ∈ edges l, ¬ Touch v w e.1 e.2) : trimPoint l v = trimPoint l w := by
  cases hz : l.getLast? with
  | none => unfold trimPoint; rw [hz]
  | some z =>
    unfold edges at hn
    rw [hz] at hn
    have hzl : (z :: l).getLast? = some z := by
      rw [List.getLast?_cons, hz]; rfl
    have hn' : ∀ e ∈ (z :: l).zip l, ¬ Touch v w e.2 e.1 := fun e he ht => hn e he (touch_symm _ _ _ _ ht)
    rw [trimPoint_par l z v hz, trimPoint_par l z w hz]
    rcases lt_trichotomy v.2 w.2 with h | h | h
    · have := par_path v w h l z z hn' hzl
      rw [Bool.xor_self] at this
      exact xor_false_eq this
    · have : ∀ (m : List (K × K)) (y : K × K), (∀ e ∈ (y :: m).zip m, ¬ Touch v w e.2 e.1) → par v y m = par w y m := by
        intro m
        induction m with
        | nil => intros; rfl
        | cons a m ih =>
          intro y hm
          unfold par
          rw [edge_flat v w a y h (hm (y, a) (by simp)), ih a (fun e he => hm e (by simp at he ⊢; tauto))]
      exact this l z hn'
    · have := par_path w v h l z z (fun e he ht => hn' e he (touch_swap _ _ _ _ ht)) hzl
      rw [Bool.xor_self] at this
      exact (xor_false_eq this).symm

/-! ## Triangles -/

/-- Strictly inside a triangle. Specification. -/
def Inside (a b c v : K × K) : Prop :=
  (0 < area a b v ∧ 0 < area b c v ∧ 0 < area c a v) ∨ (area a b v < 0 ∧ area b c v < 0 ∧ area c a v < 0)

theorem tri_par (a b c v : K × K) : trimPoint [a, b, c] v = (crosses v a c ^^ (crosses v b a ^^ crosses v c b)) := by
  rw [trimPoint_par _ c v rfl]
  simp [par]

theorem sep_core (A B C p q e : K) (h : p * A + q * C = e * (A + B + C)) (h1 : e ≤ p) (h2 : e ≤ q) (h0 : 0 ≤ e) (hp : 0 < p) (hq : 0 < q)
    (hB : B ≠ 0) : ((0 < A ∧ 0 < C) ∨ (A < 0 ∧ C < 0)) ↔ ((0 < A ∧ 0 < B ∧ 0 < C) ∨ (A < 0 ∧ B < 0 ∧ C < 0)) := by
  have h' : (p - e) * A + (q - e) * C = e * B := by linarith
  constructor
  · rintro (⟨hA, hC⟩ | ⟨hA, hC⟩)
    · have a1 := mul_nonneg (sub_nonneg.2 h1) hA.le
      have a2 := mul_nonneg (sub_nonneg.2 h2) hC.le
      rcases h0.lt_or_eq with he | he
      · have : 0 ≤ B := by
          by_contra hc
          push Not at hc
          have := mul_neg_of_pos_of_neg he hc
          linarith
        exact Or.inl ⟨hA, lt_of_le_of_ne this (Ne.symm hB), hC⟩
      · exfalso
        rw [← he] at h
        have := mul_pos hp hA
        have := mul_pos hq hC
        linarith
    · have a1 := mul_nonpos_of_nonneg_of_nonpos (sub_nonneg.2 h1) hA.le
      have a2 := mul_nonpos_of_nonneg_of_nonpos (sub_nonneg.2 h2) hC.le
      rcases h0.lt_or_eq with he | he
      · have : B ≤ 0 := by
          by_contra hc
          push Not at hc
          have := mul_pos he hc
          linarith
        exact Or.inr ⟨hA, lt_of_le_of_ne this hB, hC⟩
      · exfalso
        rw [← he] at h
        have := mul_neg_of_pos_of_neg hp hA
        have := mul_neg_of_pos_of_neg hq hC
        linarith
  · rintro (⟨hA, _, hC⟩ | ⟨hA, _, hC⟩)
    · exact Or.inl ⟨hA, hC⟩
    · exact Or.inr ⟨hA, hC⟩

theorem tri_low (a b c v : K × K) (h1 : area a b v ≠ 0) (h2 : area b c v ≠ 0) (h3 : area c a v ≠ 0) (ha : a.2 < v.2) (hb : v.2 ≤ b.2)
    (hc : v.2 ≤ c.2) : ((crosses v a b ^^ crosses v c a) = true) ↔ Inside a b c v := by
  have core := sep_core (area a b v) (area b c v) (area c a v) (c.2 - a.2) (b.2 - a.2) (v.2 - a.2) (by unfold area; ring) (by linarith) (by linarith)
    (by linarith) (by linarith) (by linarith) h2
  unfold Inside
  rw [← core]
  have e1 := crosses_up v a b ha hb
  have e2 := crosses_down v c a ha hc
  rcases lt_or_gt_of_ne h1 with g1 | g1 <;> rcases lt_or_gt_of_ne h3 with g3 | g3
  · rw [e1.2 g1, Bool.eq_false_iff.2 (fun h => absurd (e2.1 h) (not_lt.2 g3.le))]; simp [g1, g3]
  · rw [e1.2 g1, e2.2 g3]; simp [not_lt.2 g1.le, not_lt.2 g3.le]
  · rw [Bool.eq_false_iff.2 (fun h => absurd (e1.1 h) (not_lt.2 g1.le)), Bool.eq_false_iff.2 (fun h => absurd (e2.1 h) (not_lt.2 g3.le))]
    simp [not_lt.2 g1.le, not_lt.2 g3.le]
  · rw [e2.2 g3, Bool.eq_false_iff.2 (fun h => absurd (e1.1 h) (not_lt.2 g1.le))]; simp [g1, g3]

theorem tri_high (a b c v : K × K) (h1 : area a b v ≠ 0) (h2 : area b c v ≠ 0) (h3 : area c a v ≠ 0) (ha : v.2 ≤ a.2) (hb : b.2 < v.2)
    (hc : c.2 < v.2) : ((crosses v a b ^^ crosses v c a) = true) ↔ Inside a b c v := by
  have core := sep_core (area a b v) (area b c v) (area c a v) (a.2 - c.2) (a.2 - b.2) (a.2 - v.2) (by unfold area; ring) (by linarith) (by linarith)
    (by linarith) (by linarith) (by linarith) h2
  unfold Inside
  rw [← core]
  have e1 := crosses_down v a b hb ha
  have e2 := crosses_up v c a hc ha
  rcases lt_or_gt_of_ne h1 with g1 | g1 <;> rcases lt_or_gt_of_ne h3 with g3 | g3
  · rw [e2.2 g3, Bool.eq_false_iff.2 (fun h => absurd (e1.1 h) (not_lt.2 g1.le))]; simp [g1, g3]
  · rw [Bool.eq_false_iff.2 (fun h => absurd (e1.1 h) (not_lt.2 g1.le)), Bool.eq_false_iff.2 (fun h => absurd (e2.1 h) (not_lt.2 g3.le))]
    simp [not_lt.2 g1.le, not_lt.2 g3.le]
  · rw [e1.2 g1, e2.2 g3]; simp [not_lt.2 g1.le, not_lt.2 g3.le]
  · rw [e1.2 g1, Bool.eq_false_iff.2 (fun h => absurd (e2.1 h) (not_lt.2 g3.le))]; simp [g1, g3]

theorem inside_rot (a b c v : K × K) : Inside b c a v ↔ Inside a b c v := by unfold Inside; tauto

/-- All corners on one side in height: not inside. -/
theorem not_inside_flat (a b c v : K × K) (h : (a.2 < v.2 ∧ b.2 < v.2 ∧ c.2 < v.2) ∨ (v.2 ≤ a.2 ∧ v.2 ≤ b.2 ∧ v.2 ≤ c.2)) : ¬ Inside a b c v := by
  have id : area b c v * (a.2 - v.2) + area c a v * (b.2 - v.2) + area a b v * (c.2 - v.2) = 0 := by unfold area; ring
  have id2 : area b c v * (a.2 - v.2) + area c a v * (b.2 - v.2) + area a b v * (c.2 - v.2) = 0 := id
  rintro (⟨h1, h2, h3⟩ | ⟨h1, h2, h3⟩) <;> rcases h with ⟨ha, hb, hc⟩ | ⟨ha, hb, hc⟩
  · have := mul_neg_of_pos_of_neg h2 (sub_neg.2 ha)
    have := mul_neg_of_pos_of_neg h3 (sub_neg.2 hb)
    have := mul_neg_of_pos_of_neg h1 (sub_neg.2 hc)
    linarith
  · have a1 := mul_nonneg h2.le (sub_nonneg.2 ha)
    have a2 := mul_nonneg h3.le (sub_nonneg.2 hb)
    have a3 := mul_nonneg h1.le (sub_nonneg.2 hc)
    have z1 : area b c v * (a.2 - v.2) = 0 := by linarith
    have z2 : area c a v * (b.2 - v.2) = 0 := by linarith
    have z3 : area a b v * (c.2 - v.2) = 0 := by linarith
    have y1 := (mul_eq_zero.1 z1).resolve_left h2.ne'
    have y2 := (mul_eq_zero.1 z2).resolve_left h3.ne'
    have : area a b v = 0 := by
      unfold area
      rw [show b.2 - a.2 = 0 by linarith, show v.2 - a.2 = 0 by linarith]; ring
    linarith
  · have := mul_pos_of_neg_of_neg h2 (sub_neg.2 ha)
    have := mul_pos_of_neg_of_neg h3 (sub_neg.2 hb)
    have := mul_pos_of_neg_of_neg h1 (sub_neg.2 hc)
    linarith
  · have a1 := mul_nonpos_of_nonpos_of_nonneg h2.le (sub_nonneg.2 ha)
    have a2 := mul_nonpos_of_nonpos_of_nonneg h3.le (sub_nonneg.2 hb)
    have a3 := mul_nonpos_of_nonpos_of_nonneg h1.le (sub_nonneg.2 hc)
    have z1 : area b c v * (a.2 - v.2) = 0 := by linarith
    have z2 : area c a v * (b.2 - v.2) = 0 := by linarith
    have y1 := (mul_eq_zero.1 z1).resolve_left h2.ne
    have y2 := (mul_eq_zero.1 z2).resolve_left h3.ne
    have : area a b v = 0 := by
      unfold area
      rw [show b.2 - a.2 = 0 by linarith, show v.2 - a.2 = 0 by linarith]; ring
    linarith

/-- A point off the three lines is inside a triangle exactly if `TrimPoint` says so. -/
theorem trimPoint_triangle (a b c v : K × K) (h1 : area a b v ≠ 0) (h2 : area b c v ≠ 0) (h3 : area c a v ≠ 0) :
    trimPoint [a, b, c] v = true ↔ Inside a b c v := by
  rw [tri_par, crosses_symm v a c, crosses_symm v b a, crosses_symm v c b]
  by_cases ha : a.2 < v.2 <;> by_cases hb : b.2 < v.2 <;> by_cases hc : c.2 < v.2
  · have := not_inside_flat a b c v (Or.inl ⟨ha, hb, hc⟩)
    rw [crosses_none v c a (Or.inl ⟨hc, ha⟩), crosses_none v a b (Or.inl ⟨ha, hb⟩), crosses_none v b c (Or.inl ⟨hb, hc⟩)]
    simpa using this
  · push Not at hc
    have := tri_high c a b v h3 h1 h2 hc ha hb
    rw [crosses_none v a b (Or.inl ⟨ha, hb⟩), Bool.false_xor, this, inside_rot b c a, inside_rot a b c]
  · push Not at hb
    have := tri_high b c a v h2 h3 h1 hb hc ha
    rw [crosses_none v c a (Or.inl ⟨hc, ha⟩), Bool.false_xor, Bool.xor_comm, this, inside_rot a b c]
  · push Not at hb hc
    have := tri_low a b c v h1 h2 h3 ha hb hc
    rw [crosses_none v b c (Or.inr ⟨hb, hc⟩), Bool.xor_false, Bool.xor_comm, this]
  · push Not at ha
    have := tri_high a b c v h1 h2 h3 ha hb hc
    rw [crosses_none v b c (Or.inl ⟨hb, hc⟩), Bool.xor_false, Bool.xor_comm, this]
  · push Not at ha hc
    have := tri_low b c a v h2 h3 h1 hb hc ha
    rw [crosses_none v c a (Or.inr ⟨hc, ha⟩), Bool.false_xor, Bool.xor_comm, this, inside_rot a b c]
  · push Not at ha hb
    have := tri_low c a b v h3 h1 h2 hc ha hb
    rw [crosses_none v a b (Or.inr ⟨ha, hb⟩), Bool.false_xor, this, inside_rot b c a, inside_rot a b c]
  · push Not at ha hb hc
    have := not_inside_flat a b c v (Or.inr ⟨ha, hb, hc⟩)
    rw [crosses_none v c a (Or.inr ⟨hc, ha⟩), crosses_none v a b (Or.inr ⟨ha, hb⟩), crosses_none v b c (Or.inr ⟨hb, hc⟩)]
    simpa using this

/-- A loop is a triangle and a smaller loop. -/
theorem trimPoint_fan (o a b v : K × K) (l : List (K × K)) :
    trimPoint (o :: a :: b :: l) v = (trimPoint [o, a, b] v ^^ trimPoint (o :: b :: l) v) := by
  obtain ⟨z, hz⟩ : ∃ z, (b :: l).getLast? = some z := by
    cases h : (b :: l).getLast? with
    | none => simp at h
    | some z => exact ⟨z, rfl⟩
  have z1 : (o :: a :: b :: l).getLast? = some z := by simpa using hz
  have z2 : (o :: b :: l).getLast? = some z := by simpa using hz
  rw [trimPoint_par _ z v z1, trimPoint_par _ z v z2, tri_par]
  simp only [par]
  rw [crosses_symm v o b]
  cases crosses v o z <;> cases crosses v a o <;> cases crosses v b a <;> cases crosses v b o <;> cases par v b l <;> rfl

end Verif.Geom.Trim
