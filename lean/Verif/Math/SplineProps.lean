import Verif.Math.Spline
import Mathlib.Data.Nat.Log
import Mathlib.Tactic.Linarith
import Mathlib.Tactic.NormNum
import Mathlib.Tactic.Ring
import Mathlib.Tactic.Module
import Mathlib.Tactic.FieldSimp
import Mathlib.Tactic.Positivity
import Mathlib.Tactic.SplitIfs
import Mathlib.Algebra.Order.Floor.Ring
import Mathlib.Algebra.Order.Field.Basic
import Mathlib.Algebra.Order.Field.Power

/-!
# Properties of splines (C68)
-/

namespace Verif.Math.Spline

section
variable {K : Type} [Field K] [LinearOrder K] [FloorRing K]
variable {V : Type} [AddCommGroup V] [Module K V]

/-! ## Specification -/

/-- The cubic through `p` and `q` with tangents `p'` and `q'`. -/
def hermiteCurve (p p' q q' : V) (t : K) : V :=
  (2 * t ^ 3 - 3 * t ^ 2 + 1) • p + (t ^ 3 - 2 * t ^ 2 + t) • p'
    + (-2 * t ^ 3 + 3 * t ^ 2) • q + (t ^ 3 - t ^ 2) • q'

/-- The curve each basis stands for, on four control points. -/
def curve : Basis → V → V → V → V → K → V
  | .bezier, a, b, c, d, t =>
    ((1 - t) ^ 3) • a + (3 * t * (1 - t) ^ 2) • b + (3 * t ^ 2 * (1 - t)) • c + (t ^ 3) • d
  | .bspline, a, b, c, d, t =>
    ((1 - t) ^ 3 / 6) • a + ((3 * t ^ 3 - 6 * t ^ 2 + 4) / 6) • b
      + ((-3 * t ^ 3 + 3 * t ^ 2 + 3 * t + 1) / 6) • c + (t ^ 3 / 6) • d
  | .catmullRom, a, b, c, d, t =>
    hermiteCurve b ((1 / 2 : K) • (c - a)) c ((1 / 2 : K) • (d - b)) t
  | .hermite, a, b, c, d, t => hermiteCurve a b c d t
  | .power, a, b, c, d, t => (t ^ 3) • a + (t ^ 2) • b + t • c + d
  | .linear, _, b, c, _, t => (1 - t) • b + t • c

/-- The four control points from position `i` on. -/
def Window (pts : List V) (i : Nat) (v0 v1 v2 v3 : V) : Prop :=
  pts[i]? = some v0 ∧ pts[i + 1]? = some v1 ∧ pts[i + 2]? = some v2 ∧ pts[i + 3]? = some v3

/-- The number of sections of a spline on `size` points. -/
def sections (b : Basis) (size : Nat) : Nat := (size - 4) / step b + 1

/-- A number which a `float` can hold, leaving aside the range of the exponent. -/
def IsFloat (y : ℚ) : Prop := ∃ m e : ℤ, |m| < 2 ^ 24 ∧ y = m * 2 ^ e

/-- `y` is a float nearest to `x`. -/
def Nearest (x y : ℚ) : Prop := IsFloat y ∧ ∀ z, IsFloat z → |y - x| ≤ |z - x|

/-! ## Names -/

/-- C68: a spline is chosen by its name; any other name gives Catmull-Rom. -/
theorem C68_names (s : String) :
    (ofName "bezier" = .bezier ∧ ofName "bspline" = .bspline ∧ ofName "catmull-rom" = .catmullRom ∧ ofName "hermite" = .hermite ∧
      ofName "power" = .power ∧ ofName "linear" = .linear) ∧
    (s ∉ ["bezier", "bspline", "catmull-rom", "hermite", "power", "linear"] → ofName s = .catmullRom) := by
  refine ⟨by decide +kernel, fun h => ?_⟩
  have key : ∀ (l : List (String × Basis)) (d : Basis), s ∉ l.map Prod.fst →
      l.foldl (fun b e => if e.1 = s then e.2 else b) d = d := by
    intro l
    induction l with
    | nil => intro d _; rfl
    | cons e l ih =>
      intro d hl
      rw [List.map_cons, List.mem_cons, not_or] at hl
      rw [List.foldl_cons, if_neg (fun hs => hl.1 hs.symm)]
      exact ih d hl.2
  exact key table .catmullRom h

example : ofName "hermite" = .hermite ∧ ofName "Bezier" = .catmullRom := by decide +kernel

/-! ## Sections -/

theorem numSections_eq (b : Basis) (size : Nat) (h4 : 4 ≤ size) (hs : size < 2 ^ 31) :
    numSections b size = (sections b size : Int) := by
  have e : (size + (2 ^ 64 - 4)) % 2 ^ 64 = size - 4 := by omega
  unfold numSections sections
  rw [e]
  have hd : (size - 4) / step b ≤ size - 4 := Nat.div_le_self _ _
  have e2 : ((size - 4) / step b + 1) % 2 ^ 64 = (size - 4) / step b + 1 :=
    Nat.mod_eq_of_lt (by omega)
  rw [e2]
  unfold toInt32
  have e3 : ((size - 4) / step b + 1) % 2 ^ 32 = (size - 4) / step b + 1 :=
    Nat.mod_eq_of_lt (by omega)
  simp only [e3]
  rw [if_pos (by omega)]

omit [LinearOrder K] [FloorRing K] in
theorem section4_eq [CharZero K] (b : Basis) (v0 v1 v2 v3 : V) (t : K) :
    section4 b v0 v1 v2 v3 t = curve b v0 v1 v2 v3 t := by
  cases b <;> simp only [section4, gsum, entry, matrix, curve, hermiteCurve, List.getD_cons_zero,
    List.getD_cons_succ] <;> module

theorem step_pos (b : Basis) : 1 ≤ step b := by cases b <;> decide

omit [AddCommGroup V] in
theorem window_exists (b : Basis) (pts : List V) (h4 : 4 ≤ pts.length) (k : Nat)
    (hk : k < sections b pts.length) :
    ∃ v0 v1 v2 v3, Window pts (k * step b) v0 v1 v2 v3 := by
  have hk' : k ≤ (pts.length - 4) / step b := by unfold sections at hk; omega
  have hle : k * step b ≤ pts.length - 4 :=
    le_trans (Nat.mul_le_mul_right _ hk') (Nat.div_mul_le_self _ _)
  have h : k * step b + 3 < pts.length := by omega
  exact ⟨_, _, _, _, List.getElem?_eq_getElem (by omega), List.getElem?_eq_getElem (by omega),
    List.getElem?_eq_getElem (by omega), List.getElem?_eq_getElem h⟩

omit [AddCommGroup V] in
theorem at?_nat (pts : List V) (i : Nat) : at? pts (i : Int) = pts[i]? := by
  unfold at?
  rw [if_pos (Int.natCast_nonneg i), Int.toNat_natCast]

variable [IsStrictOrderedRing K]

theorem trunc_add (k : Nat) (u : K) (h0 : 0 ≤ u) (h1 : u < 1) : trunc ((k : K) + u) = k := by
  unfold trunc
  have hk : (0 : K) ≤ (k : K) := Nat.cast_nonneg k
  rw [if_pos (by linarith)]
  rw [Int.floor_eq_iff]
  constructor
  · simpa using h0
  · push_cast; linarith

theorem evaluate_section (b : Basis) (pts : List V) (h4 : 4 ≤ pts.length)
    (hs : pts.length < 2 ^ 31) (k : Nat) (hk : k < sections b pts.length) (u : K) (h0 : 0 ≤ u)
    (h1 : u < 1) (v0 v1 v2 v3 : V) (hw : Window pts (k * step b) v0 v1 v2 v3) :
    evaluate b pts (((k : K) + u) / (sections b pts.length : K)) = some (curve b v0 v1 v2 v3 u) := by
  have hn : (sections b pts.length : K) ≠ 0 := by
    have : sections b pts.length ≠ 0 := by omega
    exact_mod_cast this
  unfold evaluate
  rw [numSections_eq b _ h4 hs]
  have e : ((sections b pts.length : Int) : K) * (((k : K) + u) / (sections b pts.length : K))
      = (k : K) + u := by
    push_cast
    field_simp
  simp only [e, trunc_add k u h0 h1]
  obtain ⟨w0, w1, w2, w3⟩ := hw
  have i0 : (0 : Int) + (k : Int) * (step b : Int) = ((k * step b : Nat) : Int) := by
    push_cast; ring
  have i1 : (1 : Int) + (k : Int) * (step b : Int) = ((k * step b + 1 : Nat) : Int) := by
    push_cast; ring
  have i2 : (2 : Int) + (k : Int) * (step b : Int) = ((k * step b + 2 : Nat) : Int) := by
    push_cast; ring
  have i3 : (3 : Int) + (k : Int) * (step b : Int) = ((k * step b + 3 : Nat) : Int) := by
    push_cast; ring
  rw [i0, i1, i2, i3, at?_nat, at?_nat, at?_nat, at?_nat, w0, w1, w2, w3]
  have et : (k : K) + u - (((k : Nat) : Int) : K) = u := by push_cast; ring
  simp only [et, section4_eq]
  rfl

/-- C68: with four control points or more, the parameter interval `[0,1)` is divided evenly
between the sections; within a section the spline is the curve of its basis on four consecutive
control points, and nothing outside the control points is read. -/
theorem C68_sections (b : Basis) (pts : List V) (h4 : 4 ≤ pts.length) (hs : pts.length < 2 ^ 31) :
    (∀ (k : Nat) (u : K), k < sections b pts.length → 0 ≤ u → u < 1 →
      ∃ v0 v1 v2 v3, Window pts (k * step b) v0 v1 v2 v3 ∧
        evaluate b pts (((k : K) + u) / (sections b pts.length : K))
          = some (curve b v0 v1 v2 v3 u)) ∧
    (∀ t : K, 0 ≤ t → t < 1 → ∃ (k : Nat) (u : K), k < sections b pts.length ∧ 0 ≤ u ∧ u < 1 ∧
      t = ((k : K) + u) / (sections b pts.length : K)) := by
  constructor
  · intro k u hk h0 h1
    obtain ⟨v0, v1, v2, v3, hw⟩ := window_exists b pts h4 k hk
    exact ⟨v0, v1, v2, v3, hw, evaluate_section b pts h4 hs k hk u h0 h1 v0 v1 v2 v3 hw⟩
  · intro t h0 h1
    set n := sections b pts.length with hn
    have hnpos : 0 < n := by rw [hn]; unfold sections; exact Nat.succ_pos _
    have hnK : (0 : K) < (n : K) := by exact_mod_cast hnpos
    have hx : 0 ≤ (n : K) * t := by positivity
    refine ⟨⌊(n : K) * t⌋₊, (n : K) * t - (⌊(n : K) * t⌋₊ : K), ?_, ?_, ?_, ?_⟩
    · rw [Nat.floor_lt hx]
      nlinarith
    · have := Nat.floor_le hx
      linarith
    · have := Nat.lt_floor_add_one ((n : K) * t)
      linarith
    · field_simp
      ring

example : evaluate .linear [(0 : ℚ), 1, 3, 7, 9] (3/4 : ℚ) = some 5 ∧
    sections .linear 5 = 2 := by
  constructor
  · have h := evaluate_section (K := ℚ) .linear [(0 : ℚ), 1, 3, 7, 9] (by decide) (by decide) 1
      (by decide) (1/2) (by norm_num) (by norm_num) 1 3 7 9 ⟨rfl, rfl, rfl, rfl⟩
    have e : ((1 : Nat) + (1/2 : ℚ)) / (sections .linear [(0 : ℚ), 1, 3, 7, 9].length : ℚ) = 3/4 := by
      norm_num [sections, step]
    rw [e] at h
    rw [h]
    norm_num [curve]
  · decide

omit [FloorRing K] in
theorem curve_hull (b : Basis) (hb : b = .bezier ∨ b = .bspline ∨ b = .linear) (t : K) (h0 : 0 ≤ t)
    (h1 : t ≤ 1) : ∃ w0 w1 w2 w3 : K, 0 ≤ w0 ∧ 0 ≤ w1 ∧ 0 ≤ w2 ∧ 0 ≤ w3 ∧ w0 + w1 + w2 + w3 = 1 ∧
      ∀ v0 v1 v2 v3 : V, curve b v0 v1 v2 v3 t = w0 • v0 + w1 • v1 + w2 • v2 + w3 • v3 := by
  have h1' : 0 ≤ 1 - t := by linarith
  rcases hb with rfl | rfl | rfl
  · refine ⟨(1 - t) ^ 3, 3 * t * (1 - t) ^ 2, 3 * t ^ 2 * (1 - t), t ^ 3, by positivity,
      by positivity, by positivity, by positivity, by ring, fun _ _ _ _ => rfl⟩
  · refine ⟨(1 - t) ^ 3 / 6, (3 * t ^ 3 - 6 * t ^ 2 + 4) / 6, (-3 * t ^ 3 + 3 * t ^ 2 + 3 * t + 1) / 6,
      t ^ 3 / 6, by positivity, ?_, ?_, by positivity, by ring, fun _ _ _ _ => rfl⟩
    · have : 3 * t ^ 3 - 6 * t ^ 2 + 4 = 3 * t * (1 - t) ^ 2 + 3 * (1 - t) + 1 := by ring
      rw [this]
      positivity
    · have : -3 * t ^ 3 + 3 * t ^ 2 + 3 * t + 1 = 3 * t ^ 2 * (1 - t) + 3 * t + 1 := by ring
      rw [this]
      positivity
  · exact ⟨0, 1 - t, t, 0, le_refl _, h1', h0, le_refl _, by ring, fun v0 v1 v2 v3 => by
      simp only [curve]; module⟩

/-- C68: between 0 and 1, the Bézier, B-spline and linear splines are weighted means of four
consecutive control points. -/
theorem C68_hull (b : Basis) (hb : b = .bezier ∨ b = .bspline ∨ b = .linear) (pts : List V)
    (h4 : 4 ≤ pts.length) (hs : pts.length < 2 ^ 31) (t : K) (h0 : 0 ≤ t) (h1 : t < 1) :
    ∃ (i : Nat) (v0 v1 v2 v3 : V) (w0 w1 w2 w3 : K), Window pts i v0 v1 v2 v3 ∧
      0 ≤ w0 ∧ 0 ≤ w1 ∧ 0 ≤ w2 ∧ 0 ≤ w3 ∧ w0 + w1 + w2 + w3 = 1 ∧
      evaluate b pts t = some (w0 • v0 + w1 • v1 + w2 • v2 + w3 • v3) := by
  obtain ⟨k, u, hk, hu0, hu1, ht⟩ := (C68_sections b pts h4 hs).2 t h0 h1
  obtain ⟨v0, v1, v2, v3, hw, he⟩ := (C68_sections (K := K) b pts h4 hs).1 k u hk hu0 hu1
  obtain ⟨w0, w1, w2, w3, p0, p1, p2, p3, ps, hc⟩ := curve_hull (V := V) b hb u hu0 hu1.le
  exact ⟨_, v0, v1, v2, v3, w0, w1, w2, w3, hw, p0, p1, p2, p3, ps, by rw [ht, he, hc]⟩

example : ¬ ∃ w0 w1 w2 w3 : ℚ, 0 ≤ w0 ∧ 0 ≤ w1 ∧ 0 ≤ w2 ∧ 0 ≤ w3 ∧ w0 + w1 + w2 + w3 = 1 ∧
      curve .catmullRom (0 : ℚ) 1 1 0 (1/2 : ℚ) = w0 • 0 + w1 • 1 + w2 • 1 + w3 • 0 := by
  rintro ⟨w0, w1, w2, w3, h0, h1, h2, h3, hs, h⟩
  norm_num [curve, hermiteCurve] at h
  linarith

omit [IsStrictOrderedRing K] in
/-- C68: moving all the control points moves the spline along, for the splines on points. -/
theorem C68_affine (b : Basis)
    (hb : b = .bezier ∨ b = .bspline ∨ b = .catmullRom ∨ b = .linear)
    (pts : List V) (d : V) (t : K) :
    evaluate b (pts.map (· + d)) t = (evaluate b pts t).map (· + d) := by
  have hat : ∀ i, at? (pts.map (· + d)) i = (at? pts i).map (· + d) := by
    intro i
    unfold at?
    split_ifs
    · simp
    · rfl
  have hsec : ∀ (v0 v1 v2 v3 : V) (x : K), section4 b (v0 + d) (v1 + d) (v2 + d) (v3 + d) x
      = section4 b v0 v1 v2 v3 x + d := by
    intro v0 v1 v2 v3 x
    rw [section4_eq, section4_eq]
    rcases hb with rfl | rfl | rfl | rfl <;> simp only [curve, hermiteCurve] <;> module
  unfold evaluate
  simp only [List.length_map, hat]
  generalize trunc ((numSections b pts.length : K) * t) * (step b : Int) = iv
  cases at? pts (0 + iv) <;> cases at? pts (1 + iv) <;> cases at? pts (2 + iv) <;>
    cases at? pts (3 + iv) <;> simp [hsec]

example : curve .power (0 + 1 : ℚ) (0 + 1) (0 + 1) (0 + 1) (1 : ℚ) ≠ curve .power (0 : ℚ) 0 0 0 (1 : ℚ) + 1 := by
  norm_num [curve]

/-! ## Joints -/

/-- C68: except for the power basis, the sections meet: the value at a joint is also where the
section before it ends. -/
theorem C68_joint (b : Basis) (hb : b ≠ .power) (pts : List V) (h4 : 4 ≤ pts.length)
    (hs : pts.length < 2 ^ 31) (k : Nat) (hk : k + 1 < sections b pts.length) :
    ∃ v0 v1 v2 v3, Window pts (k * step b) v0 v1 v2 v3 ∧
      evaluate b pts (((k + 1 : Nat) : K) / (sections b pts.length : K))
        = some (curve b v0 v1 v2 v3 (1 : K)) := by
  obtain ⟨v0, v1, v2, v3, hw⟩ := window_exists b pts h4 k (by omega)
  obtain ⟨x0, x1, x2, x3, hx⟩ := window_exists b pts h4 (k + 1) hk
  refine ⟨v0, v1, v2, v3, hw, ?_⟩
  have e := evaluate_section (K := K) b pts h4 hs (k + 1) hk 0 (le_refl _) zero_lt_one x0 x1 x2 x3 hx
  rw [add_zero] at e
  rw [e]
  congr 1
  obtain ⟨w0, w1, w2, w3⟩ := hw
  obtain ⟨y0, y1, y2, y3⟩ := hx
  cases b with
  | power => exact absurd rfl hb
  | bezier =>
    have : (k + 1) * step .bezier = k * step .bezier + 3 := by simp only [step]; ring
    rw [this] at y0
    have hxv : x0 = v3 := by rw [w3] at y0; exact (Option.some.inj y0).symm
    simp only [curve, hxv]; module
  | hermite =>
    have : (k + 1) * step .hermite = k * step .hermite + 2 := by simp only [step]; ring
    rw [this] at y0
    have hxv : x0 = v2 := by rw [w2] at y0; exact (Option.some.inj y0).symm
    simp only [curve, hermiteCurve, hxv]; module
  | bspline =>
    have : (k + 1) * step .bspline = k * step .bspline + 1 := by simp only [step]; ring
    rw [this] at y0 y1 y2
    have h0 : x0 = v1 := by rw [w1] at y0; exact (Option.some.inj y0).symm
    have h1 : x1 = v2 := by
      have : pts[k * step .bspline + 2]? = some x1 := y1
      rw [w2] at this; exact (Option.some.inj this).symm
    have h2 : x2 = v3 := by
      have : pts[k * step .bspline + 3]? = some x2 := y2
      rw [w3] at this; exact (Option.some.inj this).symm
    simp only [curve, h0, h1, h2]; module
  | catmullRom =>
    have : (k + 1) * step .catmullRom = k * step .catmullRom + 1 := by simp only [step]; ring
    rw [this] at y1
    have h1 : x1 = v2 := by
      have : pts[k * step .catmullRom + 2]? = some x1 := y1
      rw [w2] at this; exact (Option.some.inj this).symm
    simp only [curve, hermiteCurve, h1]; module
  | linear =>
    have : (k + 1) * step .linear = k * step .linear + 1 := by simp only [step]; ring
    rw [this] at y1
    have h1 : x1 = v2 := by
      have : pts[k * step .linear + 2]? = some x1 := y1
      rw [w2] at this; exact (Option.some.inj this).symm
    simp only [curve, h1]; module

/-- `s` is the tangent of the section at `t`: the section differs from its tangent line by a term of
second order. -/
def Tangent (b : Basis) (v0 v1 v2 v3 : V) (t : K) (s : V) : Prop :=
  ∃ p q : V, ∀ h : K, section4 b v0 v1 v2 v3 (t + h)
    = section4 b v0 v1 v2 v3 t + h • s + (h * h) • (p + h • q)

omit [FloorRing K] [LinearOrder K] [IsStrictOrderedRing K] in
/-- C68: at a joint the Catmull-Rom, B-spline and Hermite splines keep their direction. -/
theorem C68_smooth [CharZero K] (x0 x1 x2 x3 x4 x5 : V) :
    (∃ s, Tangent .catmullRom x0 x1 x2 x3 (1 : K) s ∧ Tangent .catmullRom x1 x2 x3 x4 (0 : K) s) ∧
    (∃ s, Tangent .bspline x0 x1 x2 x3 (1 : K) s ∧ Tangent .bspline x1 x2 x3 x4 (0 : K) s) ∧
    (Tangent .hermite x0 x1 x2 x3 (1 : K) x3 ∧ Tangent .hermite x2 x3 x4 x5 (0 : K) x3) ∧
    (Tangent .bezier x0 x1 x2 x3 (1 : K) ((3 : K) • (x3 - x2)) ∧
      Tangent .bezier x3 x4 x5 x0 (0 : K) ((3 : K) • (x4 - x3))) := by
  refine ⟨⟨(1/2 : K) • (x3 - x1), ⟨(-(1/2) : K) • x0 + (2 : K) • x1 + (-(5/2) : K) • x2 + x3,
      (-(1/2) : K) • x0 + (3/2 : K) • x1 + (-(3/2) : K) • x2 + (1/2 : K) • x3, ?_⟩,
      ⟨x1 + (-(5/2) : K) • x2 + (2 : K) • x3 + (-(1/2) : K) • x4,
      (-(1/2) : K) • x1 + (3/2 : K) • x2 + (-(3/2) : K) • x3 + (1/2 : K) • x4, ?_⟩⟩,
    ⟨(1/2 : K) • (x3 - x1), ⟨(1/2 : K) • x1 + (-1 : K) • x2 + (1/2 : K) • x3,
      (-(1/6) : K) • x0 + (1/2 : K) • x1 + (-(1/2) : K) • x2 + (1/6 : K) • x3, ?_⟩,
      ⟨(1/2 : K) • x1 + (-1 : K) • x2 + (1/2 : K) • x3,
      (-(1/6) : K) • x1 + (1/2 : K) • x2 + (-(1/2) : K) • x3 + (1/6 : K) • x4, ?_⟩⟩,
    ⟨⟨(3 : K) • x0 + x1 + (-3 : K) • x2 + (2 : K) • x3,
      (2 : K) • x0 + x1 + (-2 : K) • x2 + x3, ?_⟩,
      ⟨(-3 : K) • x2 + (-2 : K) • x3 + (3 : K) • x4 + (-1 : K) • x5,
      (2 : K) • x2 + x3 + (-2 : K) • x4 + x5, ?_⟩⟩,
    ⟨⟨(3 : K) • x1 + (-6 : K) • x2 + (3 : K) • x3,
      (-1 : K) • x0 + (3 : K) • x1 + (-3 : K) • x2 + x3, ?_⟩,
      ⟨(3 : K) • x3 + (-6 : K) • x4 + (3 : K) • x5,
      (-1 : K) • x3 + (3 : K) • x4 + (-3 : K) • x5 + x0, ?_⟩⟩⟩ <;>
    (intro h; simp only [section4_eq, curve, hermiteCurve]; module)

example : Tangent .bezier (0 : ℚ) 1 2 3 (0 : ℚ) 3 :=
  ⟨0, 0, fun h => by simp only [section4_eq, curve, smul_eq_mul]; ring⟩

/-- C68 is violated for the power basis: the sections do not meet. -/
theorem C68_power_violated :
    evaluate .power [(0 : ℚ), 0, 0, 1, 0, 0, 0, 5] (1/4 : ℚ) = some 1 ∧
    evaluate .power [(0 : ℚ), 0, 0, 1, 0, 0, 0, 5] (1/2 : ℚ) = some 5 ∧
    curve .power (0 : ℚ) 0 0 1 (1 : ℚ) = 1 := by
  have hlen : sections .power [(0 : ℚ), 0, 0, 1, 0, 0, 0, 5].length = 2 := by decide
  refine ⟨?_, ?_, by norm_num [curve]⟩
  · have h := evaluate_section (K := ℚ) .power [(0 : ℚ), 0, 0, 1, 0, 0, 0, 5] (by decide)
      (by decide) 0 (by decide) (1/2) (by norm_num) (by norm_num) 0 0 0 1 ⟨rfl, rfl, rfl, rfl⟩
    rw [hlen] at h
    have e : (((0 : Nat) : ℚ) + 1/2) / ((2 : Nat) : ℚ) = 1/4 := by norm_num
    rw [e] at h
    rw [h]; norm_num [curve]
  · have h := evaluate_section (K := ℚ) .power [(0 : ℚ), 0, 0, 1, 0, 0, 0, 5] (by decide)
      (by decide) 1 (by decide) 0 (by norm_num) (by norm_num) 0 0 0 5 ⟨rfl, rfl, rfl, rfl⟩
    rw [hlen] at h
    have e : (((1 : Nat) : ℚ) + 0) / ((2 : Nat) : ℚ) = 1/2 := by norm_num
    rw [e] at h
    rw [h]; norm_num [curve]

/-! ## The ends -/

/-- C68: for the Catmull-Rom and linear splines, a value of 0 or less gives the beginning of the
first section and a value of 1 or more gives the end of the last section.  Missing: the other
splines, for which this is false. -/
theorem C68_ends_partial (b : Basis) (hb : b = .catmullRom ∨ b = .linear) (pts : List V)
    (h4 : 4 ≤ pts.length) :
    ∃ a0 a1 a2 a3 z0 z1 z2 z3, Window pts 0 a0 a1 a2 a3 ∧
      Window pts (pts.length - 4) z0 z1 z2 z3 ∧
      (sections b pts.length - 1) * step b = pts.length - 4 ∧
      (∀ value : K, value ≤ 0 → point b pts pts value = some (curve b a0 a1 a2 a3 (0 : K))) ∧
      (∀ value : K, 1 ≤ value → point b pts pts value = some (curve b z0 z1 z2 z3 (1 : K))) := by
  have hst : step b = 1 := by rcases hb with rfl | rfl <;> rfl
  have hn : (sections b pts.length - 1) * step b = pts.length - 4 := by
    unfold sections; rw [hst]; simp
  have hw : ∀ i, i + 3 < pts.length → ∃ v0 v1 v2 v3, Window pts i v0 v1 v2 v3 := fun i hi =>
    ⟨_, _, _, _, List.getElem?_eq_getElem (by omega), List.getElem?_eq_getElem (by omega),
      List.getElem?_eq_getElem (by omega), List.getElem?_eq_getElem hi⟩
  obtain ⟨a0, a1, a2, a3, ha⟩ := hw 0 (by omega)
  obtain ⟨z0, z1, z2, z3, hz⟩ := hw (pts.length - 4) (by omega)
  refine ⟨a0, a1, a2, a3, z0, z1, z2, z3, ha, hz, hn, ?_, ?_⟩
  · intro value hv
    have e : point b pts pts value = at? pts 1 := by
      unfold point
      rw [if_neg (by linarith), if_pos hv]
    rw [e]
    have : at? pts 1 = pts[1]? := at?_nat pts 1
    rw [this, ha.2.1]
    rcases hb with rfl | rfl <;> simp [curve, hermiteCurve]
  · intro value hv
    have e : point b pts pts value = at? pts ((pts.length : Int) - 2) := by
      unfold point
      rw [if_pos hv]
    have e2 : (pts.length : Int) - 2 = ((pts.length - 4 + 2 : Nat) : Int) := by omega
    rw [e, e2, at?_nat, hz.2.2.1]
    rcases hb with rfl | rfl <;> simp only [curve, hermiteCurve] <;> congr 1 <;> module

example : point .catmullRom [(0 : ℚ), 1, 3, 7, 9] [(0 : ℚ), 1, 3, 7, 9] (1 : ℚ) = some 7 := by
  decide +kernel

/-- C68 is violated for the other splines: at a value of 0 a Bézier spline jumps away from its
first control point to its second, and likewise at 1. -/
theorem C68_ends_violated :
    point .bezier [(1 : ℚ), 0, 0, 1] [1, 0, 0, 1] (0 : ℚ) = some 0 ∧
    point .bezier [(1 : ℚ), 0, 0, 1] [1, 0, 0, 1] (1 : ℚ) = some 0 ∧
    (∀ t : ℚ, 0 < t → t ≤ 1/4 → ∃ v, 1/4 ≤ v ∧
      point .bezier [(1 : ℚ), 0, 0, 1] [1, 0, 0, 1] t = some v) ∧
    (∀ t : ℚ, 3/4 ≤ t → t < 1 → ∃ v, 1/4 ≤ v ∧
      point .bezier [(1 : ℚ), 0, 0, 1] [1, 0, 0, 1] t = some v) := by
  have hlen : sections .bezier [(1 : ℚ), 0, 0, 1].length = 1 := by decide
  have ev : ∀ t : ℚ, 0 < t → t < 1 → point .bezier [(1 : ℚ), 0, 0, 1] [1, 0, 0, 1] t
      = some ((1 - t) ^ 3 + t ^ 3) := by
    intro t h0 h1
    have e : point .bezier [(1 : ℚ), 0, 0, 1] [1, 0, 0, 1] t = evaluate .bezier [(1 : ℚ), 0, 0, 1] t := by
      unfold point
      rw [if_neg (by linarith), if_neg (by linarith)]
    have h := evaluate_section (K := ℚ) .bezier [(1 : ℚ), 0, 0, 1] (by decide) (by decide) 0
      (by decide) t h0.le h1 1 0 0 1 ⟨rfl, rfl, rfl, rfl⟩
    rw [hlen] at h
    have e2 : (((0 : Nat) : ℚ) + t) / ((1 : Nat) : ℚ) = t := by norm_num
    rw [e2] at h
    rw [e, h]
    simp [curve]
  refine ⟨by decide +kernel, by decide +kernel, ?_, ?_⟩
  · intro t h0 h1
    refine ⟨(1 - t) ^ 3 + t ^ 3, ?_, ev t h0 (by linarith)⟩
    nlinarith [sq_nonneg t]
  · intro t h0 h1
    refine ⟨(1 - t) ^ 3 + t ^ 3, ?_, ev t (by linarith) h1⟩
    nlinarith [sq_nonneg t]

/-! ## Too few points, and rounding -/

omit [IsStrictOrderedRing K] in
/-- C68 is violated for arrays: with fewer than four control points, which an array may have,
evaluating the spline reads outside the control points whatever the parameter. -/
theorem C68_few_violated (b : Basis) (pts : List V) (h : pts.length < 4) (t : K) :
    evaluate b pts t = none := by
  unfold evaluate
  simp only
  generalize trunc ((numSections b pts.length : K) * t) * (step b : Int) = iv
  by_cases hn : 0 ≤ iv
  · have e3 : at? pts (3 + iv) = none := by
      unfold at?
      rw [if_pos (by omega)]
      exact List.getElem?_eq_none (by omega)
    cases at? pts (0 + iv) <;> cases at? pts (1 + iv) <;> cases at? pts (2 + iv) <;>
      simp [e3]
  · have e0 : at? pts (0 + iv) = none := by
      unfold at?
      rw [if_neg (by omega)]
    simp only [e0]
    rfl

example : point .catmullRom [(5 : ℚ)] [(5 : ℚ)] (1 : ℚ) = none ∧
    point .catmullRom [(1 : ℚ), 2, 3] [1, 2, 3] (1/2 : ℚ) = none ∧
    point .catmullRom [(1 : ℚ), 2, 3] [1, 2, 3] (1 : ℚ) = some 2 := by
  refine ⟨by decide +kernel, ?_, by decide +kernel⟩
  have e : point .catmullRom [(1 : ℚ), 2, 3] [1, 2, 3] (1/2 : ℚ)
      = evaluate .catmullRom [(1 : ℚ), 2, 3] (1/2 : ℚ) := by
    unfold point
    rw [if_neg (by norm_num), if_neg (by norm_num)]
  rw [e]
  exact C68_few_violated _ _ (by decide) _

theorem float_lt_one (t : ℚ) (ht : IsFloat t) (h0 : 0 < t) (h1 : t < 1) : t ≤ 1 - 1 / 2 ^ 24 := by
  obtain ⟨m, e, hm, rfl⟩ := ht
  have hp : (0 : ℚ) < 2 ^ e := zpow_pos (by norm_num) e
  have hmpos : 0 < m := by
    have : (0 : ℚ) < m := by
      by_contra hc
      have := mul_nonpos_of_nonpos_of_nonneg (not_lt.mp hc) hp.le
      linarith
    exact_mod_cast this
  rw [abs_of_pos hmpos] at hm
  have hm' : m ≤ 2 ^ 24 - 1 := by omega
  have hmq : (m : ℚ) ≤ 2 ^ 24 - 1 := by exact_mod_cast hm'
  have hmq1 : (1 : ℚ) ≤ m := by exact_mod_cast hmpos
  have he : e < 0 := by
    by_contra hc
    have : (1 : ℚ) ≤ 2 ^ e := one_le_zpow₀ (by norm_num) (by omega)
    nlinarith
  obtain ⟨j, rfl⟩ : ∃ j : ℕ, e = -(j : ℤ) := ⟨e.natAbs, by omega⟩
  rw [zpow_neg, zpow_natCast] at *
  have hj : (0 : ℚ) < 2 ^ j := by positivity
  by_cases hc : 24 ≤ j
  · have : ((2 : ℚ) ^ j)⁻¹ ≤ ((2 : ℚ) ^ 24)⁻¹ :=
      inv_anti₀ (by positivity) (pow_le_pow_right₀ (by norm_num) hc)
    calc (m : ℚ) * (2 ^ j)⁻¹ ≤ (2 ^ 24 - 1) * ((2 : ℚ) ^ 24)⁻¹ := by
          apply mul_le_mul hmq this (by positivity) (by norm_num)
      _ = 1 - 1 / 2 ^ 24 := by norm_num
  · have hlt : (m : ℚ) < 2 ^ j := by
      rw [← div_eq_mul_inv, div_lt_one hj] at h1
      exact h1
    have hz : m < 2 ^ j := by exact_mod_cast hlt
    have hz' : m ≤ 2 ^ j - 1 := by omega
    have hq : (m : ℚ) ≤ 2 ^ j - 1 := by exact_mod_cast hz'
    have hle : (2 : ℚ) ^ j ≤ 2 ^ 24 := pow_le_pow_right₀ (by norm_num) (by omega)
    have hinv : 1 / (2 : ℚ) ^ 24 ≤ 1 / 2 ^ j := one_div_le_one_div_of_le hj hle
    calc (m : ℚ) * (2 ^ j)⁻¹ ≤ (2 ^ j - 1) * ((2 : ℚ) ^ j)⁻¹ :=
          mul_le_mul_of_nonneg_right hq (by positivity)
      _ = 1 - 1 / 2 ^ j := by field_simp
      _ ≤ _ := by linarith

theorem float_gap (n : ℕ) (h1 : 1 ≤ n) (h2 : n < 2 ^ 24) :
    ∃ d : ℚ, 0 < d ∧ d < 2 * (n / 2 ^ 24) ∧ IsFloat (n - d) := by
  have hk1 : 2 ^ Nat.log 2 n ≤ n := Nat.pow_log_le_self 2 (by omega)
  have hk2 : n < 2 ^ (Nat.log 2 n + 1) := Nat.lt_pow_succ_log_self (by norm_num) n
  have hk : Nat.log 2 n ≤ 23 := by
    by_contra hc
    have : 2 ^ 24 ≤ 2 ^ Nat.log 2 n := Nat.pow_le_pow_right (by norm_num) (by omega)
    omega
  generalize Nat.log 2 n = k at *
  rcases Nat.eq_or_lt_of_le hk1 with he | hlt
  · refine ⟨1 / 2 ^ (24 - k), by positivity, ?_, ⟨2 ^ 24 - 1, -((24 - k : ℕ) : ℤ), by norm_num, ?_⟩⟩
    · have e : (2 : ℚ) ^ 24 = 2 ^ (24 - k) * 2 ^ k := by rw [← pow_add]; congr 1; omega
      rw [← he, e]
      push_cast
      rw [div_lt_iff₀ (by positivity)]
      field_simp
      norm_num
    · rw [zpow_neg, zpow_natCast, ← he]
      have e : (2 : ℚ) ^ 24 = 2 ^ (24 - k) * 2 ^ k := by rw [← pow_add]; congr 1; omega
      push_cast
      have e16 : (16777215 : ℚ) = 2 ^ (24 - k) * 2 ^ k - 1 := by rw [← e]; norm_num
      rw [e16]
      field_simp
  · refine ⟨1 / 2 ^ (23 - k), by positivity, ?_,
      ⟨n * 2 ^ (23 - k) - 1, -((23 - k : ℕ) : ℤ), ?_, ?_⟩⟩
    · have e : (2 : ℚ) ^ 24 = 2 * (2 ^ (23 - k) * 2 ^ k) := by
        rw [← pow_add, ← pow_succ']; congr 1; omega
      have hq : (2 : ℚ) ^ k < n := by exact_mod_cast hlt
      rw [e, div_lt_iff₀ (by positivity)]
      field_simp
      linarith
    · have e : n * 2 ^ (23 - k) ≤ 2 ^ 24 := by
        calc n * 2 ^ (23 - k) ≤ 2 ^ (k + 1) * 2 ^ (23 - k) := Nat.mul_le_mul_right _ hk2.le
          _ = 2 ^ 24 := by rw [← pow_add]; congr 1; omega
      have e' : ((n : ℤ) * 2 ^ (23 - k)) ≤ 2 ^ 24 := by exact_mod_cast e
      have p : (1 : ℤ) ≤ (n : ℤ) * 2 ^ (23 - k) := by
        have : 1 ≤ n * 2 ^ (23 - k) := Nat.mul_pos (by omega) (by positivity)
        exact_mod_cast this
      rw [abs_of_nonneg (by linarith)]
      linarith
    · rw [zpow_neg, zpow_natCast]
      push_cast
      field_simp

/-- C68: rounding does not lead past the last section.  When the number of sections and the
parameter, a float below 1, are multiplied and the product is rounded to a nearest float, the
result stays below the number of sections. -/
theorem C68_float (n : ℕ) (h1 : 1 ≤ n) (h2 : n < 2 ^ 24) (t y : ℚ) (ht : IsFloat t) (h0 : 0 < t)
    (ht1 : t < 1) (hy : Nearest (n * t) y) : y < n ∧ trunc y < n := by
  have hmain : y < n := by
    by_contra hc
    have hyn : (n : ℚ) ≤ y := not_lt.mp hc
    have hle := float_lt_one t ht h0 ht1
    obtain ⟨d, hd0, hd1, hd⟩ := float_gap n h1 h2
    have hnq : (1 : ℚ) ≤ n := by exact_mod_cast h1
    have hx : (n : ℚ) * t ≤ n - n / 2 ^ 24 := by
      calc (n : ℚ) * t ≤ n * (1 - 1 / 2 ^ 24) := mul_le_mul_of_nonneg_left hle (by linarith)
        _ = n - n / 2 ^ 24 := by ring
    have hg : (0 : ℚ) < n / 2 ^ 24 := by positivity
    have hnear := hy.2 _ hd
    have h3 : |y - n * t| = y - n * t := abs_of_nonneg (by linarith)
    rw [h3] at hnear
    have h4 : |(n : ℚ) - d - n * t| < n - n * t := by
      rw [abs_lt]
      constructor <;> linarith
    linarith
  refine ⟨hmain, ?_⟩
  unfold trunc
  split_ifs with hs
  · have h := Int.floor_le y
    have : ((⌊y⌋ : ℤ) : ℚ) < ((n : ℤ) : ℚ) := by push_cast; linarith
    exact_mod_cast this
  · have : ⌈y⌉ ≤ 0 := Int.ceil_le.mpr (by push_cast; linarith)
    omega

example : IsFloat (1 / 2) ∧ Nearest (((3 : ℕ) : ℚ) * (1 / 2)) (3 / 2) := by
  refine ⟨⟨1, -1, by norm_num, by norm_num⟩, ⟨3, -1, by norm_num, by norm_num⟩, fun z _ => ?_⟩
  have : ((3 / 2 : ℚ) - ((3 : ℕ) : ℚ) * (1 / 2)) = 0 := by norm_num
  rw [this, abs_zero]
  exact abs_nonneg _

/-! ## The loop over the shading points -/

omit [LinearOrder K] [FloorRing K] [IsStrictOrderedRing K] [AddCommGroup V] [Module K V] [Field K] in
theorem gridLoop_spec (running : Nat → Bool) (count : Nat) (body : Nat → St V → Option (St V))
    (Inv : List V → Prop) (f : Nat → Option V)
    (hb : ∀ i s, i < count → Inv s.pts → (f i = none ∧ body i s = none) ∨
      ∃ r p, f i = some r ∧ body i s = some ⟨p, Function.update s.res i r⟩ ∧ Inv p) :
    ∀ fuel i (s : St V) (r : Nat → V), Inv s.pts → i < count → count ≤ i + fuel →
      ((gridLoop true running count body fuel i s).map St.res = some r ↔
        (∀ j, i ≤ j → j < count → running j = true → f j = some (r j)) ∧
        (∀ j, ¬ (i ≤ j ∧ j < count ∧ running j = true) → r j = s.res j)) := by
  intro fuel
  induction fuel with
  | zero => intro i s r _ h1 h2; omega
  | succ fuel ih =>
    intro i s r hI hi hf
    unfold gridLoop
    by_cases hr : running i = true
    · rw [hr]
      simp only [Bool.not_true, Bool.or_true, if_true, Bool.and_true, decide_eq_true_eq]
      rcases hb i s hi hI with ⟨hn, hbn⟩ | ⟨v, p, hv, hbv, hIp⟩
      · rw [hbn]
        constructor
        · intro h; cases h
        · rintro ⟨h, -⟩
          have := h i (le_refl _) hi hr
          rw [hn] at this; cases this
      · rw [hbv]
        simp only [Option.bind_eq_bind, Option.bind_some]
        by_cases hlast : i + 1 < count
        · rw [if_pos hlast, ih (i + 1) ⟨p, Function.update s.res i v⟩ r hIp hlast (by omega)]
          constructor
          · rintro ⟨ha, hc⟩
            have hri : r i = v := by
              rw [hc i (by omega)]; simp
            refine ⟨fun j hj hjc hrj => ?_, fun j hj => ?_⟩
            · rcases Nat.eq_or_lt_of_le hj with rfl | hlt
              · rw [hv, hri]
              · exact ha j hlt hjc hrj
            · have hne : j ≠ i := by rintro rfl; exact hj ⟨le_refl _, hi, hr⟩
              rw [hc j (fun h => hj ⟨by omega, h.2.1, h.2.2⟩)]
              exact Function.update_of_ne hne _ _
          · rintro ⟨ha, hc⟩
            refine ⟨fun j hj hjc hrj => ha j (by omega) hjc hrj, fun j hj => ?_⟩
            by_cases hne : j = i
            · subst hne
              have := ha j (le_refl _) hi hr
              rw [hv] at this
              simp [(Option.some.inj this).symm]
            · rw [hc j (fun h => hj ⟨by omega, h.2.1, h.2.2⟩)]
              exact (Function.update_of_ne hne _ _).symm
        · rw [if_neg hlast]
          simp only [Option.map_some, Option.some.injEq]
          constructor
          · rintro rfl
            refine ⟨fun j hj hjc hrj => ?_, fun j hj => ?_⟩
            · have : j = i := by omega
              subst this
              simp [hv]
            · have hne : j ≠ i := by rintro rfl; exact hj ⟨le_refl _, hi, hr⟩
              exact Function.update_of_ne hne _ _
          · rintro ⟨ha, hc⟩
            funext j
            by_cases hne : j = i
            · subst hne
              have := ha j (le_refl _) hi hr
              rw [hv] at this
              simp [(Option.some.inj this).symm]
            · rw [hc j (fun h => hne (by omega))]
              exact Function.update_of_ne hne _ _
    · have hr' : running i = false := by simpa using hr
      rw [hr']
      simp only [Bool.not_true, Bool.or_false, Bool.and_true, decide_eq_true_eq,
        Bool.false_eq_true, if_false, Option.bind_eq_bind, Option.bind_some]
      by_cases hlast : i + 1 < count
      · rw [if_pos hlast, ih (i + 1) s r hI hlast (by omega)]
        constructor
        · rintro ⟨ha, hc⟩
          refine ⟨fun j hj hjc hrj => ?_, fun j hj => hc j (fun h => hj ⟨by omega, h.2.1, h.2.2⟩)⟩
          rcases Nat.eq_or_lt_of_le hj with rfl | hlt
          · exact absurd hrj hr
          · exact ha j hlt hjc hrj
        · rintro ⟨ha, hc⟩
          refine ⟨fun j hj hjc hrj => ha j (by omega) hjc hrj, fun j hj => hc j (fun h => ?_)⟩
          by_cases hne : j = i
          · subst hne; exact hr h.2.2
          · exact hj ⟨by omega, h.2.1, h.2.2⟩
      · rw [if_neg hlast]
        simp only [Option.map_some, Option.some.injEq]
        constructor
        · rintro rfl
          refine ⟨fun j hj hjc hrj => ?_, fun j _ => rfl⟩
          have : j = i := by omega
          subst this
          exact absurd hrj hr
        · rintro ⟨-, hc⟩
          funext j
          rw [hc j (fun h => ?_)]
          have : j = i := by omega
          subst this
          exact hr h.2.2

omit [IsStrictOrderedRing K] in
theorem point_same (b : Basis) (params pts : List V) (value : K) (h : 1 ≤ value ∨ value ≤ 0) :
    point b params pts value = point b params params value := by
  unfold point
  by_cases h1 : 1 ≤ value
  · rw [if_pos h1, if_pos h1]
  · rw [if_neg h1, if_neg h1, if_pos (h.resolve_left h1), if_pos (h.resolve_left h1)]

omit [IsStrictOrderedRing K] in
theorem listBody_spec (b : Basis) (value : Nat → K) (params : Nat → List V) (i : Nat) (s : St V)
    (hs : s.pts = []) :
    (point b (params i) (params i) (value i) = none ∧ listBody b value params i s = none) ∨
      ∃ r p, point b (params i) (params i) (value i) = some r ∧
        listBody b value params i s = some ⟨p, Function.update s.res i r⟩ ∧ p = [] := by
  unfold listBody
  by_cases h : 1 ≤ value i ∨ value i ≤ 0
  · rw [if_pos h, point_same b (params i) s.pts (value i) h]
    cases hp : point b (params i) (params i) (value i) with
    | none => exact Or.inl ⟨rfl, rfl⟩
    | some r => exact Or.inr ⟨r, _, rfl, rfl, hs⟩
  · rw [if_neg h, hs]
    simp only [List.nil_append]
    cases hp : point b (params i) (params i) (value i) with
    | none => exact Or.inl ⟨rfl, rfl⟩
    | some r => exact Or.inr ⟨r, _, rfl, rfl, rfl⟩

omit [IsStrictOrderedRing K] in
/-- C68: `spline` with its control points as parameters gives, at each running shading point, the
value of the spline on the control points of that shading point, and leaves the result alone
elsewhere; control points of one shading point are not seen at the next. -/
theorem C68_list (b : Basis) (running : Nat → Bool) (count : Nat) (hc : 0 < count)
    (value : Nat → K) (params : Nat → List V) (res r : Nat → V) :
    (splineList b true running count value params res = some r ↔
      (∀ j, j < count → running j = true → point b (params j) (params j) (value j) = some (r j)) ∧
      (∀ j, ¬ (j < count ∧ running j = true) → r j = res j)) ∧
    splineList b false running count value params res =
      (point b (params 0) (params 0) (value 0)).map (fun v => Function.update res 0 v) := by
  constructor
  · unfold splineList
    rw [gridLoop_spec running count _ (fun p => p = [])
      (fun i => point b (params i) (params i) (value i))
      (fun i s _ hs => listBody_spec b value params i s hs) (count + 1) 0 ⟨[], res⟩ r rfl hc
      (by omega)]
    simp
  · unfold splineList gridLoop
    simp only [Bool.not_false, Bool.true_or, if_true, Bool.and_false, Bool.false_eq_true, if_false]
    rcases listBody_spec b value params 0 ⟨[], res⟩ rfl with ⟨h1, h2⟩ | ⟨v, p, h1, h2, -⟩
    · rw [h1, h2]; rfl
    · rw [h1, h2]; rfl

omit [IsStrictOrderedRing K] in
/-- C68: the same for control points in an array, whether or not the array varies. -/
theorem C68_array (b : Basis) (varyingA : Bool) (running : Nat → Bool) (count : Nat)
    (hc : 0 < count) (value : Nat → K) (params : Nat → List V) (res r : Nat → V)
    (hu : varyingA = false → ∀ i, params i = params 0) :
    (splineArray b true varyingA running count value params res = some r ↔
      (∀ j, j < count → running j = true → point b (params j) (params j) (value j) = some (r j)) ∧
      (∀ j, ¬ (j < count ∧ running j = true) → r j = res j)) ∧
    (varyingA = false → splineArray b false varyingA running count value params res =
      (point b (params 0) (params 0) (value 0)).map (fun v => Function.update res 0 v)) := by
  have hbody : ∀ i (s : St V), (varyingA = false → s.pts = params 0) →
      (point b (params i) (params i) (value i) = none ∧
        arrayBody b varyingA value params i s = none) ∨
      ∃ r p, point b (params i) (params i) (value i) = some r ∧
        arrayBody b varyingA value params i s = some ⟨p, Function.update s.res i r⟩ ∧
        (varyingA = false → p = params 0) := by
    intro i s hs
    unfold arrayBody
    by_cases h : 1 ≤ value i ∨ value i ≤ 0
    · rw [if_pos h, point_same b (params i) s.pts (value i) h]
      cases hp : point b (params i) (params i) (value i) with
      | none => exact Or.inl ⟨rfl, rfl⟩
      | some r => exact Or.inr ⟨r, _, rfl, rfl, hs⟩
    · rw [if_neg h]
      have e : (if varyingA = true then params i else s.pts) = params i := by
        cases hA : varyingA with
        | true => rfl
        | false => simp only [Bool.false_eq_true, if_false]; rw [hs hA, hu hA i]
      simp only [e]
      cases hp : point b (params i) (params i) (value i) with
      | none => exact Or.inl ⟨rfl, rfl⟩
      | some r => exact Or.inr ⟨r, _, rfl, rfl, fun hA => hu hA i⟩
  constructor
  · unfold splineArray
    rw [gridLoop_spec running count _ (fun p => varyingA = false → p = params 0)
      (fun i => point b (params i) (params i) (value i))
      (fun i s _ hs => hbody i s hs) (count + 1) 0 _ r (fun hA => by simp [hA]) hc (by omega)]
    simp
  · intro hA
    unfold splineArray gridLoop
    simp only [Bool.not_false, Bool.true_or, if_true, Bool.and_false, Bool.false_eq_true, if_false]
    rcases hbody 0 ⟨if varyingA = true then [] else params 0, res⟩ (fun h => by simp [h]) with
      ⟨h1, h2⟩ | ⟨v, p, h1, h2, -⟩
    · rw [h1, h2]; rfl
    · rw [h1, h2]; rfl

end

example : (splineList .linear true (fun i => i != 1) 3 (fun i => (i : ℚ)) (fun _ => [(0 : ℚ), 1, 2, 3])
    (fun _ => 9)).map (fun r => [r 0, r 1, r 2]) = some [1, 9, 2] := by decide +kernel

end Verif.Math.Spline
