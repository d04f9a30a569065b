import Verif.Shader.DerivLemmas

/-!
C107: Differences and derivatives on grids
-/

namespace Verif.Shader.Deriv

open Spec

/-- With centred differences and at least three points, the difference of a parabola is its slope, everywhere on the grid, also at
the edges. -/
theorem C107_centred (nu nv : Nat) (data : Data) (f : ℤ → ℤ → ℝ) (h : OnGrid data nu nv f) (u v : ℤ) (h1 : 0 ≤ u) (h2 : u < nu)
    (h3 : 0 ≤ v) (h4 : v < nv) (a b c : ℝ) :
    (2 < nu → (∀ k, f k v = a * k * k + b * k + c) → diffU (grid nu nv true) data u v = .ok (2 * a * u + b)) ∧
    (2 < nv → (∀ k, f u k = a * k * k + b * k + c) → diffV (grid nu nv true) data u v = .ok (2 * a * v + b)) := by
  constructor
  · intro hn hf
    rw [diffU_line nu nv true data f h u v (by omega) h1 h2 h3 h4, funext hf, line_quadratic a b c u nu (by omega)]
  · intro hn hf
    rw [diffV_line nu nv true data f h u v (by omega) h1 h2 h3 h4, funext hf, line_quadratic a b c v nv (by omega)]

/-- The others are half the difference to the next point, or at the last point to the one before. -/
theorem C107_onesided_partial (nu nv : Nat) (data : Data) (f : ℤ → ℤ → ℝ) (h : OnGrid data nu nv f) (u v : ℤ) (h1 : 0 ≤ u) (h2 : u < nu)
    (h3 : 0 ≤ v) (h4 : v < nv) :
    (2 ≤ nu → diffU (grid nu nv false) data u v = .ok (if u + 1 < nu then (f (u + 1) v - f u v) / 2 else (f u v - f (u - 1) v) / 2)) ∧
    (2 ≤ nv → diffV (grid nu nv false) data u v = .ok (if v + 1 < nv then (f u (v + 1) - f u v) / 2 else (f u v - f u (v - 1)) / 2)) := by
  constructor
  · intro hn
    rw [diffU_line nu nv false data f h u v hn h1 h2 h3 h4]
    unfold lineDiff
    rw [if_neg (by simp)]
    by_cases hu : u + 1 < nu
    · rw [if_pos hu, if_neg (by omega)]; congr 1; ring
    · rw [if_neg hu, if_pos (by omega)]; congr 1; ring
  · intro hn
    rw [diffV_line nu nv false data f h u v hn h1 h2 h3 h4]
    unfold lineDiff
    rw [if_neg (by simp)]
    by_cases hu : v + 1 < nv
    · rw [if_pos hu, if_neg (by omega)]; congr 1; ring
    · rw [if_neg hu, if_pos (by omega)]; congr 1; ring

/-- Without centred differences, or with two points, the difference of a line is half its slope. -/
theorem C107_half_violated (nu nv : Nat) (centred : Bool) (data : Data) (b c : ℝ) (h : OnGrid data nu nv fun u _ => b * u + c) (u v : ℤ)
    (hn : 2 ≤ nu) (hc : centred = false ∨ nu = 2) (h1 : 0 ≤ u) (h2 : u < nu) (h3 : 0 ≤ v) (h4 : v < nv) :
    diffU (grid nu nv centred) data u v = .ok (b / 2) := by
  rw [diffU_line nu nv centred data _ h u v hn h1 h2 h3 h4]
  rw [line_linear b c u nu centred (by
    rintro ⟨hc', hs⟩
    rcases hc with hc | hc
    · rw [hc] at hc'; exact absurd hc' (by simp)
    · omega)]

/-- With one point along a line, a value outside the grid is read. -/
theorem C107_single_violated (nv : Nat) (centred : Bool) (data : Data) (f : ℤ → ℤ → ℝ) (h : OnGrid data 1 nv f) (hv : 0 < nv) :
    diffU (grid 1 nv centred) data 0 0 = .error .outside := by
  unfold diffU grid diff
  have r0 : read data 0 = .ok (f 0 0) := read_of data 1 nv f h 0 0 0 (by simp) (by omega) (by omega) (by omega) (by omega)
  have r1 : read data (-1) = .error .outside := by
    unfold read
    rw [h.2 (-1) (Or.inl (by omega))]
  simp [hv, r0, r1]
  rfl

/-- Nothing is read where there are no derivatives. -/
theorem C107_none (uGridRes vGridRes : Nat) (centred : Bool) (data : Data) (u v : ℤ) :
    diffU (settings uGridRes vGridRes false centred) data u v = .ok 0 ∧
    diffV (settings uGridRes vGridRes false centred) data u v = .ok 0 ∧
    settings uGridRes vGridRes true centred = grid (uGridRes + 1) (vGridRes + 1) centred := by
  refine ⟨by simp [diffU, settings], by simp [diffV, settings], ?_⟩
  simp [settings, grid]

/-- The tables lead from the number of a point to its place. -/
theorem C107_indices (nu nv u v : Nat) (hu : u < nu) (hv : v < nv) : (indices nu nv)[v * nu + u]? = some (u, v) ∧
    (indices nu nv).length = nu * nv := by
  unfold indices
  induction nv generalizing v with
  | zero => omega
  | succ n ih =>
    have hl : ∀ n, ((List.range n).flatMap fun v => (List.range nu).map fun u => (u, v)).length = nu * n := by
      intro n
      simp [Nat.mul_comm]
    refine ⟨?_, hl _⟩
    rw [List.range_succ, List.flatMap_append]
    by_cases h : v < n
    · have h' := ih v h
      rw [List.getElem?_append_left]
      · exact h'.1
      · rw [hl]
        calc v * nu + u < v * nu + nu := by omega
          _ = (v + 1) * nu := by ring
          _ ≤ n * nu := Nat.mul_le_mul_right _ h
          _ = nu * n := Nat.mul_comm _ _
    · have : v = n := by omega
      subst this
      rw [List.getElem?_append_right (by rw [hl, Nat.mul_comm]; omega), hl, Nat.mul_comm nu v, Nat.add_sub_cancel_left]
      simp [hu]

/-- Where the points of a variable lie on a parabola of a parameter that grows by `du` from point to point, `Du` is the slope. -/
theorem C107_Du (nu nv : Nat) (data : Data) (a b c h undef : ℝ) (hh : h ≠ 0)
    (hd : OnGrid data nu nv fun u _ => a * (u * h) * (u * h) + b * (u * h) + c) (hn : 2 < nu) (u v : ℤ) (h1 : 0 ≤ u) (h2 : u < nu)
    (h3 : 0 ≤ v) (h4 : v < nv) : derivU (grid nu nv true) data u v h undef = .ok (2 * a * (u * h) + b) := by
  unfold derivU
  rw [if_neg hh, (C107_centred nu nv data _ hd u v h1 h2 h3 h4 (a * h * h) (b * h) c).1 hn fun k => by ring]
  show Except.ok _ = _
  congr 1
  field_simp

/-- The same along the other side. -/
theorem C107_Dv (nu nv : Nat) (data : Data) (a b c h undef : ℝ) (hh : h ≠ 0)
    (hd : OnGrid data nu nv fun _ v => a * (v * h) * (v * h) + b * (v * h) + c) (hn : 2 < nv) (u v : ℤ) (h1 : 0 ≤ u) (h2 : u < nu)
    (h3 : 0 ≤ v) (h4 : v < nv) : derivV (grid nu nv true) data u v h undef = .ok (2 * a * (v * h) + b) := by
  unfold derivV
  rw [if_neg hh, (C107_centred nu nv data _ hd u v h1 h2 h3 h4 (a * h * h) (b * h) c).2 hn fun k => by ring]
  show Except.ok _ = _
  congr 1
  field_simp

/-- Where the parameter does not grow, the derivative is the value given for that. -/
theorem C107_undefined (s : GridDiff) (data : Data) (u v : ℤ) (x : ℝ) :
    derivU s data u v 0 x = .ok x ∧ derivV s data u v 0 x = .ok x := by
  simp [derivU, derivV]

/-- The derivative by another variable is the factor, where the one is a multiple of the other and the other is not constant; with
centred differences or without. -/
theorem C107_deriv (nu nv : Nat) (centred : Bool) (y x : Data) (f : ℤ → ℤ → ℝ) (m k : ℝ) (hx : OnGrid x nu nv f)
    (hy : OnGrid y nu nv fun u v => m * f u v + k) (hu : 2 ≤ nu) (hv : 2 ≤ nv) (u v : ℤ) (h1 : 0 ≤ u) (h2 : u < nu)
    (h3 : 0 ≤ v) (h4 : v < nv) :
    deriv (grid nu nv centred) y x u v = .ok m ∨
      (diffU (grid nu nv centred) x u v = .ok 0 ∧ diffV (grid nu nv centred) x u v = .ok 0 ∧
        deriv (grid nu nv centred) y x u v = .ok 0) := by
  unfold deriv
  rw [diffU_line nu nv centred x f hx u v hu h1 h2 h3 h4, diffV_line nu nv centred x f hx u v hv h1 h2 h3 h4,
    diffU_line nu nv centred y _ hy u v hu h1 h2 h3 h4, diffV_line nu nv centred y _ hy u v hv h1 h2 h3 h4,
    line_scale, line_scale]
  generalize lineDiff (fun k => f k v) centred u nu = p
  generalize lineDiff (fun k => f u k) centred v nv = q
  show (if |p| ≥ |q| then (if |p| > 0 then _ else _) else _) = _ ∨ _ ∧ _ ∧ (if |p| ≥ |q| then (if |p| > 0 then _ else _) else _) = _
  by_cases hpq : |p| ≥ |q|
  · rw [if_pos hpq]
    by_cases hp : |p| > 0
    · left
      rw [if_pos hp]
      show Except.ok (m * p / p) = _
      rw [mul_div_cancel_right₀ _ (abs_pos.mp hp)]
    · right
      rw [if_neg hp]
      have p0 : p = 0 := by
        by_contra h
        exact hp (abs_pos.mpr h)
      have q0 : q = 0 := by
        have : |q| ≤ 0 := by rw [p0, abs_zero] at hpq; exact hpq
        exact abs_eq_zero.mp (le_antisymm this (abs_nonneg _))
      exact ⟨by rw [p0], by rw [q0], rfl⟩
  · left
    rw [if_neg hpq]
    have q0 : q ≠ 0 := by
      intro h
      apply hpq
      rw [h, abs_zero]
      exact abs_nonneg _
    show Except.ok (m * q / q) = _
    rw [mul_div_cancel_right₀ _ q0]

/-- The area of a grid of parallelograms is that of one of them. -/
theorem C107_area (nu nv : Nat) (p : Fin 3 → Data) (o a b : Fin 3 → ℝ)
    (hp : ∀ i, OnGrid (p i) nu nv fun u v => o i + u * a i + v * b i) (hu : 2 < nu) (hv : 2 < nv) (u v : ℤ) (h1 : 0 ≤ u) (h2 : u < nu)
    (h3 : 0 ≤ v) (h4 : v < nv) :
    area (grid nu nv true) (p 0) (p 1) (p 2) u v = .ok (Real.sqrt ((a 1 * b 2 - a 2 * b 1) ^ 2 + (a 2 * b 0 - a 0 * b 2) ^ 2
      + (a 0 * b 1 - a 1 * b 0) ^ 2)) := by
  have eu : ∀ i, diffU (grid nu nv true) (p i) u v = .ok (a i) := by
    intro i
    rw [(C107_centred nu nv (p i) _ (hp i) u v h1 h2 h3 h4 0 (a i) (o i + v * b i)).1 hu fun k => by ring]
    congr 1; ring
  have ev : ∀ i, diffV (grid nu nv true) (p i) u v = .ok (b i) := by
    intro i
    rw [(C107_centred nu nv (p i) _ (hp i) u v h1 h2 h3 h4 0 (b i) (o i + u * a i)).2 hv fun k => by ring]
    congr 1; ring
  unfold area
  rw [eu, eu, eu, ev, ev, ev]
  show Except.ok (Real.sqrt _) = _
  congr 2
  ring

/-- Non-vacuity: a grid of three by three points. -/
example : ∃ data : Data, OnGrid data 3 3 (fun u _ => (u : ℝ) * u) ∧ diffU (grid 3 3 true) data 2 1 = .ok 4 := by
  have h : OnGrid (fun i => if i < 0 ∨ 9 ≤ i then none else some (((i % 3 : ℤ) : ℝ) * ((i % 3 : ℤ) : ℝ))) 3 3 (fun u _ => (u : ℝ) * u) := by
    constructor
    · intro u v h1 h2 h3 h4
      have e : (v * ((3 : ℕ) : ℤ) + u) % 3 = u := by push_cast at *; omega
      have e2 : ¬ (v * ((3 : ℕ) : ℤ) + u < 0 ∨ 9 ≤ v * ((3 : ℕ) : ℤ) + u) := by push_cast at *; omega
      simp only [e, if_neg e2]
    · intro i hi
      have : i < 0 ∨ 9 ≤ i := by push_cast at hi; omega
      simp only [if_pos this]
  refine ⟨_, h, ?_⟩
  rw [(C107_centred 3 3 _ _ h 2 1 (by omega) (by norm_num) (by omega) (by norm_num) 1 0 0).1 (by omega) fun k => by ring]
  norm_num

end Verif.Shader.Deriv
