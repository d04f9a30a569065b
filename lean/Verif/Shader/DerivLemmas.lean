import Verif.Shader.Deriv
import Mathlib.Tactic.LinearCombination
import Mathlib.Tactic.FieldSimp
import Mathlib.Tactic.Positivity
import Mathlib.Tactic.NormNum

/-!
Lemmas about Differences and derivatives on grids
-/

namespace Verif.Shader.Deriv

namespace Spec

/-- The values on a grid are those of a function, line by line. -/
def OnGrid (data : Data) (nu nv : Nat) (f : ℤ → ℤ → ℝ) : Prop :=
  (∀ u v : ℤ, 0 ≤ u → u < nu → 0 ≤ v → v < nv → data (v * nu + u) = some (f u v)) ∧
  (∀ i : ℤ, i < 0 ∨ (nu : ℤ) * nv ≤ i → data i = none)

/-- The settings for a grid. -/
def grid (nu nv : Nat) (centred : Bool) : GridDiff := ⟨nu, nv, false, false, centred⟩

end Spec

open Spec

theorem read_of (data : Data) (nu nv : Nat) (f : ℤ → ℤ → ℝ) (h : OnGrid data nu nv f) (i u v : ℤ) (hi : i = v * nu + u) (h1 : 0 ≤ u)
    (h2 : u < nu) (h3 : 0 ≤ v) (h4 : v < nv) : read data i = .ok (f u v) := by
  unfold read
  rw [hi, h.1 u v h1 h2 h3 h4]

/-- The difference along a line of values. -/
noncomputable def lineDiff (g : ℤ → ℝ) (centred : Bool) (n size : ℤ) : ℝ :=
  if centred ∧ size > 2 then
    if n = 0 then -1.5 * g 0 + 2 * g 1 - 0.5 * g 2
    else if n = size - 1 then 1.5 * g n - 2 * g (n - 1) + 0.5 * g (n - 2)
    else 0.5 * (g (n + 1) - g (n - 1))
  else
    if n = size - 1 then 0.5 * (g n - g (n - 1)) else 0.5 * (g (n + 1) - g n)

theorem diffU_line (nu nv : Nat) (c : Bool) (data : Data) (f : ℤ → ℤ → ℝ) (h : OnGrid data nu nv f) (u v : ℤ) (hn : 2 ≤ nu) (h1 : 0 ≤ u)
    (h2 : u < nu) (h3 : 0 ≤ v) (h4 : v < nv) : diffU (grid nu nv c) data u v = .ok (lineDiff (fun k => f k v) c u nu) := by
  unfold diffU grid
  simp only [Bool.false_eq_true, if_false]
  rw [if_neg (by simp; omega), if_neg (by simp; omega)]
  unfold diff lineDiff
  split_ifs with a1 a2 a3 a4
  · rw [read_of data nu nv f h _ u v rfl h1 h2 h3 h4, read_of data nu nv f h _ 1 v (by omega) (by omega) (by omega) h3 h4,
      read_of data nu nv f h _ 2 v (by omega) (by omega) (by omega) h3 h4, a2]
    rfl
  · rw [read_of data nu nv f h _ u v rfl h1 h2 h3 h4, read_of data nu nv f h _ (u - 1) v (by omega) (by omega) (by omega) h3 h4,
      read_of data nu nv f h _ (u - 2) v (by omega) (by omega) (by omega) h3 h4]
    rfl
  · rw [read_of data nu nv f h _ (u + 1) v (by omega) (by omega) (by omega) h3 h4,
      read_of data nu nv f h _ (u - 1) v (by omega) (by omega) (by omega) h3 h4]
    rfl
  · rw [read_of data nu nv f h _ u v rfl h1 h2 h3 h4, read_of data nu nv f h _ (u - 1) v (by omega) (by omega) (by omega) h3 h4]
    rfl
  · rw [read_of data nu nv f h _ (u + 1) v (by omega) (by omega) (by omega) h3 h4, read_of data nu nv f h _ u v rfl h1 h2 h3 h4]
    rfl

theorem diffV_line (nu nv : Nat) (c : Bool) (data : Data) (f : ℤ → ℤ → ℝ) (h : OnGrid data nu nv f) (u v : ℤ) (hn : 2 ≤ nv) (h1 : 0 ≤ u)
    (h2 : u < nu) (h3 : 0 ≤ v) (h4 : v < nv) : diffV (grid nu nv c) data u v = .ok (lineDiff (fun k => f u k) c v nv) := by
  unfold diffV grid
  simp only [Bool.false_eq_true, if_false]
  rw [if_neg (by simp; omega), if_neg (by simp; omega)]
  unfold diff lineDiff
  split_ifs with a1 a2 a3 a4
  · rw [read_of data nu nv f h _ u v rfl h1 h2 h3 h4, read_of data nu nv f h _ u 1 (by rw [a2]; ring) h1 h2 (by omega) (by omega),
      read_of data nu nv f h _ u 2 (by rw [a2]; ring) h1 h2 (by omega) (by omega), a2]
    rfl
  · rw [read_of data nu nv f h _ u v rfl h1 h2 h3 h4, read_of data nu nv f h _ u (v - 1) (by ring) h1 h2 (by omega) (by omega),
      read_of data nu nv f h _ u (v - 2) (by ring) h1 h2 (by omega) (by omega)]
    rfl
  · rw [read_of data nu nv f h _ u (v + 1) (by ring) h1 h2 (by omega) (by omega),
      read_of data nu nv f h _ u (v - 1) (by ring) h1 h2 (by omega) (by omega)]
    rfl
  · rw [read_of data nu nv f h _ u v rfl h1 h2 h3 h4, read_of data nu nv f h _ u (v - 1) (by ring) h1 h2 (by omega) (by omega)]
    rfl
  · rw [read_of data nu nv f h _ u (v + 1) (by ring) h1 h2 (by omega) (by omega), read_of data nu nv f h _ u v rfl h1 h2 h3 h4]
    rfl

theorem line_quadratic (a b c : ℝ) (n size : ℤ) (hs : size > 2) :
    lineDiff (fun k => a * k * k + b * k + c) true n size = 2 * a * n + b := by
  unfold lineDiff
  rw [if_pos ⟨rfl, hs⟩]
  split_ifs with h1 h2
  · subst h1; push_cast; ring
  · push_cast; ring
  · push_cast; ring

theorem line_linear (b c : ℝ) (n size : ℤ) (centred : Bool) (hs : ¬ (centred = true ∧ size > 2)) :
    lineDiff (fun k => b * k + c) centred n size = b / 2 := by
  unfold lineDiff
  rw [if_neg hs]
  split_ifs with h1 <;> push_cast <;> ring

theorem line_scale (g : ℤ → ℝ) (m k : ℝ) (centred : Bool) (n size : ℤ) :
    lineDiff (fun i => m * g i + k) centred n size = m * lineDiff g centred n size := by
  unfold lineDiff
  split_ifs <;> ring

/-! ## Differences -/

/-! ## Derivatives -/

end Verif.Shader.Deriv
