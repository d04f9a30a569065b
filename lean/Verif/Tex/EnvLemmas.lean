import Verif.Tex.EnvSpec
import Mathlib.Analysis.SpecialFunctions.Trigonometric.Deriv
import Mathlib.Analysis.SpecialFunctions.Sqrt
import Mathlib.Analysis.Calculus.Deriv.Inv

/-!
Lemmas for C87.
-/

set_option linter.unreachableTactic false
set_option linter.unusedTactic false

namespace Verif.Tex.Env
open Verif.Tex.Ewa Verif.Tex.Ewa.Spec Spec

/-- How fast the quotient of two components changes. -/
noncomputable def rate (n u R v : V3) : ℝ :=
  (dot3 u v * dot3 n R - dot3 u R * dot3 n v) / dot3 n R ^ 2

theorem along3_zero (R v : V3) : along3 R v 0 = R := by
  simp [along3]

theorem dot_along (n R v : V3) (h : ℝ) :
    dot3 n (along3 R v h) = dot3 n R + h * dot3 n v := by
  simp only [dot3, along3]; ring

theorem lin_deriv (a b : ℝ) : HasDerivAt (fun h : ℝ => a + h * b) b 0 := by
  have := ((hasDerivAt_id (0 : ℝ)).mul_const b).const_add a
  simpa using this

theorem rate_deriv (n u R v : V3) (hn : dot3 n R ≠ 0) :
    HasDerivAt (fun h => dot3 u (along3 R v h) / dot3 n (along3 R v h)) (rate n u R v) 0 := by
  have e : (fun h => dot3 u (along3 R v h) / dot3 n (along3 R v h)) =
      fun h => (dot3 u R + h * dot3 u v) / (dot3 n R + h * dot3 n v) := by
    funext h; rw [dot_along, dot_along]
  rw [e]
  have := (lin_deriv (dot3 u R) (dot3 u v)).div (lin_deriv (dot3 n R) (dot3 n v)) (by simpa using hn)
  exact this.congr_deriv (by simp [rate])

theorem seen_x_deriv (k : ℝ) (f : Face) (R v : V3) (hn : dot3 f.n R ≠ 0) :
    HasDerivAt (fun h => (seen k f (along3 R v h)).x) (k / 6 * rate f.n f.right R v) 0 := by
  unfold seen
  have := ((((((rate_deriv f.n f.right R v hn).const_mul k).const_add 1).div_const 2).const_add
    f.col).div_const 3)
  exact this.congr_deriv (by ring)

theorem seen_y_deriv (k : ℝ) (f : Face) (R v : V3) (hn : dot3 f.n R ≠ 0) :
    HasDerivAt (fun h => (seen k f (along3 R v h)).y) (-(k / 4 * rate f.n f.up R v)) 0 := by
  unfold seen
  have := ((((((rate_deriv f.n f.up R v hn).const_mul k).const_sub 1).div_const 2).const_add
    f.row).div_const 2)
  exact this.congr_deriv (by ring)

/-- The face that is chosen, and the region in its terms. -/
theorem face_ok (R : V3) (hR : R ≠ ⟨0, 0, 0⟩) :
    ∃ f ∈ faces, Meets f R ∧
      (cubeFace R).s * (cubeFace R).sScale = dot3 f.right R / dot3 f.n R ∧
      (cubeFace R).t * (cubeFace R).tScale = -(dot3 f.up R / dot3 f.n R) ∧
      (cubeFace R).sOffset = (f.col + 1 / 2) / 3 ∧ (cubeFace R).tOffset = (f.row + 1 / 2) / 2 ∧
      (∀ v : V3, ((cubeFace R).m11 * v.x + (cubeFace R).m12 * v.y + (cubeFace R).m13 * v.z) *
        (cubeFace R).sScale = rate f.n f.right R v) ∧
      (∀ v : V3, ((cubeFace R).m21 * v.x + (cubeFace R).m22 * v.y + (cubeFace R).m23 * v.z) *
        (cubeFace R).tScale = -rate f.n f.up R v) ∧
      dot3 f.n f.n = 1 ∧
      dot3 R R = dot3 f.n R ^ 2 + dot3 f.right R ^ 2 + dot3 f.up R ^ 2 := by
  by_cases h1 : |R.x| ≥ |R.y| ∧ |R.x| ≥ |R.z|
  · have hx : R.x ≠ 0 := by
      intro hx
      rw [hx, abs_zero] at h1
      apply hR
      ext
      · exact hx
      · exact abs_nonpos_iff.mp h1.1
      · exact abs_nonpos_iff.mp h1.2
    by_cases hs : R.x < 0
    · refine ⟨⟨⟨-1, 0, 0⟩, ⟨0, 0, 1⟩, ⟨0, 1, 0⟩, 0, 1⟩, by simp [faces], ?_⟩
      rw [abs_of_neg hs] at h1
      refine ⟨⟨?_, ?_, ?_, ?_⟩, ?_, ?_, ?_, ?_, ?_, ?_, ?_, ?_⟩
      · simpa [dot3] using hs
      · simp [dot3, abs_of_neg hs]
      · simpa [dot3] using h1.1
      · simpa [dot3] using h1.2
      all_goals rw [← abs_of_neg hs] at h1
      all_goals simp only [cubeFace]
      all_goals try rw [if_pos h1]
      all_goals simp only [if_pos hs, dot3, rate]
      all_goals first
        | (norm_num; done)
        | (norm_num; field_simp; done)
        | (intro v; norm_num; field_simp; ring; done)
        | (intro v; norm_num; field_simp; done)
        | (ring; done)
    · have hp : 0 < R.x := lt_of_le_of_ne (not_lt.mp hs) (Ne.symm hx)
      refine ⟨⟨⟨1, 0, 0⟩, ⟨0, 0, -1⟩, ⟨0, 1, 0⟩, 0, 0⟩, by simp [faces], ?_⟩
      rw [abs_of_pos hp] at h1
      refine ⟨⟨?_, ?_, ?_, ?_⟩, ?_, ?_, ?_, ?_, ?_, ?_, ?_, ?_⟩
      · simpa [dot3] using hp
      · simp [dot3, abs_of_pos hp]
      · simpa [dot3] using h1.1
      · simpa [dot3] using h1.2
      all_goals rw [← abs_of_pos hp] at h1
      all_goals simp only [cubeFace]
      all_goals try rw [if_pos h1]
      all_goals simp only [if_neg hs, dot3, rate]
      all_goals first
        | (norm_num; done)
        | (norm_num; field_simp; done)
        | (intro v; norm_num; field_simp; ring; done)
        | (intro v; norm_num; field_simp; done)
        | (ring; done)
  by_cases h2 : |R.y| ≥ |R.x| ∧ |R.y| ≥ |R.z|
  · have hx : R.y ≠ 0 := by
      intro hx
      rw [hx, abs_zero] at h2
      apply hR
      ext
      · exact abs_nonpos_iff.mp h2.1
      · exact hx
      · exact abs_nonpos_iff.mp h2.2
    by_cases hs : R.y < 0
    · refine ⟨⟨⟨0, -1, 0⟩, ⟨1, 0, 0⟩, ⟨0, 0, 1⟩, 1, 1⟩, by simp [faces], ?_⟩
      have h3 := h2
      rw [abs_of_neg hs] at h3
      refine ⟨⟨?_, ?_, ?_, ?_⟩, ?_, ?_, ?_, ?_, ?_, ?_, ?_, ?_⟩
      · simpa [dot3] using hs
      · simpa [dot3] using h3.1
      · simp [dot3, abs_of_neg hs]
      · simpa [dot3] using h3.2
      all_goals simp only [cubeFace]
      all_goals try rw [if_neg h1, if_pos h2]
      all_goals simp only [if_pos hs, dot3, rate]
      all_goals first
        | (norm_num; done)
        | (norm_num; field_simp; done)
        | (intro v; norm_num; field_simp; ring; done)
        | (intro v; norm_num; field_simp; done)
        | (ring; done)
    · have hp : 0 < R.y := lt_of_le_of_ne (not_lt.mp hs) (Ne.symm hx)
      refine ⟨⟨⟨0, 1, 0⟩, ⟨1, 0, 0⟩, ⟨0, 0, -1⟩, 1, 0⟩, by simp [faces], ?_⟩
      have h3 := h2
      rw [abs_of_pos hp] at h3
      refine ⟨⟨?_, ?_, ?_, ?_⟩, ?_, ?_, ?_, ?_, ?_, ?_, ?_, ?_⟩
      · simpa [dot3] using hp
      · simpa [dot3] using h3.1
      · simp [dot3, abs_of_pos hp]
      · simpa [dot3] using h3.2
      all_goals simp only [cubeFace]
      all_goals try rw [if_neg h1, if_pos h2]
      all_goals simp only [if_neg hs, dot3, rate]
      all_goals first
        | (norm_num; done)
        | (norm_num; field_simp; done)
        | (intro v; norm_num; field_simp; ring; done)
        | (intro v; norm_num; field_simp; done)
        | (ring; done)
  · have hzx : |R.x| ≤ |R.z| ∧ |R.y| ≤ |R.z| := by
      rw [not_and_or, not_le, not_le] at h1 h2
      rcases h1 with h1 | h1 <;> rcases h2 with h2 | h2
      · exact absurd (lt_trans h1 h2) (lt_irrefl _)
      · exact ⟨(lt_trans h1 h2).le, h2.le⟩
      · exact ⟨h1.le, (lt_trans h2 h1).le⟩
      · exact ⟨h1.le, h2.le⟩
    have hx : R.z ≠ 0 := by
      intro hx
      rw [hx, abs_zero] at hzx
      apply hR
      ext
      · exact abs_nonpos_iff.mp hzx.1
      · exact abs_nonpos_iff.mp hzx.2
      · exact hx
    by_cases hs : R.z < 0
    · refine ⟨⟨⟨0, 0, -1⟩, ⟨-1, 0, 0⟩, ⟨0, 1, 0⟩, 2, 1⟩, by simp [faces], ?_⟩
      rw [abs_of_neg hs] at hzx
      refine ⟨⟨?_, ?_, ?_, ?_⟩, ?_, ?_, ?_, ?_, ?_, ?_, ?_, ?_⟩
      · simpa [dot3] using hs
      · simpa [dot3] using hzx.1
      · simpa [dot3] using hzx.2
      · simp [dot3, abs_of_neg hs]
      all_goals simp only [cubeFace]
      all_goals try rw [if_neg h1, if_neg h2]
      all_goals simp only [if_pos hs, dot3, rate]
      all_goals first
        | (norm_num; done)
        | (norm_num; field_simp; done)
        | (intro v; norm_num; field_simp; ring; done)
        | (intro v; norm_num; field_simp; done)
        | (ring; done)
    · have hp : 0 < R.z := lt_of_le_of_ne (not_lt.mp hs) (Ne.symm hx)
      refine ⟨⟨⟨0, 0, 1⟩, ⟨1, 0, 0⟩, ⟨0, 1, 0⟩, 2, 0⟩, by simp [faces], ?_⟩
      rw [abs_of_pos hp] at hzx
      refine ⟨⟨?_, ?_, ?_, ?_⟩, ?_, ?_, ?_, ?_, ?_, ?_, ?_, ?_⟩
      · simpa [dot3] using hp
      · simpa [dot3] using hzx.1
      · simpa [dot3] using hzx.2
      · simp [dot3, abs_of_pos hp]
      all_goals simp only [cubeFace]
      all_goals try rw [if_neg h1, if_neg h2]
      all_goals simp only [if_neg hs, dot3, rate]
      all_goals first
        | (norm_num; done)
        | (norm_num; field_simp; done)
        | (intro v; norm_num; field_simp; ring; done)
        | (intro v; norm_num; field_simp; done)
        | (ring; done)

end Verif.Tex.Env
