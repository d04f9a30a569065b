import Verif.Point.RadiosityLemmas

/-!
C111: Sums of light
-/

namespace Verif.Point.Radiosity

open Spec

/-- A pixel is covered by the sum of the coverages, at most wholly; its light is that of the samples from front to back, and its distance
that of the nearest. Partial: coverages must not be negative. -/
theorem C111_pixel_partial (far : ℝ) (l : List Sample) (h : ∀ x ∈ l, 0 ≤ x.cover) :
    (addAll far l).cover = min 1 (total l) ∧ (∀ k, (addAll far l).rad k = blend k 0 l) ∧
    (∀ x ∈ l, (addAll far l).dist ≤ x.dist) ∧ ((addAll far l).dist = far ∨ ∃ x ∈ l, (addAll far l).dist = x.dist) := by
  obtain ⟨h1, h2, _, h4, h5⟩ := add_from l h 0 (start far) (by simp [start])
  refine ⟨by simpa [addAll] using h1, fun k => ?_, h4, h5⟩
  have := h2 k
  simpa [start, addAll] using this

/-- The light of a pixel is between the least and the greatest of its samples, each times the coverage. -/
theorem C111_between (far : ℝ) (l : List Sample) (k : Fin 3) (m M : ℝ) (h : ∀ x ∈ l, 0 ≤ x.cover ∧ m ≤ x.rad k ∧ x.rad k ≤ M) :
    m * (addAll far l).cover ≤ (addAll far l).rad k ∧ (addAll far l).rad k ≤ M * (addAll far l).cover := by
  have hc : ∀ x ∈ l, 0 ≤ x.cover := fun x hx => (h x hx).1
  have hp := C111_pixel_partial far l hc
  rw [hp.1, hp.2.1 k]
  have := blend_bounds k m M l h 0
  simpa using this

/-- Behind a wholly covered pixel nothing adds light. -/
theorem C111_hidden (p : Pixel) (s : Sample) (h : 1 ≤ p.cover) : (addSample p s).cover = p.cover ∧ (addSample p s).rad = p.rad := by
  unfold addSample
  simp only
  by_cases hd : s.dist < p.dist
  · rw [if_pos hd, if_neg (not_lt.mpr h)]
    exact ⟨rfl, rfl⟩
  · rw [if_neg hd, if_neg (not_lt.mpr h)]
    exact ⟨rfl, rfl⟩

/-- A sample with negative coverage (as squares have them, C104) takes light away. -/
theorem C111_negative_violated (far : ℝ) : (addAll far [⟨1, -1 / 2, fun _ => 1⟩]).rad 0 = -1 / 2 ∧ (addAll far [⟨1, -1 / 2, fun _ => 1⟩]).cover = -1 / 2 := by
  unfold addAll addSample start
  simp only [List.foldl_cons, List.foldl_nil]
  split_ifs with h1 h2 h3 <;> norm_num at *

/-- Light and occlusion are the means over the pixels in the cone, with weights from the angle and the size. -/
theorem C111_mean (c : ℝ) (l : List Pix) (h : (l.map (weight c)).sum ≠ 0) :
    (∀ k, (radiosity c l).1 k = (l.map fun x => weight c x * x.pixel.rad k).sum / (l.map (weight c)).sum) ∧
    (radiosity c l).2 = (l.map fun x => weight c x * x.pixel.cover).sum / (l.map (weight c)).sum := by
  obtain ⟨h1, h2, h3⟩ := sums c l ⟨fun _ => 0, 0, 0⟩
  simp only [zero_add] at h1 h2 h3
  unfold radiosity
  simp only
  rw [if_pos (by rw [h3]; exact h)]
  refine ⟨fun k => ?_, by rw [h2, h3]⟩
  simp only
  rw [h1, h3]
  ring

/-- Light and occlusion are between the least and the greatest of the pixels in the cone. -/
theorem C111_bounds (c m M : ℝ) (l : List Pix) (hs : ∀ x ∈ l, 0 ≤ x.size) (hw : (l.map (weight c)).sum ≠ 0) (k : Fin 3)
    (h : ∀ x ∈ l, c < x.cosine → m ≤ x.pixel.rad k ∧ x.pixel.rad k ≤ M) (ho : ∀ x ∈ l, c < x.cosine → 0 ≤ x.pixel.cover ∧ x.pixel.cover ≤ 1) :
    m ≤ (radiosity c l).1 k ∧ (radiosity c l).1 k ≤ M ∧ 0 ≤ (radiosity c l).2 ∧ (radiosity c l).2 ≤ 1 := by
  obtain ⟨a1, a2, a3⟩ := weighted c m M (fun x => x.pixel.rad k) l hs h
  obtain ⟨b1, b2, _⟩ := weighted c 0 1 (fun x => x.pixel.cover) l hs ho
  have hpos : 0 < (l.map (weight c)).sum := lt_of_le_of_ne a3 (Ne.symm hw)
  obtain ⟨m1, m2⟩ := C111_mean c l hw
  rw [m1, m2, le_div_iff₀ hpos, div_le_iff₀ hpos, le_div_iff₀ hpos, div_le_iff₀ hpos]
  exact ⟨a1, a2, b1, b2⟩

/-- Without a pixel in the cone there is neither light nor occlusion. -/
theorem C111_none (c : ℝ) (l : List Pix) (h : ∀ x ∈ l, x.cosine ≤ c) : (∀ k, (radiosity c l).1 k = 0) ∧ (radiosity c l).2 = 0 := by
  have e : l.foldl (body c) ⟨fun _ => 0, 0, 0⟩ = ⟨fun _ => 0, 0, 0⟩ := by
    induction l with
    | nil => rfl
    | cons x l ih =>
      have : body c ⟨fun _ => 0, 0, 0⟩ x = ⟨fun _ => 0, 0, 0⟩ := by
        unfold body
        simp only
        rw [if_neg (by have := h x (by simp); linarith)]
      rw [List.foldl_cons, this]
      exact ih fun y hy => h y (by simp [hy])
  unfold radiosity
  rw [e]
  simp

/-- Non-vacuity: a half covered pixel behind which is another. -/
example (far : ℝ) : (addAll far [⟨1, 1 / 2, fun _ => 1⟩, ⟨2, 1, fun _ => 3⟩]).rad 0 = 2 := by
  rw [(C111_pixel_partial far _ (by simp)).2.1]
  norm_num [blend]

/-- Non-vacuity: one pixel. -/
example : (radiosity 0 [⟨1, 1, ⟨1, 1, fun _ => 3⟩⟩]).1 0 = 3 := by
  rw [(C111_mean 0 _ (by norm_num [weight])).1]
  norm_num [weight]

end Verif.Point.Radiosity
