import Verif.Point.Radiosity
import Mathlib.Algebra.BigOperators.Group.List.Basic
import Mathlib.Algebra.Order.BigOperators.Group.List
import Mathlib.Tactic.Linarith
import Mathlib.Tactic.Ring
import Mathlib.Tactic.Positivity
import Mathlib.Tactic.FieldSimp

/-!
Lemmas about Sums of light
-/

namespace Verif.Point.Radiosity

namespace Spec

/-- The sum of the coverages. -/
def total (l : List Sample) : ℝ := (l.map Sample.cover).sum

/-- Light from front to back: each sample adds as much as it covers of what is still free, after `s` was covered. -/
noncomputable def blend (k : Fin 3) : ℝ → List Sample → ℝ
  | _, [] => 0
  | s, x :: l => (min 1 (s + x.cover) - min 1 s) * x.rad k + blend k (s + x.cover) l

/-- The weight of a pixel. -/
noncomputable def weight (c : ℝ) (x : Pix) : ℝ := max 0 (x.cosine - c) * x.size

end Spec

open Spec

theorem add_from (l : List Sample) (h : ∀ x ∈ l, 0 ≤ x.cover) (s : ℝ) (p : Pixel) (hp : p.cover = min 1 s) :
    (l.foldl addSample p).cover = min 1 (s + total l) ∧
    (∀ k, (l.foldl addSample p).rad k = p.rad k + blend k s l) ∧
    (l.foldl addSample p).dist ≤ p.dist ∧ (∀ x ∈ l, (l.foldl addSample p).dist ≤ x.dist) ∧
    ((l.foldl addSample p).dist = p.dist ∨ ∃ x ∈ l, (l.foldl addSample p).dist = x.dist) := by
  induction l generalizing s p with
  | nil => exact ⟨by simp [total, hp], by simp [blend], le_refl _, by simp, Or.inl rfl⟩
  | cons x l ih =>
    have hx : 0 ≤ x.cover := h x (by simp)
    have key : (addSample p x).cover = min 1 (s + x.cover) ∧
        (∀ k, (addSample p x).rad k = p.rad k + (min 1 (s + x.cover) - min 1 s) * x.rad k) ∧
        (addSample p x).dist = min p.dist x.dist := by
      have hd : ∀ q : Pixel, q = (if x.dist < p.dist then { p with dist := x.dist } else p) → q.cover = p.cover ∧ q.rad = p.rad ∧
          q.dist = min p.dist x.dist := by
        rintro q rfl
        by_cases hh : x.dist < p.dist
        · rw [if_pos hh]; exact ⟨rfl, rfl, (min_eq_right hh.le).symm⟩
        · rw [if_neg hh]; exact ⟨rfl, rfl, (min_eq_left (not_lt.mp hh)).symm⟩
      unfold addSample
      simp only
      generalize hq : (@ite Pixel (x.dist < p.dist) _ { p with dist := x.dist } p) = q
      obtain ⟨q1, q2, q3⟩ := hd q (by rw [← hq])
      rw [q1, q2, hp]
      by_cases h1 : min 1 s < 1
      · have hs : s < 1 := by
          by_contra hc
          rw [min_eq_left (not_lt.mp hc)] at h1
          exact lt_irrefl _ h1
        rw [if_pos h1, min_eq_right hs.le]
        by_cases h2 : s + x.cover ≤ 1
        · rw [if_pos h2, min_eq_right h2]
          exact ⟨rfl, fun k => by ring, q3⟩
        · rw [if_neg h2, min_eq_left (not_le.mp h2).le]
          exact ⟨rfl, fun k => rfl, q3⟩
      · have hs : 1 ≤ s := by
          by_contra hc
          rw [min_eq_right (not_le.mp hc).le] at h1
          exact h1 (not_le.mp hc)
        rw [if_neg h1, min_eq_left hs, min_eq_left (by linarith : (1 : ℝ) ≤ s + x.cover)]
        refine ⟨by rw [q1, hp, min_eq_left hs], fun k => by rw [q2]; ring, q3⟩
    obtain ⟨k1, k2, k3⟩ := key
    obtain ⟨i1, i2, i3, i4, i5⟩ := ih (fun y hy => h y (by simp [hy])) (s + x.cover) (addSample p x) k1
    rw [List.foldl_cons]
    rw [k3] at i3 i5
    refine ⟨?_, ?_, i3.trans (min_le_left _ _), ?_, ?_⟩
    · rw [i1]; simp [total]; ring_nf
    · intro k; rw [i2, k2]; simp only [blend]; ring
    · intro y hy
      rcases List.mem_cons.mp hy with rfl | hy
      · exact i3.trans (min_le_right _ _)
      · exact i4 y hy
    · rcases i5 with e | ⟨y, hy, e⟩
      · rcases min_choice p.dist x.dist with m | m
        · left; rw [e, m]
        · right; exact ⟨x, by simp, by rw [e, m]⟩
      · right; exact ⟨y, by simp [hy], e⟩

theorem blend_bounds (k : Fin 3) (m M : ℝ) (l : List Sample) (h : ∀ x ∈ l, 0 ≤ x.cover ∧ m ≤ x.rad k ∧ x.rad k ≤ M) (s : ℝ) :
    m * (min 1 (s + total l) - min 1 s) ≤ blend k s l ∧ blend k s l ≤ M * (min 1 (s + total l) - min 1 s) := by
  induction l generalizing s with
  | nil => simp [blend, total]
  | cons x l ih =>
    obtain ⟨i1, i2⟩ := ih (fun y hy => h y (by simp [hy])) (s + x.cover)
    obtain ⟨hx, hm, hM⟩ := h x (by simp)
    have e : s + total (x :: l) = s + x.cover + total l := by simp [total]; ring
    have hw : 0 ≤ min 1 (s + x.cover) - min 1 s := by
      have := min_le_min_left (1 : ℝ) (by linarith : s ≤ s + x.cover)
      linarith
    rw [e]
    simp only [blend]
    constructor <;> nlinarith

theorem sums (c : ℝ) (l : List Pix) (s : Sums) :
    (∀ k, (l.foldl (body c) s).rad k = s.rad k + (l.map fun x => weight c x * x.pixel.rad k).sum) ∧
    (l.foldl (body c) s).occ = s.occ + (l.map fun x => weight c x * x.pixel.cover).sum ∧
    (l.foldl (body c) s).weight = s.weight + (l.map (weight c)).sum := by
  induction l generalizing s with
  | nil => simp
  | cons x l ih =>
    have key : (∀ k, (body c s x).rad k = s.rad k + weight c x * x.pixel.rad k) ∧ (body c s x).occ = s.occ + weight c x * x.pixel.cover ∧
        (body c s x).weight = s.weight + weight c x := by
      unfold body weight
      simp only
      by_cases h : x.cosine - c > 0
      · rw [if_pos h, max_eq_right (le_of_lt h)]
        exact ⟨fun k => rfl, rfl, rfl⟩
      · rw [if_neg h, max_eq_left (not_lt.mp h)]
        simp
    obtain ⟨k1, k2, k3⟩ := key
    obtain ⟨i1, i2, i3⟩ := ih (body c s x)
    refine ⟨fun k => ?_, ?_, ?_⟩
    · rw [List.foldl_cons, i1, k1, List.map_cons, List.sum_cons]; ring
    · rw [List.foldl_cons, i2, k2, List.map_cons, List.sum_cons]; ring
    · rw [List.foldl_cons, i3, k3, List.map_cons, List.sum_cons]; ring

theorem weighted (c m M : ℝ) (f : Pix → ℝ) (l : List Pix) (hs : ∀ x ∈ l, 0 ≤ x.size) (h : ∀ x ∈ l, c < x.cosine → m ≤ f x ∧ f x ≤ M) :
    m * (l.map (weight c)).sum ≤ (l.map fun x => weight c x * f x).sum ∧
    (l.map fun x => weight c x * f x).sum ≤ M * (l.map (weight c)).sum ∧ 0 ≤ (l.map (weight c)).sum := by
  induction l with
  | nil => simp
  | cons x l ih =>
    obtain ⟨i1, i2, i3⟩ := ih (fun y hy => hs y (by simp [hy])) (fun y hy => h y (by simp [hy]))
    have hx := hs x (by simp)
    have w0 : 0 ≤ weight c x := mul_nonneg (le_max_left _ _) hx
    have hb : m * weight c x ≤ weight c x * f x ∧ weight c x * f x ≤ M * weight c x := by
      by_cases hc : c < x.cosine
      · obtain ⟨a, b⟩ := h x (by simp) hc
        constructor <;> nlinarith
      · have : weight c x = 0 := by
          unfold weight
          rw [max_eq_left (by linarith [not_lt.mp hc]), zero_mul]
        rw [this]; simp
    simp only [List.map_cons, List.sum_cons]
    refine ⟨by linarith [hb.1], by linarith [hb.2], by linarith⟩

end Verif.Point.Radiosity
