import Verif.Tools.Bmp
import Mathlib.Tactic.Linarith
import Mathlib.Tactic.Ring
import Mathlib.Tactic.IntervalCases
import Mathlib.Data.List.GetD

/-!
Lemmas about BMP files
-/

namespace Verif.Tools.Bmp

namespace Spec

/-- Where a BMP file has a part of a pixel (0 blue, 1 green, 2 red): rows from the bottom, each filled up to `row` bytes. -/
def place (off row height x y c : Nat) : Nat := off + (height - 1 - y) * row + (3 * x + c)

end Spec

open Spec

theorem align_thm (i : Image) : i.rowSize % 4 = 0 ∧ 3 * i.width ≤ i.rowSize ∧ i.rowSize < 3 * i.width + 4 := by
  unfold Image.rowSize dwordAlign
  rw [Nat.shiftRight_eq_div_pow, Nat.shiftLeft_eq]
  omega

theorem pixel_length (c : Nat) (d : Nat → Nat) : (pixel c d).length = 3 := by
  unfold pixel
  split_ifs <;> rfl

theorem rowBytes_length (i : Image) (e : Nat) (d : Nat → Nat) (n : Nat) : (rowBytes i e d n).length = 3 * n := by
  unfold rowBytes
  induction n with
  | zero => rfl
  | succ n ih => rw [List.range_succ, List.flatMap_append, List.length_append, ih]; simp [pixel_length]; ring

theorem rowBytes_get (i : Image) (e : Nat) (d : Nat → Nat) (n k c : Nat) (hk : k < n) (hc : c < 3) :
    (rowBytes i e d n).getD (3 * k + c) 0 = (pixel i.channels fun j => d (k * e + j)).getD c 0 := by
  induction n with
  | zero => omega
  | succ n ih =>
    have e1 : rowBytes i e d (n + 1) = rowBytes i e d n ++ pixel i.channels fun j => d (n * e + j) := by
      unfold rowBytes
      rw [List.range_succ, List.flatMap_append]
      simp
    rw [e1]
    by_cases h : k < n
    · rw [List.getD_append _ _ _ _ (by rw [rowBytes_length]; omega)]
      exact ih h
    · have : k = n := by omega
      subst this
      rw [List.getD_append_right _ _ _ _ (by rw [rowBytes_length]; omega), rowBytes_length]
      congr 1
      omega

theorem places_thm (i : Image) (x y c x' y' c' : Nat) (hx : x < i.width) (hy : y < i.height) (hc : c < 3) (hx' : x' < i.width)
    (hy' : y' < i.height) (hc' : c' < 3) :
    (place i.offBits i.rowSize i.height x y c = place i.offBits i.rowSize i.height x' y' c' ↔ x = x' ∧ y = y' ∧ c = c') ∧
    i.offBits ≤ place i.offBits i.rowSize i.height x y c ∧ place i.offBits i.rowSize i.height x y c < i.fileSize := by
  obtain ⟨_, hr, _⟩ := align_thm i
  have hb : 3 * x + c < i.rowSize := by omega
  have hb' : 3 * x' + c' < i.rowSize := by omega
  unfold place
  refine ⟨⟨?_, by rintro ⟨rfl, rfl, rfl⟩; rfl⟩, by omega, ?_⟩
  · intro h
    have h1 : (i.height - 1 - y) * i.rowSize + (3 * x + c) = (i.height - 1 - y') * i.rowSize + (3 * x' + c') := by omega
    have hpos : 0 < i.rowSize := by omega
    have q : i.height - 1 - y = i.height - 1 - y' := by
      have a := congrArg (· / i.rowSize) h1
      beta_reduce at a
      rwa [mul_comm, Nat.mul_add_div hpos, Nat.div_eq_of_lt hb, mul_comm, Nat.mul_add_div hpos, Nat.div_eq_of_lt hb'] at a
    rw [q] at h1
    omega
  · unfold Image.fileSize Image.offBits
    have : (i.height - 1 - y) * i.rowSize + i.rowSize ≤ i.rowSize * i.height := by
      rw [← Nat.succ_mul, mul_comm]
      exact Nat.mul_le_mul_left _ (by omega)
    omega

theorem row_thm (i : Image) (f g : File) (x0 x1 y e : Nat) (d : Nat → Nat) (hy : y < i.height)
    (h : imageData i f x0 x1 y (y + 1) e d = some g) :
    (∀ x c, x0 ≤ x → x < x1 → c < 3 →
      g.byte (place i.offBits i.rowSize i.height x y c) = (pixel i.channels fun j => d ((x - x0) * e + j)).getD c 0) ∧
    (∀ p, (∀ x c, x0 ≤ x → x < x1 → c < 3 → p ≠ place i.offBits i.rowSize i.height x y c) → g.byte p = f.byte p) := by
  unfold imageData at h
  rw [if_neg (by simp)] at h
  simp only at h
  split_ifs at h with h0
  rw [rowBytes_length] at h0
  rw [Option.some.injEq] at h
  subst h
  have hs : i.spot x0 y = i.offBits + (i.height - 1 - y) * i.rowSize + 3 * x0 := by
    unfold Image.spot
    rw [show i.height - y - 1 = i.height - 1 - y by omega, mul_comm]
  unfold File.write
  simp only
  rw [hs, rowBytes_length]
  constructor
  · intro x c h1 h2 hc
    unfold place
    rw [if_pos (by omega), ← rowBytes_get i e d (x1 - x0) (x - x0) c (by omega) hc]
    congr 1
    omega
  · intro p hp
    rw [if_neg]
    rintro ⟨h1, h2⟩
    refine hp (x0 + (p - (i.offBits + (i.height - 1 - y) * i.rowSize + 3 * x0)) / 3)
      ((p - (i.offBits + (i.height - 1 - y) * i.rowSize + 3 * x0)) % 3) (by omega) (by omega) (by omega) ?_
    unfold place
    omega

theorem rows_get (i : Image) (e : Nat) (d : Nat → Nat → Nat) (hw : 0 < i.width) (l : List Nat) (hl : ∀ y ∈ l, y < i.height)
    (hn : l.Nodup) (f : File) :
    ∃ g, rows i e d l f = some g ∧ ∀ x y c, x < i.width → y < i.height → c < 3 →
      g.byte (place i.offBits i.rowSize i.height x y c)
        = if y ∈ l then (pixel i.channels fun j => d y (x * e + j)).getD c 0 else f.byte (place i.offBits i.rowSize i.height x y c) := by
  induction l generalizing f with
  | nil => exact ⟨f, rfl, fun x y c _ _ _ => by simp⟩
  | cons z l ih =>
    rw [List.nodup_cons] at hn
    have hz := hl z (by simp)
    obtain ⟨f', hf'⟩ : ∃ f', imageData i f 0 i.width z (z + 1) e (d z) = some f' := by
      unfold imageData
      rw [if_neg (by simp)]
      simp only
      rw [rowBytes_length, if_neg (by omega)]
      exact ⟨_, rfl⟩
    obtain ⟨r1, r2⟩ := row_thm i f f' 0 i.width z e (d z) hz hf'
    obtain ⟨g, hg, hv⟩ := ih (fun y hy => hl y (by simp [hy])) hn.2 f'
    refine ⟨g, by rw [rows, hf']; exact hg, ?_⟩
    intro x y c hx hy hc
    rw [hv x y c hx hy hc]
    by_cases hyz : y = z
    · subst hyz
      rw [if_neg hn.1, if_pos (by simp), r1 x c (by omega) hx hc]
      simp
    · rw [r2 _ (fun x' c' _ hx' hc' he => hyz ((places_thm i x y c x' z c' hx hy hc hx' hz hc').1.mp he).2.1)]
      simp [hyz]

theorem rows_len (i : Image) (e : Nat) (d : Nat → Nat → Nat) (l : List Nat) (f g : File) (h : rows i e d l f = some g) (B : Nat)
    (hf : f.len ≤ B) (hB : ∀ y ∈ l, i.spot 0 y + 3 * i.width ≤ B) : g.len ≤ B ∧ f.len ≤ g.len ∧ ∀ y ∈ l, i.spot 0 y + 3 * i.width ≤ g.len := by
  induction l generalizing f with
  | nil =>
    simp only [rows, Option.some.injEq] at h
    subst h
    exact ⟨hf, le_refl _, by simp⟩
  | cons z l ih =>
    rw [rows] at h
    obtain ⟨f', hf', h⟩ := Option.bind_eq_some_iff.mp h
    have e1 : f'.len = max f.len (i.spot 0 z + 3 * i.width) := by
      unfold imageData at hf'
      rw [if_neg (by simp)] at hf'
      simp only at hf'
      split_ifs at hf' with h0
      rw [Option.some.injEq] at hf'
      subst hf'
      simp [File.write, rowBytes_length]
    have hz := hB z (by simp)
    obtain ⟨a, b, c⟩ := ih f' h (by rw [e1]; omega) (fun y hy => hB y (by simp [hy]))
    refine ⟨a, by omega, ?_⟩
    intro y hy
    rcases List.mem_cons.mp hy with rfl | hy
    · omega
    · exact c y hy

end Verif.Tools.Bmp
