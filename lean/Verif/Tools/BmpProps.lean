import Verif.Tools.BmpLemmas

/-!
C112: the rows and pixels of BMP files
-/

namespace Verif.Tools.Bmp

open Spec

/-- A row is the least multiple of four bytes that holds its pixels. -/
theorem C112_align (i : Image) : i.rowSize % 4 = 0 ∧ 3 * i.width ≤ i.rowSize ∧ i.rowSize < 3 * i.width + 4 :=
  align_thm i

/-- Different parts of pixels have different places, all behind the headers and within the size written in the header. -/
theorem C112_places (i : Image) (x y c x' y' c' : Nat) (hx : x < i.width) (hy : y < i.height) (hc : c < 3) (hx' : x' < i.width)
    (hy' : y' < i.height) (hc' : c' < 3) :
    (place i.offBits i.rowSize i.height x y c = place i.offBits i.rowSize i.height x' y' c' ↔ x = x' ∧ y = y' ∧ c = c') ∧
    i.offBits ≤ place i.offBits i.rowSize i.height x y c ∧ place i.offBits i.rowSize i.height x y c < i.fileSize :=
  places_thm i x y c x' y' c' hx hy hc hx' hy' hc'

/-- A call with part of a row sets the bytes of these pixels and nothing else. -/
theorem C112_row (i : Image) (f g : File) (x0 x1 y e : Nat) (d : Nat → Nat) (hy : y < i.height)
    (h : imageData i f x0 x1 y (y + 1) e d = some g) :
    (∀ x c, x0 ≤ x → x < x1 → c < 3 →
      g.byte (place i.offBits i.rowSize i.height x y c) = (pixel i.channels fun j => d ((x - x0) * e + j)).getD c 0) ∧
    (∀ p, (∀ x c, x0 ≤ x → x < x1 → c < 3 → p ≠ place i.offBits i.rowSize i.height x y c) → g.byte p = f.byte p) :=
  row_thm i f g x0 x1 y e d hy h

/-- With all rows written in any order, every pixel of a picture with red, green and blue after `k` other channels, as alpha, is at its
place as blue, green, red; with one channel all three are its value. Partial: red, green and blue are the last channels. -/
theorem C112_picture_partial (i : Image) (d : Nat → Nat → Nat) (hw : 0 < i.width) (l : List Nat) (hl : l.Perm (List.range i.height))
    (f : File) :
    ∃ g, rows i i.channels d l f = some g ∧ ∀ x y, x < i.width → y < i.height →
      (∀ k, i.channels = k + 3 → g.byte (place i.offBits i.rowSize i.height x y 0) = d y ((k + 3) * x + (k + 2)) ∧
        g.byte (place i.offBits i.rowSize i.height x y 1) = d y ((k + 3) * x + (k + 1)) ∧
        g.byte (place i.offBits i.rowSize i.height x y 2) = d y ((k + 3) * x + k)) ∧
      (i.channels = 1 → ∀ c < 3, g.byte (place i.offBits i.rowSize i.height x y c) = d y x) := by
  obtain ⟨g, hg, hv⟩ := rows_get i i.channels d hw l (fun y hy => List.mem_range.mp (hl.mem_iff.mp hy)) (hl.nodup_iff.mpr List.nodup_range) f
  refine ⟨g, hg, ?_⟩
  intro x y hx hy
  have hm : y ∈ l := hl.mem_iff.mpr (List.mem_range.mpr hy)
  constructor
  · intro k h3
    refine ⟨?_, ?_, ?_⟩
    · rw [hv x y 0 hx hy (by omega), if_pos hm, h3]; simp [pixel, mul_comm]
    · rw [hv x y 1 hx hy (by omega), if_pos hm, h3]; simp [pixel, mul_comm]
    · rw [hv x y 2 hx hy (by omega), if_pos hm, h3]; simp [pixel, mul_comm]
  · intro h1 c hc
    rw [hv x y c hx hy hc, if_pos hm, h1]
    interval_cases c <;> simp [pixel]

/-- With red, green, blue and then depth or alpha, the blue of the file is the depth or alpha of the picture, the green its blue, and the
red its green. -/
theorem C112_last_violated (i : Image) (hi : i.channels = 4) (f g : File) (y : Nat) (d : Nat → Nat) (hy : y < i.height)
    (h : imageData i f 0 i.width y (y + 1) 4 d = some g) (x : Nat) (hx : x < i.width) :
    g.byte (place i.offBits i.rowSize i.height x y 0) = d (4 * x + 3) ∧ g.byte (place i.offBits i.rowSize i.height x y 1) = d (4 * x + 2) ∧
    g.byte (place i.offBits i.rowSize i.height x y 2) = d (4 * x + 1) := by
  obtain ⟨r, _⟩ := row_thm i f g 0 i.width y 4 d hy h
  refine ⟨?_, ?_, ?_⟩
  · rw [r x 0 (by omega) hx (by omega), hi]; simp [pixel, mul_comm]
  · rw [r x 1 (by omega) hx (by omega), hi]; simp [pixel, mul_comm]
  · rw [r x 2 (by omega) hx (by omega), hi]; simp [pixel, mul_comm]

/-- The file ends with the last pixel of the last row, before the bytes that fill up the row; so it is as long as its header says only if
the width is a multiple of four. -/
theorem C112_length_violated (i : Image) (d : Nat → Nat → Nat) (hw : 0 < i.width) (hh : 0 < i.height) (l : List Nat)
    (hl : l.Perm (List.range i.height)) (header : Nat → Nat) (g : File) (h : rows i i.channels d l (opened i header) = some g) :
    g.len + (i.rowSize - 3 * i.width) = i.fileSize ∧ (g.len = i.fileSize ↔ i.width % 4 = 0) := by
  obtain ⟨h4, hr, hr'⟩ := align_thm i
  have hspot : ∀ y, y < i.height → i.spot 0 y + i.rowSize ≤ i.fileSize := by
    intro y hy
    unfold Image.spot Image.fileSize Image.offBits
    have : i.rowSize * (i.height - y - 1) + i.rowSize ≤ i.rowSize * i.height := by
      rw [← Nat.mul_succ]
      exact Nat.mul_le_mul_left _ (by omega)
    omega
  have h0 : i.spot 0 0 + i.rowSize = i.fileSize := by
    unfold Image.spot Image.fileSize Image.offBits
    have : i.rowSize * (i.height - 0 - 1) + i.rowSize = i.rowSize * i.height := by
      rw [← Nat.mul_succ]
      congr 1
      omega
    omega
  have hoff : i.offBits ≤ i.spot 0 0 := by unfold Image.spot; omega
  obtain ⟨a, _, c⟩ := rows_len i i.channels d l (opened i header) g h (i.fileSize - (i.rowSize - 3 * i.width))
    (by show i.offBits ≤ _; omega)
    (by
      intro y hy
      have := hspot y (List.mem_range.mp (hl.mem_iff.mp hy))
      omega)
  have c0 := c 0 (hl.mem_iff.mpr (List.mem_range.mpr hh))
  refine ⟨by omega, ?_⟩
  constructor
  · intro he
    omega
  · intro he
    omega

/-- The bytes of a part of a row fit in the buffer of one row; more pixels than the row has may not fit. -/
theorem C112_buffer (i : Image) (e : Nat) (d : Nat → Nat) (n : Nat) :
    (n ≤ i.width → (rowBytes i e d n).length ≤ i.rowSize) ∧ (i.width + 2 ≤ n → i.rowSize < (rowBytes i e d n).length) := by
  obtain ⟨_, hr, hr'⟩ := align_thm i
  rw [rowBytes_length]
  omega

/-- Two channels give black pixels whatever the data is. -/
theorem C112_two_violated (i : Image) (hi : i.channels = 2) (f g : File) (y e : Nat) (d : Nat → Nat) (hy : y < i.height)
    (h : imageData i f 0 i.width y (y + 1) e d = some g) (x c : Nat) (hx : x < i.width) (hc : c < 3) :
    g.byte (place i.offBits i.rowSize i.height x y c) = 0 := by
  obtain ⟨r, _⟩ := row_thm i f g 0 i.width y e d hy h
  rw [r x c (by omega) hx hc, hi]
  interval_cases c <;> simp [pixel]

/-- The second header has the forty bytes it should have where a `long` has four bytes; where it has eight, it has sixty-four. -/
theorem C112_header_violated : infoSize 4 = 40 ∧ infoSize 8 = 64 := by decide

/-- Data that is not one row is refused, and so is a row of no pixels. -/
theorem C112_refused (i : Image) (f : File) (x0 x1 y0 y1 e : Nat) (d : Nat → Nat) :
    imageData i f x0 x1 y0 y1 e d = none ↔ (y1 ≠ y0 + 1 ∨ x1 ≤ x0) := by
  unfold imageData
  by_cases h : y0 + 1 = y1
  · rw [if_neg (by simpa using h)]
    simp only
    rw [rowBytes_length]
    by_cases h' : x1 ≤ x0
    · rw [if_pos (by omega)]; simp [h']
    · rw [if_neg (by omega)]; simp [h', h.symm]
  · rw [if_pos h]
    simp [Ne.symm h]

/-- Non-vacuity: a picture of one pixel. -/
example : ∃ g, rows ⟨1, 1, 3, 4⟩ 3 (fun _ j => 7 + j) [0] (opened ⟨1, 1, 3, 4⟩ fun _ => 0) = some g ∧ g.byte 54 = 9 ∧ g.len = 57 := ⟨_, rfl, rfl, rfl⟩

end Verif.Tools.Bmp
