import Verif.Tex.MixedConvProps

/-!
# What is read back from image buffers
-/

namespace Verif.Tex.Mixed

theorem ofBytes_toBytes : ∀ (n v : Nat), ofBytes (toBytes n v) = v % 256 ^ n
  | 0, v => by
    rw [pow_zero, Nat.mod_one]
    rfl
  | n + 1, v => by
    rw [toBytes, ofBytes, ofBytes_toBytes n (v / 256), pow_succ, mul_comm (256 ^ n) 256,
      Nat.mod_mul]

theorem ofBytes_lt : ∀ (bs : List Nat), (∀ b ∈ bs, b < 256) → ofBytes bs < 256 ^ bs.length
  | [], _ => by simp [ofBytes]
  | b :: bs, h => by
    have h1 := ofBytes_lt bs (fun c hc => h c (by simp [hc]))
    have h2 := h b (by simp)
    rw [ofBytes, List.length_cons, pow_succ]
    omega

theorem toBytes_ofBytes : ∀ (bs : List Nat), (∀ b ∈ bs, b < 256) →
    toBytes bs.length (ofBytes bs) = bs
  | [], _ => rfl
  | b :: bs, h => by
    have h2 := h b (by simp)
    rw [ofBytes, List.length_cons, toBytes, Nat.add_mul_mod_self_left, Nat.mod_eq_of_lt h2,
      Nat.add_mul_div_left _ _ (by norm_num), Nat.div_eq_of_lt h2, Nat.zero_add,
      toBytes_ofBytes bs (fun c hc => h c (by simp [hc]))]

/-- C82.  Values of one and two bytes copied between channels of the same type keep their bytes. -/
theorem C82_same (k : Codec) {t : Ty} (ht : Short t) {bs : List Nat} (hl : bs.length = size t)
    (hb : ∀ b ∈ bs, b < 256) : asBytes k t (toFloat k t (ofBytes bs)) = bs := by
  have h1 := ofBytes_lt bs hb
  rw [hl] at h1
  unfold asBytes
  rw [C82_back k ht h1, ← hl, toBytes_ofBytes bs hb]

example (k : Codec) : asBytes k .s16 (toFloat k .s16 (ofBytes [200, 130])) = [200, 130] :=
  C82_same k (Or.inr (Or.inr (Or.inr rfl))) rfl (by decide)

/-- C82.  The bytes written for a value are read back as a value within little more than half a step
of the type; floats are read back as they were written. -/
theorem C82_read (k : Codec) (t : Ty) (x : ℚ) :
    (Short t → |toFloat k t (ofBytes (asBytes k t x)) - max 0 (min x 1)| ≤
      (1 / 2 + 1 / 64) / (if size t = 1 then 255 else 65535)) ∧
    (t = .f32 → fl x = x → toFloat k t (ofBytes (asBytes k t x)) = x) := by
  constructor
  · intro ht
    obtain ⟨h1, h2, _⟩ := C82_close k ht x
    unfold asBytes
    rw [ofBytes_toBytes, Nat.mod_eq_of_lt h1]
    have : (if size t = 1 then (255 : ℚ) else 65535) = steps t := by
      rcases ht with rfl | rfl | rfl | rfl <;> simp [size, steps]
    rw [this]
    exact h2
  · rintro rfl hx
    unfold asBytes
    rw [ofBytes_toBytes]
    have : fromFloat k .f32 x = k.enc x := rfl
    rw [this, Nat.mod_eq_of_lt (lt_of_lt_of_le (k.small x) (by norm_num [size]))]
    exact k.back x hx

example (k : Codec) : |toFloat k .u8 (ofBytes (asBytes k .u8 (1 / 3))) - 1 / 3| ≤ 1 / 400 := by
  have h := (C82_read k .u8 (1 / 3)).1 (Or.inl rfl)
  rw [show max (0 : ℚ) (min (1 / 3) 1) = 1 / 3 by norm_num] at h
  refine le_trans h ?_
  norm_num [size]

example (k : Codec) : fromFloat k .u8 (toFloat k .u8 77) = 77 := C82_back k (Or.inl rfl) (by decide)

example (k : Codec) : toFloat k .s8 (fromFloat k .s8 7) = 1 :=
  (C82_close k (Or.inr (Or.inl rfl)) 7).2.2.2 (by norm_num)

/-- C82.  A row of an enlarged source, for a width which is a multiple of the factor: every value of
the row below it as often as the factor says. -/
theorem C82_zoom (k : Codec) {s : Source} {f n y : Nat} {r : List ℚ} (hf : 0 < f)
    (h : s.row k n ((y / f : Nat) : ℤ) = .ok r) :
    ∃ r', (Source.zoom s f).row k ((f * n : Nat) : ℤ) y = .ok r' ∧ r'.length = f * n ∧
      ∀ x < f * n, r'.getD x 0 = r.getD (x / f) 0 := by
  unfold Source.row
  simp only
  rw [if_pos (by omega)]
  have e1 : ((f * n : Nat) : ℤ) / (f : ℤ) = (n : ℤ) := by
    push_cast
    exact Int.mul_ediv_cancel_left _ (by omega)
  have e2 : (y : ℤ) / (f : ℤ) = ((y / f : Nat) : ℤ) := by push_cast; rfl
  rw [e1, e2, h]
  refine ⟨_, rfl, by rw [List.length_map, List.length_range, Int.toNat_natCast], fun x hx => ?_⟩
  have hx' : (x : ℤ) < (n : ℤ) * (f : ℤ) := by
    rw [mul_comm] at hx
    exact_mod_cast hx
  simp only [Int.toNat_natCast, List.getD_eq_getElem?_getD, List.getElem?_map,
    List.getElem?_range hx, Option.map_some, Option.getD_some, if_pos hx']

example (k : Codec) : (Source.constant (1 / 2)).row k 2 ((1 / 3 : Nat) : ℤ) = .ok [1 / 2, 1 / 2] := rfl

/-- C82.  Other sizes are accepted too: a channel three pixels high is copied from a source of one
pixel enlarged twice, with a row read past the end of the source; a channel three pixels wide gets
nothing from the source in its last column. -/
theorem C82_zoom_violated (k : Codec) :
    (Source.zoom (.chan ⟨.u8, 0, 1, 1, 1, 0⟩ [255]) 2).require 2 3 = .ok () ∧
    Chan.copyFrom k ⟨.u8, 0, 2, 3, 1, 0⟩ (.zoom (.chan ⟨.u8, 0, 1, 1, 1, 0⟩ [255]) 2)
      [0, 0, 0, 0, 0, 0] = .ub ∧
    (Source.zoom (.chan ⟨.u8, 0, 1, 1, 1, 0⟩ [255]) 2).require 3 2 = .ok () ∧
    (Source.zoom (.chan ⟨.u8, 0, 1, 1, 1, 0⟩ [255]) 2).row k 3 0 =
      .ok [toFloat k .u8 255, toFloat k .u8 255, 0] := by
  refine ⟨by decide, ?_, by decide, ?_⟩
  · have h0 : ∀ y : ℤ, (y = 0 ∨ y = 1) →
        (Source.zoom (.chan ⟨.u8, 0, 1, 1, 1, 0⟩ [255]) 2).row k 2 y =
          .ok [toFloat k .u8 255, toFloat k .u8 255] := by
      rintro y (rfl | rfl) <;> rfl
    have h2 : (Source.zoom (.chan ⟨.u8, 0, 1, 1, 1, 0⟩ [255]) 2).row k 2 2 = .ub := rfl
    have hr : ∀ (v : ℚ) (y : ℤ), (y = 0 ∨ y = 1) → ∀ d : List Nat, d.length = 6 →
        ∃ d' : List Nat, d'.length = 6 ∧
          Chan.replaceRow k ⟨.u8, 0, 2, 3, 1, 0⟩ y [v, v] d = .ok d' := by
      intro v y hy d hd
      have hl : (toBytes (size .u8) (fromFloat k .u8 v)).length = 1 := toBytes_length _ _
      unfold Chan.replaceRow
      show ∃ d' : List Nat, d'.length = 6 ∧ replaceLoop k .u8 1 2 _ [v, v] d = .ok d'
      unfold replaceLoop store
      generalize toBytes (size .u8) (fromFloat k .u8 v) = bs at hl
      rw [if_pos (by rcases hy with rfl | rfl <;> simp [hd, hl])]
      simp only [Res.bind]
      have hl' : (toBytes (size .u8) (fromFloat k .u8 v)).length = 1 := toBytes_length _ _
      unfold replaceLoop store
      generalize toBytes (size .u8) (fromFloat k .u8 v) = bs' at hl'
      rw [if_pos (by rcases hy with rfl | rfl <;> simp [hd, hl, hl'])]
      refine ⟨_, ?_, rfl⟩
      rcases hy with rfl | rfl <;> simp [hd, hl, hl']
    unfold Chan.copyFrom
    have hq : (Source.zoom (.chan ⟨.u8, 0, 1, 1, 1, 0⟩ [255]) 2).require 2 3 = .ok () := by decide
    simp only
    rw [hq]
    simp only [Res.bind]
    rw [show Int.toNat 3 = 3 from rfl]
    obtain ⟨d1, l1, e1⟩ := hr (toFloat k .u8 255) 0 (Or.inl rfl) [0, 0, 0, 0, 0, 0] rfl
    obtain ⟨d2, l2, e2⟩ := hr (toFloat k .u8 255) 1 (Or.inr rfl) d1 l1
    unfold copyRows
    simp only
    rw [h0 0 (Or.inl rfl)]
    simp only [Res.bind]
    rw [e1]
    simp only
    unfold copyRows
    simp only [zero_add]
    rw [h0 1 (Or.inr rfl)]
    simp only [Res.bind]
    rw [e2]
    simp only
    unfold copyRows
    rw [show (1 : ℤ) + 1 = 2 by norm_num, h2]
    rfl
  · rfl

/-! ### The hypotheses hold of some buffers -/

/-- A buffer of two by one pixels, with a channel of one byte and one of two. -/
def sampleBuf : Buf :=
  ⟨(CList.empty.add ⟨['r'], .u8⟩).add ⟨['a'], .u16⟩, 2, 1, [1, 2, 3, 4, 5, 6]⟩

theorem sample_good : Good sampleBuf 2 1 := by
  constructor
  · exact ⟨rfl, rfl⟩
  · decide
  · rfl
  · rfl
  · rfl

example (k : Codec) : ∃ b', sampleBuf.copyFrom k sampleBuf 1 0 = .ok b' ∧
    cell b'.list.chans 2 b'.data 1 1 0 = [2, 3] := by
  obtain ⟨b', h, hr⟩ := C82_copy k 1 0 sample_good sample_good rfl
  refine ⟨b', h, ?_⟩
  have := hr.2.2 1 (by decide) 1 (by decide) 0 (by decide)
  rw [hr.2.1, this]
  show asBytes k .u16 (toFloat k .u16 (ofBytes [2, 3])) = _
  exact C82_same k (Or.inr (Or.inr (Or.inl rfl))) rfl (by decide)

example (k : Codec) : ∃ b', sampleBuf.copyMap k sampleBuf [(['a'], ['r'])] 0 0 = .ok b' := by
  obtain ⟨b', h, _⟩ := C82_copy_named k 0 0 [(['a'], ['r'])] sample_good sample_good (by decide)
    (by decide)
  exact ⟨b', h⟩

example (k : Codec) : ∃ b', sampleBuf.compositeOver k sampleBuf [(['r'], ['r'])] 0 0 ['a'] = .ok b' := by
  obtain ⟨b', h, _⟩ := (C82_composite k 0 0 ['a'] [(['r'], ['r'])] sample_good sample_good (by decide)
    (by decide)).1 1 (C82_find.1 1 |>.mp (by decide))
  exact ⟨b', h⟩

example (k : Codec) : ∃ b', sampleBuf.fill k (.checks 1) = .ok b' := by
  obtain ⟨b', h, _⟩ := (C82_fill k sample_good (by decide) (by decide)).2 1 (by decide)
  exact ⟨b', h⟩

example : Packed sampleBuf.list ∧ sampleBuf.list.offsets = [0, 1] ∧ sampleBuf.list.bpp = 3 :=
  ⟨sample_good.packed, rfl, rfl⟩

example : (CList.reorder (((CList.empty.add ⟨['z'], .f32⟩).add ⟨['a'], .u16⟩).add ⟨['r'], .u8⟩)).chans =
    [⟨['r'], .u8⟩, ⟨['a'], .u16⟩, ⟨['z'], .f32⟩] := by decide

end Verif.Tex.Mixed
