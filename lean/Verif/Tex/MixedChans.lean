import Verif.Tex.MixedLemmas

/-!
# Lemmas on whole channels and buffers
-/

namespace Verif.Tex.Mixed

/-- The channel of a region of a buffer. -/
def part (is : List Info) (w i x y cw ch : Nat) : Chan :=
  ⟨tyOf is i, place is w i x y, cw, ch, whole is, (w : ℤ) - cw⟩

theorem channel_ok {b : Buf} {w h i x y cw ch : Nat} (hg : Good b w h)
    (hi : i < b.list.chans.length) (hw : 0 < cw) (hh : 0 < ch) (hx : x + cw ≤ w)
    (hy : y + ch ≤ h) :
    b.channel i x y cw ch = .ok (part b.list.chans w i x y cw ch) := by
  unfold Buf.channel
  simp only
  rw [if_neg (by omega : ¬ (cw : ℤ) = 0), if_neg (by omega : ¬ (ch : ℤ) = 0),
    if_neg (by rw [hg.width]; omega), if_neg (by rw [hg.height]; omega), hg.packed.1]
  have h1 : ((List.range b.list.chans.length).map (before b.list.chans))[i]? =
      some (before b.list.chans i) := by simp [hi]
  have h2 : b.list.chans[i]? = some b.list.chans[i] := by simp [hi]
  rw [h1, h2]
  have ht := hg.types _ (List.getElem_mem hi)
  simp only
  rw [if_neg (by tauto), hg.packed.2, hg.width]
  unfold part place
  rw [tyOf_eq hi]
  push_cast
  rfl

theorem row_start (is : List Info) (w i x y cw r : Nat) :
    (place is w i x y : ℤ) + (r : ℤ) * (whole is : ℤ) * ((cw : ℤ) + ((w : ℤ) - cw)) =
      (place is w i x (y + r) : ℤ) := by
  unfold place
  push_cast
  ring

theorem part_row {is : List Info} {w h i x y cw ch r : Nat} {d : List Nat} (k : Codec)
    (hd : d.length = h * w * whole is) (hi : i < is.length) (hx : x + cw ≤ w) (hy : y + r < h) :
    (part is w i x y cw ch).getRow k d r = .ok ((List.range cw).map fun q =>
      toFloat k (tyOf is i) (ofBytes (cell is w d i (x + q) (y + r)))) := by
  unfold Chan.getRow part
  simp only [Int.toNat_natCast]
  rw [row_start]
  exact get_row k hd hi hy cw x hx

theorem part_replace {is : List Info} {w h i x y cw ch r : Nat} {d : List Nat} {xs : List ℚ}
    (k : Codec) (hd : d.length = h * w * whole is) (hi : i < is.length) (hx : x + cw ≤ w)
    (hy : y + r < h) (hl : xs.length = cw) :
    ∃ d', (part is w i x y cw ch).replaceRow k r xs d = .ok d' ∧
      Upd is w h d d' (fun j u v =>
        if j = i ∧ v = y + r ∧ x ≤ u ∧ u < x + cw then
          some (asBytes k (tyOf is i) (xs.getD (u - x) 0)) else none) := by
  unfold Chan.replaceRow part
  simp only [Int.toNat_natCast]
  rw [row_start]
  exact replace_row k hi hy cw x xs d hx hl hd

theorem part_composite {is : List Info} {w h i x y cw ch r : Nat} {d : List Nat} {xs as : List ℚ}
    (k : Codec) (hd : d.length = h * w * whole is) (hi : i < is.length) (hx : x + cw ≤ w)
    (hy : y + r < h) (hl : xs.length = cw) (ha : as.length = cw) :
    ∃ d', (part is w i x y cw ch).compositeRow k r xs as d = .ok d' ∧
      Upd is w h d d' (fun j u v =>
        if j = i ∧ v = y + r ∧ x ≤ u ∧ u < x + cw then
          some (asBytes k (tyOf is i) (over (xs.getD (u - x) 0) (as.getD (u - x) 0)
            (toFloat k (tyOf is i) (ofBytes (cell is w d i u (y + r)))))) else none) := by
  unfold Chan.compositeRow part
  simp only [Int.toNat_natCast]
  rw [row_start]
  exact composite_row k hi hy cw x xs as d hx hl ha hd

theorem copy_rows {is : List Info} {w h i x y cw ch : Nat} {s : Source} (k : Codec)
    (vals : Nat → List ℚ) (hi : i < is.length) (hx : x + cw ≤ w) (hy : y + ch ≤ h)
    (hrow : ∀ r < ch, s.row k cw r = .ok (vals r)) (hlen : ∀ r < ch, (vals r).length = cw) :
    ∀ (n r : Nat) (d : List Nat), r + n ≤ ch → d.length = h * w * whole is →
      ∃ d', copyRows k (part is w i x y cw ch) s n r d = .ok d' ∧
        Upd is w h d d' (fun j u v =>
          if j = i ∧ x ≤ u ∧ u < x + cw ∧ y + r ≤ v ∧ v < y + r + n then
            some (asBytes k (tyOf is i) ((vals (v - y)).getD (u - x) 0)) else none)
  | 0, r, d, _, _ => ⟨d, rfl, (Upd.refl is w h d).congr (by
      intro j _ u _ v _
      rw [if_neg (by omega)])⟩
  | n + 1, r, d, hr, hd => by
    obtain ⟨d1, hs, h1⟩ := part_replace (ch := ch) k hd hi hx (show y + r < h by omega)
      (hlen r (by omega))
    obtain ⟨d2, hr2, h2⟩ := copy_rows k vals hi hx hy hrow hlen n (r + 1) d1 (by omega)
      (by rw [h1.1, hd])
    refine ⟨d2, ?_, (h1.trans h2).congr ?_⟩
    · rw [copyRows]
      have e : (part is w i x y cw ch).w = cw := rfl
      rw [e, hrow r (by omega)]
      simp only [Res.bind]
      rw [hs]
      exact hr2
    · intro j _ u _ v _
      by_cases hv : v = y + r
      · rw [if_neg (by omega)]
        by_cases hj : j = i ∧ x ≤ u ∧ u < x + cw
        · rw [if_pos ⟨hj.1, hv, hj.2⟩, if_pos ⟨hj.1, hj.2.1, hj.2.2, by omega, by omega⟩]
          have e : v - y = r := by omega
          rw [e]
          rfl
        · rw [if_neg (by tauto), if_neg (by tauto)]
          rfl
      · by_cases hj : j = i ∧ x ≤ u ∧ u < x + cw ∧ y + (r + 1) ≤ v ∧ v < y + (r + 1) + n
        · rw [if_pos hj, if_neg (by tauto),
            if_pos ⟨hj.1, hj.2.1, hj.2.2.1, by omega, by omega⟩]
          rfl
        · rw [if_neg hj, if_neg (by tauto), if_neg (by omega)]
          rfl

theorem over_rows {is : List Info} {w h i x y cw ch : Nat} {s a : Source} (k : Codec)
    (vals alphas : Nat → List ℚ) (hi : i < is.length) (hx : x + cw ≤ w) (hy : y + ch ≤ h)
    (hrow : ∀ r < ch, s.row k cw r = .ok (vals r)) (hlen : ∀ r < ch, (vals r).length = cw)
    (harow : ∀ r < ch, a.row k cw r = .ok (alphas r))
    (halen : ∀ r < ch, (alphas r).length = cw) :
    ∀ (n r : Nat) (d : List Nat), r + n ≤ ch → d.length = h * w * whole is →
      ∃ d', overRows k (part is w i x y cw ch) s a n r d = .ok d' ∧
        Upd is w h d d' (fun j u v =>
          if j = i ∧ x ≤ u ∧ u < x + cw ∧ y + r ≤ v ∧ v < y + r + n then
            some (asBytes k (tyOf is i) (over ((vals (v - y)).getD (u - x) 0)
              ((alphas (v - y)).getD (u - x) 0)
              (toFloat k (tyOf is i) (ofBytes (cell is w d i u v))))) else none)
  | 0, r, d, _, _ => ⟨d, rfl, (Upd.refl is w h d).congr (by
      intro j _ u _ v _
      rw [if_neg (by omega)])⟩
  | n + 1, r, d, hr, hd => by
    obtain ⟨d1, hs, h1⟩ := part_composite (ch := ch) k hd hi hx (show y + r < h by omega)
      (hlen r (by omega)) (halen r (by omega))
    obtain ⟨d2, hr2, h2⟩ := over_rows k vals alphas hi hx hy hrow hlen harow halen n (r + 1) d1
      (by omega) (by rw [h1.1, hd])
    refine ⟨d2, ?_, (h1.trans h2).congr ?_⟩
    · rw [overRows]
      have e : (part is w i x y cw ch).w = cw := rfl
      rw [e, hrow r (by omega)]
      simp only [Res.bind]
      rw [harow r (by omega)]
      simp only
      rw [hs]
      exact hr2
    · intro j _ u hu v hv'
      by_cases hv : v = y + r
      · rw [if_neg (by omega)]
        by_cases hj : j = i ∧ x ≤ u ∧ u < x + cw
        · rw [if_pos ⟨hj.1, hv, hj.2⟩, if_pos ⟨hj.1, hj.2.1, hj.2.2, by omega, by omega⟩]
          have e : v - y = r := by omega
          rw [e, hv]
          rfl
        · rw [if_neg (by tauto), if_neg (by tauto)]
          rfl
      · by_cases hj : j = i ∧ x ≤ u ∧ u < x + cw ∧ y + (r + 1) ≤ v ∧ v < y + (r + 1) + n
        · rw [if_pos hj, if_neg (by tauto),
            if_pos ⟨hj.1, hj.2.1, hj.2.2.1, by omega, by omega⟩,
            h1.same hi hu hv' (if_neg (by omega))]
          rfl
        · rw [if_neg hj, if_neg (by tauto), if_neg (by omega)]
          rfl

/-- The rows of a channel of another buffer. -/
def rowsOf (k : Codec) (is : List Info) (w : Nat) (d : List Nat) (i x y cw r : Nat) : List ℚ :=
  (List.range cw).map fun q => toFloat k (tyOf is i) (ofBytes (cell is w d i (x + q) (y + r)))

theorem rowsOf_length (k : Codec) (is : List Info) (w : Nat) (d : List Nat) (i x y cw r : Nat) :
    (rowsOf k is w d i x y cw r).length = cw := by simp [rowsOf]

theorem rowsOf_get (k : Codec) (is : List Info) (w : Nat) (d : List Nat) {i x y cw r q : Nat}
    (h : q < cw) : (rowsOf k is w d i x y cw r).getD q 0 =
      toFloat k (tyOf is i) (ofBytes (cell is w d i (x + q) (y + r))) := by
  simp [rowsOf, List.getD, h]

/-- A region of one channel copied from a region of a channel of another buffer. -/
theorem copy_part {is js : List Info} {w h sw sh i j x y sx sy cw ch : Nat} {d e : List Nat}
    (k : Codec) (hd : d.length = h * w * whole is) (he : e.length = sh * sw * whole js)
    (hi : i < is.length) (hj : j < js.length) (hx : x + cw ≤ w) (hy : y + ch ≤ h)
    (hsx : sx + cw ≤ sw) (hsy : sy + ch ≤ sh) :
    ∃ d', (part is w i x y cw ch).copyFrom k (.chan (part js sw j sx sy cw ch) e) d = .ok d' ∧
      Upd is w h d d' (fun m u v =>
        if m = i ∧ x ≤ u ∧ u < x + cw ∧ y ≤ v ∧ v < y + ch then
          some (asBytes k (tyOf is i) (toFloat k (tyOf js j)
            (ofBytes (cell js sw e j (sx + (u - x)) (sy + (v - y)))))) else none) := by
  obtain ⟨d', h1, h2⟩ := copy_rows (s := .chan (part js sw j sx sy cw ch) e) k
    (fun r => rowsOf k js sw e j sx sy cw r) hi hx hy
    (fun r hr => part_row k he hj hsx (by omega)) (fun r _ => rowsOf_length ..) ch 0 d (by omega) hd
  refine ⟨d', ?_, h2.congr ?_⟩
  · unfold Chan.copyFrom Source.require
    have e1 : (part is w i x y cw ch).w = cw := rfl
    have e2 : (part is w i x y cw ch).h = ch := rfl
    have e3 : (part js sw j sx sy cw ch).w = cw := rfl
    have e4 : (part js sw j sx sy cw ch).h = ch := rfl
    rw [if_neg (by rw [e1, e2, e3, e4]; simp)]
    simp only [Res.bind]
    rw [e2, Int.toNat_natCast]
    exact h1
  · intro m _ u _ v _
    by_cases hm : m = i ∧ x ≤ u ∧ u < x + cw ∧ y ≤ v ∧ v < y + ch
    · rw [if_pos (by omega), if_pos hm, rowsOf_get _ _ _ _ (by omega)]
    · rw [if_neg (by omega), if_neg hm]

theorem over_part {is js : List Info} {w h sw sh i j m x y sx sy cw ch : Nat} {d e : List Nat}
    (k : Codec) (hd : d.length = h * w * whole is) (he : e.length = sh * sw * whole js)
    (hi : i < is.length) (hj : j < js.length) (hm : m < js.length) (hx : x + cw ≤ w)
    (hy : y + ch ≤ h) (hsx : sx + cw ≤ sw) (hsy : sy + ch ≤ sh) :
    ∃ d', (part is w i x y cw ch).compositeOver k (.chan (part js sw j sx sy cw ch) e)
        (.chan (part js sw m sx sy cw ch) e) d = .ok d' ∧
      Upd is w h d d' (fun n u v =>
        if n = i ∧ x ≤ u ∧ u < x + cw ∧ y ≤ v ∧ v < y + ch then
          some (asBytes k (tyOf is i) (over
            (toFloat k (tyOf js j) (ofBytes (cell js sw e j (sx + (u - x)) (sy + (v - y)))))
            (toFloat k (tyOf js m) (ofBytes (cell js sw e m (sx + (u - x)) (sy + (v - y)))))
            (toFloat k (tyOf is i) (ofBytes (cell is w d i u v))))) else none) := by
  obtain ⟨d', h1, h2⟩ := over_rows (s := .chan (part js sw j sx sy cw ch) e)
    (a := .chan (part js sw m sx sy cw ch) e) k
    (fun r => rowsOf k js sw e j sx sy cw r) (fun r => rowsOf k js sw e m sx sy cw r) hi hx hy
    (fun r hr => part_row k he hj hsx (by omega)) (fun r _ => rowsOf_length ..)
    (fun r hr => part_row k he hm hsx (by omega)) (fun r _ => rowsOf_length ..) ch 0 d (by omega) hd
  refine ⟨d', ?_, h2.congr ?_⟩
  · unfold Chan.compositeOver Source.require
    have e1 : (part is w i x y cw ch).w = cw := rfl
    have e2 : (part is w i x y cw ch).h = ch := rfl
    have e3 : ∀ q, (part js sw q sx sy cw ch).w = cw := fun _ => rfl
    have e4 : ∀ q, (part js sw q sx sy cw ch).h = ch := fun _ => rfl
    rw [if_neg (by rw [e1, e2, e3, e4]; simp), if_neg (by rw [e1, e2, e3, e4]; simp)]
    simp only [Res.bind]
    rw [e2, Int.toNat_natCast]
    exact h1
  · intro n _ u _ v _
    by_cases hn : n = i ∧ x ≤ u ∧ u < x + cw ∧ y ≤ v ∧ v < y + ch
    · rw [if_pos (by omega), if_pos hn, rowsOf_get _ _ _ _ (by omega),
        rowsOf_get _ _ _ _ (by omega)]
    · rw [if_neg (by omega), if_neg hn]

end Verif.Tex.Mixed
