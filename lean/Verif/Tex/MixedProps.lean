import Verif.Tex.MixedChans

/-!
# Copying between image buffers
-/

namespace Verif.Tex.Mixed

/-! ### Regions -/

theorem region_none {ox : ℤ} {sw w : Nat} (h : (region ox sw w).2.2 ≤ 0) {x : Nat} (hx : x < w) :
    under ox sw x = none := by
  unfold region at h
  unfold under
  simp only at h
  rw [if_neg (by omega)]

theorem region_some {ox : ℤ} {sw w : Nat} (h : ¬ (region ox sw w).2.2 ≤ 0) :
    ∃ sx dx cw : Nat, region ox sw w = ((sx : ℤ), (dx : ℤ), (cw : ℤ)) ∧ 0 < cw ∧ dx + cw ≤ w ∧
      sx + cw ≤ sw ∧ ∀ x, under ox sw x =
        if dx ≤ x ∧ x < dx + cw ∧ x < w then some (sx + (x - dx)) else
          if x < w then none else under ox sw x := by
  unfold region at h ⊢
  simp only at h
  refine ⟨(max (-ox) 0).toNat, (max ox 0).toNat, (min (w : ℤ) (ox + sw) - max ox 0).toNat,
    ?_, ?_, ?_, ?_, ?_⟩
  · rw [Int.toNat_of_nonneg (by omega), Int.toNat_of_nonneg (by omega),
      Int.toNat_of_nonneg (by omega)]
  · omega
  · omega
  · omega
  · intro x
    by_cases hx : x < w
    · by_cases hd : (max ox 0).toNat ≤ x ∧
        x < (max ox 0).toNat + (min (w : ℤ) (ox + sw) - max ox 0).toNat
      · rw [if_pos ⟨hd.1, hd.2, hx⟩]
        unfold under
        rw [if_pos (by omega)]
        congr 1
        omega
      · rw [if_neg (by tauto), if_pos hx]
        unfold under
        rw [if_neg (by omega)]
    · rw [if_neg (by tauto), if_neg hx]

theorem under_in {ox : ℤ} {sw w sx dx cw x : Nat} (hx : x < w)
    (hu : under ox sw x = if dx ≤ x ∧ x < dx + cw ∧ x < w then some (sx + (x - dx)) else
      if x < w then none else under ox sw x) :
    under ox sw x = if dx ≤ x ∧ x < dx + cw then some (sx + (x - dx)) else none := by
  rw [hu]
  by_cases h : dx ≤ x ∧ x < dx + cw
  · rw [if_pos ⟨h.1, h.2, hx⟩, if_pos h]
  · rw [if_neg (by tauto), if_neg h, if_pos hx]

theorem good_data {b : Buf} {w h : Nat} {d : List Nat} (hb : Good b w h)
    (hd : d.length = b.data.length) : Good ⟨b.list, w, h, d⟩ w h :=
  ⟨hb.packed, hb.types, rfl, rfl, hd.trans hb.bytes⟩

/-! ### Copying channel by channel -/

theorem copy_chans {b src : Buf} {w h sw sh sx sy dx dy cw ch : Nat} (k : Codec)
    (hb : Good b w h) (hs : Good src sw sh) (hn : src.list.chans.length = b.list.chans.length)
    (hcw : 0 < cw) (hch : 0 < ch) (hx : dx + cw ≤ w) (hy : dy + ch ≤ h) (hsx : sx + cw ≤ sw)
    (hsy : sy + ch ≤ sh) :
    ∀ (n i : Nat) (d : List Nat), i + n ≤ b.list.chans.length →
      d.length = h * w * whole b.list.chans →
      ∃ d', copyChans k b src sx sy dx dy cw ch n i d = .ok d' ∧
        Upd b.list.chans w h d d' (fun m u v =>
          if i ≤ m ∧ m < i + n ∧ dx ≤ u ∧ u < dx + cw ∧ dy ≤ v ∧ v < dy + ch then
            some (asBytes k (tyOf b.list.chans m) (value k src sw m (sx + (u - dx)) (sy + (v - dy))))
          else none)
  | 0, i, d, _, _ => ⟨d, rfl, (Upd.refl _ w h d).congr (by
      intro m _ u _ v _
      rw [if_neg (by omega)])⟩
  | n + 1, i, d, hi, hd => by
    obtain ⟨d1, h1, u1⟩ := copy_part (is := b.list.chans) (js := src.list.chans) (i := i) (j := i)
      k hd hs.bytes (by omega) (by omega) hx hy hsx hsy
    obtain ⟨d2, h2, u2⟩ := copy_chans k hb hs hn hcw hch hx hy hsx hsy n (i + 1) d1 (by omega)
      (by rw [u1.1, hd])
    refine ⟨d2, ?_, (u1.trans u2).congr ?_⟩
    · rw [copyChans, channel_ok hb (by omega) hcw hch hx hy]
      simp only [Res.bind]
      rw [channel_ok hs (by omega) hcw hch hsx hsy]
      simp only
      rw [h1]
      exact h2
    · intro m _ u _ v _
      by_cases hr : dx ≤ u ∧ u < dx + cw ∧ dy ≤ v ∧ v < dy + ch
      · by_cases hm : m = i
        · subst hm
          rw [if_neg (by omega), if_pos ⟨rfl, hr⟩, if_pos ⟨by omega, by omega, hr⟩]
          rfl
        · by_cases hm' : i + 1 ≤ m ∧ m < i + 1 + n
          · rw [if_pos ⟨hm'.1, hm'.2, hr⟩, if_neg (by tauto), if_pos ⟨by omega, by omega, hr⟩]
            rfl
          · rw [if_neg (by tauto), if_neg (by tauto), if_neg (by omega)]
            rfl
      · rw [if_neg (by tauto), if_neg (by tauto), if_neg (by tauto)]
        rfl

/-- C82.  A buffer copied onto another one with the same number of channels, wherever it is laid:
nothing outside the memory of the two is touched, and afterwards every channel of a pixel under the
source holds the value of that channel of the source, converted to its type, while every channel of
the other pixels is what it was. -/
theorem C82_copy {b src : Buf} {w h sw sh : Nat} (k : Codec) (ox oy : ℤ) (hb : Good b w h)
    (hs : Good src sw sh) (hn : src.list.chans.length = b.list.chans.length) :
    ∃ b', b.copyFrom k src ox oy = .ok b' ∧ Replaced b b' w h (fun i x y =>
      match under ox sw x, under oy sh y with
      | some u, some v => some (asBytes k (tyOf b.list.chans i) (value k src sw i u v))
      | _, _ => none) := by
  unfold Buf.copyFrom
  rw [if_neg (by omega)]
  simp only
  rw [hs.width, hs.height, hb.width, hb.height]
  by_cases hz : (region ox sw w).2.2 ≤ 0 ∨ (region oy sh h).2.2 ≤ 0
  · rw [if_pos hz]
    refine ⟨b, rfl, hb, rfl, fun i _ x hx y hy => ?_⟩
    beta_reduce
    rcases hz with hz | hz
    · rw [region_none hz hx]
      rfl
    · rw [region_none hz hy]
      cases under ox sw x <;> rfl
  · rw [if_neg hz]
    obtain ⟨sx, dx, cw, ex, hcw, hx, hsx, ux⟩ := region_some (fun h => hz (Or.inl h))
    obtain ⟨sy, dy, ch, ey, hch, hy, hsy, uy⟩ := region_some (fun h => hz (Or.inr h))
    rw [ex, ey]
    simp only
    obtain ⟨d', h1, u1⟩ := copy_chans k hb hs hn hcw hch hx hy hsx hsy b.list.chans.length 0 b.data
      (by omega) hb.bytes
    have h1' : copyChans k b src sx sy dx dy cw ch b.list.chans.length 0 b.data = .ok d' := h1
    rw [h1']
    refine ⟨_, rfl, good_data hb u1.1, rfl, fun i hi x hx' y hy' => ?_⟩
    show cell _ w d' i x y = _
    rw [u1.2 i hi x hx' y hy']
    beta_reduce
    rw [under_in hx' (ux x), under_in hy' (uy y)]
    by_cases h2 : dx ≤ x ∧ x < dx + cw
    · by_cases h3 : dy ≤ y ∧ y < dy + ch
      · rw [if_pos ⟨by omega, by omega, h2.1, h2.2, h3⟩, if_pos h2, if_pos h3]
      · rw [if_neg (by tauto), if_pos h2, if_neg h3]
    · rw [if_neg (by tauto), if_neg h2]

/-! ### Copying by name -/

/-- `i` is the first channel with the name. -/
def IsFirst (is : List Info) (n : List Char) (i : Nat) : Prop :=
  is[i]?.map Info.name = some n ∧ ∀ j < i, is[j]?.map Info.name ≠ some n

theorem find_first {is : List Info} {n : List Char} :
    ∀ {i : Nat}, find n is = some i ↔ IsFirst is n i := by
  induction is with
  | nil => intro i; simp [find, IsFirst]
  | cons c cs ih =>
    intro i
    unfold find
    by_cases hc : c.name = n
    · rw [if_pos hc]
      constructor
      · intro h
        cases h
        exact ⟨by simp [hc], fun j hj => absurd hj (by omega)⟩
      · intro h
        cases i with
        | zero => rfl
        | succ i => exact absurd (by simp [hc]) (h.2 0 (by omega))
    · rw [if_neg hc]
      cases i with
      | zero =>
        constructor
        · intro h
          cases hf : find n cs <;> simp [hf] at h
        · intro h
          have := h.1
          simp at this
          exact absurd this hc
      | succ i =>
        have e : (Option.map (· + 1) (find n cs) = some (i + 1)) ↔ find n cs = some i := by
          cases find n cs <;> simp
        rw [e, ih]
        unfold IsFirst
        constructor
        · intro h
          refine ⟨by simpa using h.1, fun j hj => ?_⟩
          cases j with
          | zero => simpa using hc
          | succ j => simpa using h.2 j (by omega)
        · intro h
          exact ⟨by simpa using h.1, fun j hj => by simpa using h.2 (j + 1) (by omega)⟩

theorem find_lt {is : List Info} {n : List Char} {i : Nat} (h : find n is = some i) :
    i < is.length := by
  have := (find_first.mp h).1
  by_contra hc
  rw [List.getElem?_eq_none (by omega)] at this
  simp at this

theorem find_inj {is : List Info} {n m : List Char} {i : Nat} (h : find n is = some i)
    (h' : find m is = some i) : n = m := by
  have h1 := (find_first.mp h).1
  have h2 := (find_first.mp h').1
  rw [h1] at h2
  exact Option.some.inj h2

/-- C82.  Channels are found by the first of their name. -/
theorem C82_find {is : List Info} {n : List Char} :
    (∀ i, find n is = some i ↔ IsFirst is n i) ∧
      (find n is = none ↔ ∀ c ∈ is, c.name ≠ n) := by
  refine ⟨fun i => find_first, ?_⟩
  induction is with
  | nil => simp [find]
  | cons c cs ih =>
    unfold find
    by_cases hc : c.name = n
    · simp [hc]
    · rw [if_neg hc]
      simp [hc, ih]

theorem named_ok {b : Buf} {w h i x y cw ch : Nat} {n : List Char} (hg : Good b w h)
    (hi : find n b.list.chans = some i) (hw : 0 < cw) (hh : 0 < ch) (hx : x + cw ≤ w)
    (hy : y + ch ≤ h) :
    b.named n x y cw ch = .ok (part b.list.chans w i x y cw ch) := by
  unfold Buf.named
  rw [hi]
  exact channel_ok hg (find_lt hi) hw hh hx hy

/-- The source of a channel of the destination under a map of names. -/
def origin (is js : List Info) (map : List (List Char × List Char)) (i : Nat) : Option Nat :=
  match map with
  | [] => none
  | m :: ms => if find m.1 is = some i then find m.2 js else origin is js ms i

theorem origin_none {is js : List Info} {i : Nat} {n : List Char} (hi : find n is = some i) :
    ∀ {map : List (List Char × List Char)}, (∀ m ∈ map, m.1 ≠ n) → origin is js map i = none
  | [], _ => rfl
  | m :: ms, h => by
    rw [origin, if_neg (fun e => h m (by simp) (find_inj e hi))]
    exact origin_none hi (fun m' hm' => h m' (by simp [hm']))

theorem copy_named {b src : Buf} {w h sw sh sx sy dx dy cw ch : Nat} (k : Codec)
    (hb : Good b w h) (hs : Good src sw sh)
    (hcw : 0 < cw) (hch : 0 < ch) (hx : dx + cw ≤ w) (hy : dy + ch ≤ h) (hsx : sx + cw ≤ sw)
    (hsy : sy + ch ≤ sh) :
    ∀ (map : List (List Char × List Char)) (d : List Nat), (map.map Prod.fst).Nodup →
      (∀ m ∈ map, (find m.1 b.list.chans).isSome ∧ (find m.2 src.list.chans).isSome) →
      d.length = h * w * whole b.list.chans →
      ∃ d', copyNamed k b src sx sy dx dy cw ch map d = .ok d' ∧
        Upd b.list.chans w h d d' (fun i u v =>
          if dx ≤ u ∧ u < dx + cw ∧ dy ≤ v ∧ v < dy + ch then
            (origin b.list.chans src.list.chans map i).map fun j =>
              asBytes k (tyOf b.list.chans i) (value k src sw j (sx + (u - dx)) (sy + (v - dy)))
          else none)
  | [], d, _, _, _ => ⟨d, rfl, (Upd.refl _ w h d).congr (by
      intro m _ u _ v _
      simp [origin])⟩
  | m :: ms, d, hnd, hf, hd => by
    obtain ⟨i, hi⟩ := Option.isSome_iff_exists.mp (hf m (by simp)).1
    obtain ⟨j, hj⟩ := Option.isSome_iff_exists.mp (hf m (by simp)).2
    obtain ⟨d1, h1, u1⟩ := copy_part (is := b.list.chans) (js := src.list.chans) (i := i) (j := j)
      k hd hs.bytes (find_lt hi) (find_lt hj) hx hy hsx hsy
    have hnd' : (ms.map Prod.fst).Nodup := (List.nodup_cons.mp hnd).2
    have hni : ∀ m' ∈ ms, m'.1 ≠ m.1 := fun m' hm' e =>
      (List.nodup_cons.mp hnd).1 (e ▸ List.mem_map_of_mem hm')
    obtain ⟨d2, h2, u2⟩ := copy_named k hb hs hcw hch hx hy hsx hsy ms d1 hnd'
      (fun m' hm' => hf m' (by simp [hm'])) (by rw [u1.1, hd])
    refine ⟨d2, ?_, (u1.trans u2).congr ?_⟩
    · rw [copyNamed, named_ok hb hi hcw hch hx hy]
      simp only [Res.bind]
      rw [named_ok hs hj hcw hch hsx hsy]
      simp only
      rw [h1]
      exact h2
    · intro q _ u _ v _
      by_cases hr : dx ≤ u ∧ u < dx + cw ∧ dy ≤ v ∧ v < dy + ch
      · rw [if_pos hr, if_pos hr, origin]
        by_cases hq : q = i
        · subst hq
          rw [if_pos ⟨rfl, hr⟩, if_pos hi, origin_none hi hni, hj]
          rfl
        · rw [if_neg (by tauto), if_neg (fun e => hq (by rw [hi] at e; exact (Option.some.inj e).symm))]
          cases origin b.list.chans src.list.chans ms q <;> rfl
      · rw [if_neg hr, if_neg (by tauto), if_neg hr]
        rfl

theorem found {is js : List Info} {map : List (List Char × List Char)}
    (hf : ∀ m ∈ map, (∃ c ∈ is, c.name = m.1) ∧ ∃ c ∈ js, c.name = m.2) :
    ∀ m ∈ map, (find m.1 is).isSome ∧ (find m.2 js).isSome := by
  intro m hm
  obtain ⟨⟨c, hc, e⟩, ⟨c', hc', e'⟩⟩ := hf m hm
  constructor
  · cases hz : find m.1 is with
    | none => exact absurd e (C82_find.2.mp hz c hc)
    | some _ => rfl
  · cases hz : find m.2 js with
    | none => exact absurd e' (C82_find.2.mp hz c' hc')
    | some _ => rfl

theorem origin_some {is js : List Info} (ms : List (List Char × List Char)) :
    (ms.map Prod.fst).Nodup → ∀ m ∈ ms, ∀ i j, IsFirst is m.1 i → IsFirst js m.2 j →
      origin is js ms i = some j := by
  induction ms with
  | nil => intro _ m hm; cases hm
  | cons m' ms ih =>
    intro hnd m hm i j h1 h2
    rw [origin]
    rcases List.mem_cons.mp hm with rfl | hm'
    · rw [if_pos (find_first.mpr h1)]
      exact find_first.mpr h2
    · rw [if_neg]
      · exact ih (List.nodup_cons.mp hnd).2 m hm' i j h1 h2
      · intro e
        have := find_inj e (find_first.mpr h1)
        exact (List.nodup_cons.mp hnd).1 (this ▸ List.mem_map_of_mem hm')

theorem origin_other {is js : List Info} (ms : List (List Char × List Char)) (i : Nat) :
    (∀ m ∈ ms, ¬ IsFirst is m.1 i) → origin is js ms i = none := by
  induction ms with
  | nil => intro _; rfl
  | cons m' ms ih =>
    intro h
    rw [origin, if_neg (fun e => h m' (by simp) (find_first.mp e))]
    exact ih (fun m hm => h m (by simp [hm]))

/-- The channels that a map of names gives to channels of another buffer hold `new` where the other
buffer is laid, and all else is as before. -/
def ByName (b b' src : Buf) (w h sw sh : Nat) (map : List (List Char × List Char)) (ox oy : ℤ)
    (new : Nat → Nat → Nat → Nat → Nat → Nat → List Nat) : Prop :=
  Good b' w h ∧ b'.list = b.list ∧
    (∀ m ∈ map, ∀ i j, IsFirst b.list.chans m.1 i → IsFirst src.list.chans m.2 j →
      ∀ x < w, ∀ y < h, ∀ u v, under ox sw x = some u → under oy sh y = some v →
        cell b.list.chans w b'.data i x y = new i j x y u v) ∧
    (∀ i < b.list.chans.length, ∀ x < w, ∀ y < h,
      (∀ m ∈ map, ¬ IsFirst b.list.chans m.1 i) ∨ under ox sw x = none ∨ under oy sh y = none →
        cell b.list.chans w b'.data i x y = cell b.list.chans w b.data i x y)

theorem byName_none {b src : Buf} {w h sw sh : Nat} {map : List (List Char × List Char)} {ox oy : ℤ}
    {new : Nat → Nat → Nat → Nat → Nat → Nat → List Nat} (hb : Good b w h)
    (hz : (region ox sw w).2.2 ≤ 0 ∨ (region oy sh h).2.2 ≤ 0) :
    ByName b b src w h sw sh map ox oy new := by
  refine ⟨hb, rfl, ?_, fun i _ x hx y hy _ => rfl⟩
  intro m hm i j _ _ x hx y hy u v e1 e2
  rcases hz with hz | hz
  · rw [region_none hz hx] at e1
    cases e1
  · rw [region_none hz hy] at e2
    cases e2

theorem byName_some {b src : Buf} {w h sw sh sx sy dx dy cw ch : Nat}
    {map : List (List Char × List Char)} {ox oy : ℤ}
    {new : Nat → Nat → Nat → Nat → Nat → Nat → List Nat} {d' : List Nat} (hb : Good b w h)
    (hnd : (map.map Prod.fst).Nodup)
    (ux : ∀ x, under ox sw x = if dx ≤ x ∧ x < dx + cw ∧ x < w then some (sx + (x - dx)) else
      if x < w then none else under ox sw x)
    (uy : ∀ x, under oy sh x = if dy ≤ x ∧ x < dy + ch ∧ x < h then some (sy + (x - dy)) else
      if x < h then none else under oy sh x)
    (u1 : Upd b.list.chans w h b.data d' (fun i x y =>
      if dx ≤ x ∧ x < dx + cw ∧ dy ≤ y ∧ y < dy + ch then
        (origin b.list.chans src.list.chans map i).map fun j =>
          new i j x y (sx + (x - dx)) (sy + (y - dy))
      else none)) :
    ByName b ⟨b.list, w, h, d'⟩ src w h sw sh map ox oy new := by
  refine ⟨good_data hb u1.1, rfl, ?_, ?_⟩
  · intro m hm i j hi hj x hx' y hy' u v e1 e2
    show cell _ w d' i x y = _
    rw [under_in hx' (ux x)] at e1
    rw [under_in hy' (uy y)] at e2
    rw [u1.2 i (find_lt (find_first.mpr hi)) x hx' y hy']
    beta_reduce
    by_cases h2 : dx ≤ x ∧ x < dx + cw
    · by_cases h3 : dy ≤ y ∧ y < dy + ch
      · rw [if_pos h2] at e1
        rw [if_pos h3] at e2
        rw [if_pos ⟨h2.1, h2.2, h3⟩, origin_some map hnd m hm i j hi hj]
        cases e1
        cases e2
        rfl
      · rw [if_neg h3] at e2
        cases e2
    · rw [if_neg h2] at e1
      cases e1
  · intro i hi x hx' y hy' hc
    show cell _ w d' i x y = _
    rw [u1.2 i hi x hx' y hy']
    beta_reduce
    rcases hc with hc | hc | hc
    · rw [origin_other map i hc]
      split <;> rfl
    · rw [under_in hx' (ux x)] at hc
      rw [if_neg]
      · rfl
      · intro h2
        rw [if_pos ⟨h2.1, h2.2.1⟩] at hc
        cases hc
    · rw [under_in hy' (uy y)] at hc
      rw [if_neg]
      · rfl
      · intro h2
        rw [if_pos h2.2.2] at hc
        cases hc

/-- C82.  A buffer copied onto another one by a map of names, wherever it is laid: every channel of a
pixel under the source that the map names holds the value of the channel of the source named with it,
converted to its type, and every other channel of every pixel is what it was. -/
theorem C82_copy_named {b src : Buf} {w h sw sh : Nat} (k : Codec) (ox oy : ℤ)
    (map : List (List Char × List Char)) (hb : Good b w h) (hs : Good src sw sh)
    (hnd : (map.map Prod.fst).Nodup)
    (hf : ∀ m ∈ map, (∃ c ∈ b.list.chans, c.name = m.1) ∧ ∃ c ∈ src.list.chans, c.name = m.2) :
    ∃ b', b.copyMap k src map ox oy = .ok b' ∧ ByName b b' src w h sw sh map ox oy
      (fun i j _ _ u v => asBytes k (tyOf b.list.chans i) (value k src sw j u v)) := by
  unfold Buf.copyMap
  simp only
  rw [hs.width, hs.height, hb.width, hb.height]
  by_cases hz : (region ox sw w).2.2 ≤ 0 ∨ (region oy sh h).2.2 ≤ 0
  · rw [if_pos hz]
    exact ⟨b, rfl, byName_none hb hz⟩
  · rw [if_neg hz]
    obtain ⟨sx, dx, cw, ex, hcw, hx, hsx, ux⟩ := region_some (fun h => hz (Or.inl h))
    obtain ⟨sy, dy, ch, ey, hch, hy, hsy, uy⟩ := region_some (fun h => hz (Or.inr h))
    rw [ex, ey]
    simp only
    obtain ⟨d', h1, u1⟩ := copy_named k hb hs hcw hch hx hy hsx hsy map b.data hnd (found hf) hb.bytes
    rw [h1]
    exact ⟨_, rfl, byName_some hb hnd ux uy u1⟩

theorem over_named {b src : Buf} {w h sw sh sx sy dx dy cw ch p : Nat} {alpha : List Char} (k : Codec)
    (hb : Good b w h) (hs : Good src sw sh) (hp : find alpha src.list.chans = some p)
    (hcw : 0 < cw) (hch : 0 < ch) (hx : dx + cw ≤ w) (hy : dy + ch ≤ h) (hsx : sx + cw ≤ sw)
    (hsy : sy + ch ≤ sh) :
    ∀ (map : List (List Char × List Char)) (d : List Nat), (map.map Prod.fst).Nodup →
      (∀ m ∈ map, (find m.1 b.list.chans).isSome ∧ (find m.2 src.list.chans).isSome) →
      d.length = h * w * whole b.list.chans →
      ∃ d', overNamed k b src alpha sx sy dx dy cw ch map d = .ok d' ∧
        Upd b.list.chans w h d d' (fun i x y =>
          if dx ≤ x ∧ x < dx + cw ∧ dy ≤ y ∧ y < dy + ch then
            (origin b.list.chans src.list.chans map i).map fun j =>
              asBytes k (tyOf b.list.chans i) (over
                (value k src sw j (sx + (x - dx)) (sy + (y - dy)))
                (value k src sw p (sx + (x - dx)) (sy + (y - dy)))
                (toFloat k (tyOf b.list.chans i) (ofBytes (cell b.list.chans w d i x y))))
          else none)
  | [], d, _, _, _ => ⟨d, rfl, (Upd.refl _ w h d).congr (by
      intro m _ u _ v _
      simp [origin])⟩
  | m :: ms, d, hnd, hf, hd => by
    obtain ⟨i, hi⟩ := Option.isSome_iff_exists.mp (hf m (by simp)).1
    obtain ⟨j, hj⟩ := Option.isSome_iff_exists.mp (hf m (by simp)).2
    obtain ⟨d1, h1, u1⟩ := over_part (is := b.list.chans) (js := src.list.chans) (i := i) (j := j)
      (m := p) k hd hs.bytes (find_lt hi) (find_lt hj) (find_lt hp) hx hy hsx hsy
    have hnd' : (ms.map Prod.fst).Nodup := (List.nodup_cons.mp hnd).2
    have hni : ∀ m' ∈ ms, m'.1 ≠ m.1 := fun m' hm' e =>
      (List.nodup_cons.mp hnd).1 (e ▸ List.mem_map_of_mem hm')
    obtain ⟨d2, h2, u2⟩ := over_named k hb hs hp hcw hch hx hy hsx hsy ms d1 hnd'
      (fun m' hm' => hf m' (by simp [hm'])) (by rw [u1.1, hd])
    refine ⟨d2, ?_, (u1.trans u2).congr ?_⟩
    · rw [overNamed, named_ok hb hi hcw hch hx hy]
      simp only [Res.bind]
      rw [named_ok hs hj hcw hch hsx hsy]
      simp only
      rw [named_ok hs hp hcw hch hsx hsy]
      simp only
      rw [h1]
      exact h2
    · intro q hq' x hx' y hy'
      by_cases hr : dx ≤ x ∧ x < dx + cw ∧ dy ≤ y ∧ y < dy + ch
      · rw [if_pos hr, if_pos hr, origin]
        by_cases hq : q = i
        · subst hq
          rw [if_pos ⟨rfl, hr⟩, if_pos hi, origin_none hi hni, hj]
          rfl
        · rw [if_neg (by tauto),
            if_neg (fun e => hq (by rw [hi] at e; exact (Option.some.inj e).symm)),
            u1.same hq' hx' hy' (if_neg (by tauto))]
          cases origin b.list.chans src.list.chans ms q <;> rfl
      · rw [if_neg hr, if_neg (by tauto), if_neg hr]
        rfl

/-- C82.  A buffer with an alpha channel laid over another one: every channel of a pixel under the
source that the map names holds the value of the source with what was there behind it, the part
`1 - alpha` of it, and everything else is what it was.  Without the alpha channel the values are
copied. -/
theorem C82_composite {b src : Buf} {w h sw sh : Nat} (k : Codec) (ox oy : ℤ) (alpha : List Char)
    (map : List (List Char × List Char)) (hb : Good b w h) (hs : Good src sw sh)
    (hnd : (map.map Prod.fst).Nodup)
    (hf : ∀ m ∈ map, (∃ c ∈ b.list.chans, c.name = m.1) ∧ ∃ c ∈ src.list.chans, c.name = m.2) :
    (∀ p, IsFirst src.list.chans alpha p →
      ∃ b', b.compositeOver k src map ox oy alpha = .ok b' ∧ ByName b b' src w h sw sh map ox oy
        (fun i j x y u v => asBytes k (tyOf b.list.chans i)
          (fl (value k src sw j u v +
            fl (fl (1 - value k src sw p u v) * value k b w i x y))))) ∧
    ((∀ c ∈ src.list.chans, c.name ≠ alpha) →
      ∃ b', b.compositeOver k src map ox oy alpha = .ok b' ∧ ByName b b' src w h sw sh map ox oy
        (fun i j _ _ u v => asBytes k (tyOf b.list.chans i) (value k src sw j u v))) := by
  constructor
  · intro p hp
    have hp := find_first.mpr hp
    unfold Buf.compositeOver
    rw [hp]
    simp only
    rw [hs.width, hs.height, hb.width, hb.height]
    by_cases hz : (region ox sw w).2.2 ≤ 0 ∨ (region oy sh h).2.2 ≤ 0
    · rw [if_pos hz]
      exact ⟨b, rfl, byName_none hb hz⟩
    · rw [if_neg hz]
      obtain ⟨sx, dx, cw, ex, hcw, hx, hsx, ux⟩ := region_some (fun h => hz (Or.inl h))
      obtain ⟨sy, dy, ch, ey, hch, hy, hsy, uy⟩ := region_some (fun h => hz (Or.inr h))
      rw [ex, ey]
      simp only
      obtain ⟨d', h1, u1⟩ := over_named k hb hs hp hcw hch hx hy hsx hsy map b.data hnd (found hf)
        hb.bytes
      rw [h1]
      exact ⟨_, rfl, byName_some hb hnd ux uy u1⟩
  · intro ha
    unfold Buf.compositeOver
    rw [C82_find.2.mpr ha]
    exact C82_copy_named k ox oy map hb hs hnd hf

/-! ### Filling -/

theorem fill_chans {b : Buf} {w h : Nat} {s : Source} (k : Codec) (hb : Good b w h) (hw : 0 < w)
    (hh : 0 < h) (vals : Nat → List ℚ) (hreq : s.require w h = .ok ())
    (hrow : ∀ r < h, s.row k w r = .ok (vals r)) (hlen : ∀ r < h, (vals r).length = w) :
    ∀ (n i : Nat) (d : List Nat), i + n ≤ b.list.chans.length →
      d.length = h * w * whole b.list.chans →
      ∃ d', fillChans k b s n i d = .ok d' ∧ Upd b.list.chans w h d d' (fun m x y =>
        if i ≤ m ∧ m < i + n then
          some (asBytes k (tyOf b.list.chans m) ((vals y).getD x 0)) else none)
  | 0, i, d, _, _ => ⟨d, rfl, (Upd.refl _ w h d).congr (by
      intro m _ u _ v _
      rw [if_neg (by omega)])⟩
  | n + 1, i, d, hi, hd => by
    obtain ⟨d1, h1, u1⟩ := copy_rows (is := b.list.chans) (i := i) (x := 0) (y := 0) k vals
      (by omega) (by omega : 0 + w ≤ w) (by omega : 0 + h ≤ h) hrow hlen h 0 d (by omega) hd
    obtain ⟨d2, h2, u2⟩ := fill_chans k hb hw hh vals hreq hrow hlen n (i + 1) d1 (by omega)
      (by rw [u1.1, hd])
    refine ⟨d2, ?_, (u1.trans u2).congr ?_⟩
    · rw [fillChans]
      have hc : b.channel i 0 0 0 0 = b.channel i ((0 : Nat) : ℤ) ((0 : Nat) : ℤ) w h := by
        unfold Buf.channel
        simp only
        rw [hb.width, hb.height, if_pos trivial, if_pos trivial, if_neg (by omega : ¬ (w : ℤ) = 0),
          if_neg (by omega : ¬ (h : ℤ) = 0)]
        rfl
      rw [hc, channel_ok hb (by omega) hw hh (by omega) (by omega)]
      simp only [Res.bind]
      unfold Chan.copyFrom
      have e1 : (part b.list.chans w i 0 0 w h).w = w := rfl
      have e2 : (part b.list.chans w i 0 0 w h).h = h := rfl
      rw [e1, e2, hreq]
      simp only [Res.bind]
      rw [Int.toNat_natCast]
      have h1' : copyRows k (part b.list.chans w i 0 0 w h) s h 0 d = .ok d1 := h1
      rw [h1']
      exact h2
    · intro m _ x _ y _
      by_cases hm : m = i
      · subst hm
        rw [if_neg (by omega), if_pos (by omega), if_pos (by omega)]
        simp
      · by_cases hm' : i + 1 ≤ m ∧ m < i + 1 + n
        · rw [if_pos hm', if_neg (by tauto), if_pos (by omega)]
          rfl
        · rw [if_neg hm', if_neg (by tauto), if_neg (by omega)]
          rfl

theorem fill_ok {b : Buf} {w h : Nat} {s : Source} (k : Codec) (hb : Good b w h) (hw : 0 < w)
    (hh : 0 < h) (vals : Nat → List ℚ) (hreq : s.require w h = .ok ())
    (hrow : ∀ r < h, s.row k w r = .ok (vals r)) (hlen : ∀ r < h, (vals r).length = w) :
    ∃ b', b.fill k s = .ok b' ∧ Replaced b b' w h (fun i x y =>
      some (asBytes k (tyOf b.list.chans i) ((vals y).getD x 0))) := by
  obtain ⟨d', h1, u1⟩ := fill_chans k hb hw hh vals hreq hrow hlen b.list.chans.length 0 b.data
    (by omega) hb.bytes
  unfold Buf.fill
  rw [h1]
  refine ⟨_, rfl, ⟨hb.packed, hb.types, hb.width, hb.height, u1.1.trans hb.bytes⟩, rfl, ?_⟩
  intro i hi x hx y hy
  show cell _ w d' i x y = _
  rw [u1.2 i hi x hx y hy]
  beta_reduce
  rw [if_pos (by omega)]

/-- C82.  `clearBuffer` gives every channel of every pixel the value; `initToCheckerboard` gives it
one half or one, one half in the square tile at the top left and changing from tile to tile. -/
theorem C82_fill {b : Buf} {w h : Nat} (k : Codec) (hb : Good b w h) (hw : 0 < w) (hh : 0 < h) :
    (∀ c : ℚ, ∃ b', b.fill k (.constant c) = .ok b' ∧ Replaced b b' w h (fun i _ _ =>
      some (asBytes k (tyOf b.list.chans i) c))) ∧
    (∀ t : Nat, 0 < t → ∃ b', b.fill k (.checks t) = .ok b' ∧ Replaced b b' w h (fun i x y =>
      some (asBytes k (tyOf b.list.chans i)
        (if (x / t + y / t) % 2 = 0 then 1 / 2 else 1)))) := by
  constructor
  · intro c
    obtain ⟨b', h1, h2⟩ := fill_ok (s := .constant c) k hb hw hh (fun _ => List.replicate w c) rfl
      (fun r _ => by simp [Source.row]) (fun r _ => by simp)
    refine ⟨b', h1, h2.1, h2.2.1, fun i hi x hx y hy => ?_⟩
    rw [h2.2.2 i hi x hx y hy]
    simp [List.getD, hx]
  · intro t ht
    have key : ∀ a : Nat, Int.tdiv (Int.tmod (a : ℤ) ((t : ℤ) * 2)) (t : ℤ) = ((a / t % 2 : Nat) : ℤ) := by
      intro a
      have h1 : Int.tmod (a : ℤ) ((t : ℤ) * 2) = ((a % (t * 2) : Nat) : ℤ) := by
        rw [Int.tmod_eq_emod_of_nonneg (by omega)]
        push_cast
        rfl
      rw [h1]
      have h2 : Int.tdiv ((a % (t * 2) : Nat) : ℤ) (t : ℤ) = ((a % (t * 2) / t : Nat) : ℤ) := by
        rw [Int.tdiv_eq_ediv_of_nonneg (by omega)]
        push_cast
        rfl
      rw [h2, Nat.mod_mul_right_div_self]
    obtain ⟨b', h1, h2⟩ := fill_ok (s := .checks t) k hb hw hh
      (fun y => (List.range w).map fun x => if (x / t + y / t) % 2 = 0 then 1 / 2 else 1)
      (by
        unfold Source.require
        rw [if_neg (by omega)])
      (fun r _ => by
        unfold Source.row
        rw [if_neg (by omega), Int.toNat_natCast]
        congr 1
        apply List.map_congr_left
        intro x _
        simp only
        rw [key, key]
        rcases Nat.mod_two_eq_zero_or_one (x / t) with hx | hx <;>
        rcases Nat.mod_two_eq_zero_or_one (r / t) with hr | hr
        · rw [hx, hr, if_pos (by simp), if_pos (by omega)]
          norm_num
        · rw [hx, hr, if_neg (by omega), if_neg (by omega)]
          norm_num
        · rw [hx, hr, if_pos (by simp), if_neg (by omega)]
          norm_num
        · rw [hx, hr, if_neg (by omega), if_pos (by omega)]
          norm_num)
      (fun r _ => by simp)
    refine ⟨b', h1, h2.1, h2.2.1, fun i hi x hx y hy => ?_⟩
    rw [h2.2.2 i hi x hx y hy]
    simp [List.getD, hx]

/-- C82: channels without names get a question mark and their number, from 01 on, with two digits. -/
theorem C82_unnamed (l : CList) (t : Ty) (n : Nat) (hn : n < 100) :
    (l.addUnnamed t n).chans = l.chans ++ (List.range n).map fun i =>
      ⟨['?', Nat.digitChar ((i + 1) / 10), Nat.digitChar ((i + 1) % 10)], t⟩ := by
  have hd : ∀ i < 100, digits i = [Nat.digitChar (i / 10), Nat.digitChar (i % 10)] := by
    decide +kernel
  induction n with
  | zero => simp [CList.addUnnamed]
  | succ n ih =>
    simp only [CList.addUnnamed, CList.add]
    rw [ih (by omega), List.range_succ, List.map_append, List.append_assoc, hd (n + 1) hn]
    rfl

example : ((CList.empty.addUnnamed .u8 12).chans.map (·.name))[11]? = some ['?', '1', '2'] := by
  decide +kernel

/-- C82: parts of an image that reach over its right or lower end are noticed, others are not. -/
theorem C82_part {b : Buf} {index o : Nat} {i : Info} (ho : b.list.offsets[index]? = some o)
    (hi : b.list.chans[index]? = some i) (x y w h : ℤ) (hw : 0 < w) (hh : 0 < h) :
    b.channel index x y w h = .assertion ↔ b.w < x + w ∨ b.h < y + h := by
  unfold Buf.channel
  simp only [if_neg (ne_of_gt hw), if_neg (ne_of_gt hh), ho, hi]
  constructor
  · intro hc
    by_contra hn
    rw [not_or, not_lt, not_lt] at hn
    rw [if_neg (not_not.mpr hn.1), if_neg (not_not.mpr hn.2)] at hc
    split_ifs at hc
  · rintro (h1 | h1)
    · rw [if_pos (not_le.mpr h1)]
    · by_cases h2 : x + w ≤ b.w
      · rw [if_neg (not_not.mpr h2), if_pos (not_le.mpr h1)]
      · rw [if_pos h2]

end Verif.Tex.Mixed
