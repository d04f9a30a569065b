import Verif.Core.ChannelBuffer
import Mathlib.Tactic.Ring
import Mathlib.Tactic.Linarith

/-!
# C32: channel buffers keep channels apart
-/

namespace Verif.Core.ChannelBuffer

/-! ## Specification -/

/-- Setting up the channels of an empty buffer. -/
def addAll (b : Buf) : List (String × Nat) → Res Buf
  | [] => .ok b
  | (name, size) :: cs =>
    match addChannel b name size with
    | .ok (_, b) => addAll b cs
    | .ub => .ub
    | .assert => .assert
    | .throws => .throws

/-- A value of a channel of a pixel. -/
structure Loc where
  name : String
  comp : Nat
  x : Nat
  y : Nat
  deriving DecidableEq

/-- The location exists. -/
def Loc.Valid (cs : List (String × Nat)) (w h : Nat) (l : Loc) : Prop :=
  (∃ size, (l.name, size) ∈ cs ∧ l.comp < size) ∧ l.x < w ∧ l.y < h

/-- Writing and reading by name, as libs/core/bucketprocessor.cpp:637-662 does. -/
def put (b : Buf) (l : Loc) (v : List Nat) : Res Buf :=
  write b l.x l.y (getChannelIndex b l.name) l.comp v

def get (b : Buf) (l : Loc) : Res (List Byte) :=
  read b l.x l.y (getChannelIndex b l.name) l.comp

def putAll (b : Buf) : List (Loc × List Nat) → Res Buf
  | [] => .ok b
  | (l, v) :: ws =>
    match put b l v with
    | .ok b => putAll b ws
    | .ub => .ub
    | .assert => .assert
    | .throws => .throws

/-- The last value written to a location. -/
def lastWritten (l : Loc) : List (Loc × List Nat) → Option (List Nat)
  | [] => none
  | (l', v) :: ws => (lastWritten l ws).or (if l' = l then some v else none)

/-! ## Layout -/

/-- The sum of the sizes. -/
def total (cs : List (String × Nat)) : Nat := (cs.map (·.2)).sum

theorem lookup_mem {l : List (String × Nat × Nat)} {n : String} {v} (h : l.lookup n = some v) :
    (n, v) ∈ l := by
  induction l with
  | nil => simp at h
  | cons a l ih =>
    obtain ⟨a1, a2⟩ := a
    simp only [List.lookup_cons] at h
    split at h
    · next he =>
      simp only [Option.some.injEq] at h
      have : n = a1 := by simpa using he
      subst this; subst h; simp
    · exact List.mem_cons_of_mem _ (ih h)

/-- The channels of a buffer: ranges one after the other. -/
structure Layout (b : Buf) (cs : List (String × Nat)) : Prop where
  elem : b.elem = total cs
  look : ∀ n, (b.channels.lookup n = none ↔ ∀ s, (n, s) ∉ cs)
  off : ∀ n s, (n, s) ∈ cs → ∃ o, b.channels.lookup n = some (o, s) ∧ o + s ≤ b.elem
  sep : ∀ n s n' s' o o', (n, s) ∈ cs → (n', s') ∈ cs → n ≠ n' →
    b.channels.lookup n = some (o, s) → b.channels.lookup n' = some (o', s') →
    o + s ≤ o' ∨ o' + s' ≤ o

theorem layout_nil (b : Buf) : Layout (clearChannels b) [] := by
  refine ⟨rfl, ?_, ?_, ?_⟩ <;> simp [clearChannels]

theorem total_append (a b : List (String × Nat)) : total (a ++ b) = total a + total b := by
  simp [total]

theorem layout_add {b : Buf} {cs : List (String × Nat)} (h : Layout b cs) {n : String} {s : Nat}
    (hn : ∀ s, (n, s) ∉ cs) : ∃ b', addChannel b n s = .ok (b.elem, b') ∧
      Layout b' (cs ++ [(n, s)]) ∧ b'.data = b.data := by
  have hl := (h.look n).mpr hn
  refine ⟨{ b with channels := (n, b.elem, s) :: b.channels, elem := b.elem + s },
    by simp only [addChannel, hl], ?_, rfl⟩
  refine ⟨?_, ?_, ?_, ?_⟩
  · simp only [total_append, ← h.elem]; simp [total]
  · intro m
    simp only [List.lookup_cons, List.mem_append, List.mem_singleton, Prod.mk.injEq]
    by_cases hm : m = n
    · subst hm
      simp
      exact ⟨s, fun _ => rfl⟩
    · have : (m == n) = false := by simpa using hm
      simp only [this]
      rw [h.look m]
      simp [hm]
  · intro m t hm
    simp only [List.lookup_cons]
    rcases List.mem_append.mp hm with hc | hc
    · have : m ≠ n := by rintro rfl; exact hn t hc
      have hb : (m == n) = false := by simpa using this
      simp only [hb]
      obtain ⟨o, h1, h2⟩ := h.off m t hc
      exact ⟨o, h1, by omega⟩
    · simp only [List.mem_singleton, Prod.mk.injEq] at hc
      obtain ⟨rfl, rfl⟩ := hc
      exact ⟨b.elem, by simp, by omega⟩
  · intro m t m' t' o o' hm hm' hne ho ho'
    simp only [List.lookup_cons] at ho ho'
    rcases List.mem_append.mp hm with hc | hc
    · have e1 : (m == n) = false := by
        simp only [beq_eq_false_iff_ne]; rintro rfl; exact hn t hc
      simp only [e1] at ho
      rcases List.mem_append.mp hm' with hc' | hc'
      · have e2 : (m' == n) = false := by
          simp only [beq_eq_false_iff_ne]; rintro rfl; exact hn t' hc'
        simp only [e2] at ho'
        exact h.sep m t m' t' o o' hc hc' hne ho ho'
      · simp only [List.mem_singleton, Prod.mk.injEq] at hc'
        obtain ⟨rfl, rfl⟩ := hc'
        simp at ho'
        obtain ⟨o2, h1, h2⟩ := h.off m t hc
        rw [h1] at ho
        simp only [Option.some.injEq, Prod.mk.injEq, and_true] at ho
        left; omega
    · simp only [List.mem_singleton, Prod.mk.injEq] at hc
      obtain ⟨rfl, rfl⟩ := hc
      simp at ho
      rcases List.mem_append.mp hm' with hc' | hc'
      · have e2 : (m' == m) = false := by
          simp only [beq_eq_false_iff_ne]; exact fun e => hne e.symm
        simp only [e2] at ho'
        obtain ⟨o2, h1, h2⟩ := h.off m' t' hc'
        rw [h1] at ho'
        simp only [Option.some.injEq, Prod.mk.injEq, and_true] at ho'
        right; omega
      · simp only [List.mem_singleton, Prod.mk.injEq] at hc'
        exact absurd hc'.1.symm hne

theorem layout_addAll : ∀ (ds cs : List (String × Nat)) (b : Buf), Layout b cs →
    ((cs ++ ds).map (·.1)).Nodup →
    ∃ b', addAll b ds = .ok b' ∧ Layout b' (cs ++ ds) ∧ b'.data = b.data := by
  intro ds
  induction ds with
  | nil => intro cs b h _; exact ⟨b, rfl, by simpa using h, rfl⟩
  | cons d ds ih =>
    intro cs b h hnd
    obtain ⟨n, s⟩ := d
    have hn : ∀ s, (n, s) ∉ cs := by
      intro s hm
      rw [List.map_append, List.nodup_append] at hnd
      exact hnd.2.2 n (List.mem_map.mpr ⟨(n, s), hm, rfl⟩) n (by simp) rfl
    obtain ⟨b1, h1, h2, h3⟩ := layout_add h (s := s) hn
    obtain ⟨b2, g1, g2, g3⟩ := ih (cs ++ [(n, s)]) b1 h2 (by simpa using hnd)
    refine ⟨b2, by simp only [addAll, h1, g1], by simpa using g2, by rw [g3, h3]⟩

/-! ## Addresses -/

/-- The position of a value. -/
def addr (b : Buf) (l : Loc) : Nat :=
  (l.y * b.width + l.x) * b.elem + getChannelIndex b l.name + l.comp

theorem index_bound {b : Buf} {cs} (h : Layout b cs) {l : Loc} {w ht : Nat} (hv : l.Valid cs w ht) :
    getChannelIndex b l.name + l.comp < b.elem := by
  obtain ⟨⟨s, h1, h2⟩, _⟩ := hv
  obtain ⟨o, h3, h4⟩ := h.off _ _ h1
  simp only [getChannelIndex, h3]
  omega

theorem addr_lt {b : Buf} {cs} (h : Layout b cs) {l : Loc} (hv : l.Valid cs b.width b.height) :
    addr b l < b.width * b.height * b.elem := by
  have h1 := index_bound h hv
  obtain ⟨_, hx, hy⟩ := hv
  unfold addr
  have : l.y * b.width + l.x + 1 ≤ b.width * b.height := by
    calc l.y * b.width + l.x + 1 ≤ l.y * b.width + b.width := by omega
      _ = b.width * (l.y + 1) := by ring
      _ ≤ b.width * b.height := Nat.mul_le_mul_left _ hy
  calc (l.y * b.width + l.x) * b.elem + getChannelIndex b l.name + l.comp
      < (l.y * b.width + l.x) * b.elem + b.elem := by omega
    _ = (l.y * b.width + l.x + 1) * b.elem := by ring
    _ ≤ b.width * b.height * b.elem := Nat.mul_le_mul_right _ this

theorem addr_inj {b : Buf} {cs} (h : Layout b cs) {l l' : Loc}
    (hv : l.Valid cs b.width b.height) (hv' : l'.Valid cs b.width b.height)
    (hnd : (cs.map (·.1)).Nodup)
    (he : addr b l = addr b l') : l = l' := by
  have i1 := index_bound h hv
  have i2 := index_bound h hv'
  unfold addr at he
  have he' : (l.y * b.width + l.x) * b.elem + (getChannelIndex b l.name + l.comp) =
      (l'.y * b.width + l'.x) * b.elem + (getChannelIndex b l'.name + l'.comp) := by omega
  have epos : 0 < b.elem := by omega
  have q1 : l.y * b.width + l.x = l'.y * b.width + l'.x := by
    have a := congrArg (· / b.elem) he'
    rwa [Nat.mul_comm _ b.elem, Nat.mul_comm _ b.elem, Nat.mul_add_div epos,
      Nat.mul_add_div epos, Nat.div_eq_of_lt i1, Nat.div_eq_of_lt i2] at a
  have q2 : getChannelIndex b l.name + l.comp = getChannelIndex b l'.name + l'.comp := by
    rw [q1] at he'; omega
  obtain ⟨⟨s, m1, c1⟩, hx, hy⟩ := hv
  obtain ⟨⟨s', m1', c1'⟩, hx', hy'⟩ := hv'
  have wpos : 0 < b.width := by omega
  have qy : l.y = l'.y := by
    have a := congrArg (· / b.width) q1
    rwa [Nat.mul_comm _ b.width, Nat.mul_comm _ b.width, Nat.mul_add_div wpos,
      Nat.mul_add_div wpos, Nat.div_eq_of_lt hx, Nat.div_eq_of_lt hx'] at a
  have qx : l.x = l'.x := by rw [qy] at q1; omega
  obtain ⟨o, f1, f2⟩ := h.off _ _ m1
  obtain ⟨o', f1', f2'⟩ := h.off _ _ m1'
  simp only [getChannelIndex, f1, f1'] at q2
  have qn : l.name = l'.name := by
    by_contra hne
    rcases h.sep _ _ _ _ o o' m1 m1' hne f1 f1' with g | g <;> omega
  rw [qn, f1'] at f1
  simp only [Option.some.injEq, Prod.mk.injEq] at f1
  have qc : l.comp = l'.comp := by omega
  cases l; cases l'
  simp_all

/-- Four bytes of a list. -/
def four (d : List Byte) (a : Nat) : List Byte := (d.drop (4 * a)).take 4

theorem four_update_same (d : List Byte) (a : Nat) (v : List Byte) (hv : v.length = 4)
    (ha : 4 * a + 4 ≤ d.length) :
    four (d.take (4 * a) ++ v ++ d.drop (4 * a + 4)) a = v := by
  unfold four
  rw [List.append_assoc, List.drop_append, List.length_take]
  have : min (4 * a) d.length = 4 * a := by omega
  rw [this]
  simp [hv]

theorem four_update_other (d : List Byte) (a c : Nat) (v : List Byte) (hv : v.length = 4)
    (ha : 4 * a + 4 ≤ d.length) (hne : a ≠ c) :
    four (d.take (4 * a) ++ v ++ d.drop (4 * a + 4)) c = four d c := by
  unfold four
  apply List.ext_getElem?
  intro i
  simp only [List.getElem?_take, List.getElem?_drop]
  split
  · next hi =>
    rcases Nat.lt_or_gt_of_ne hne with hlt | hgt
    · rw [List.getElem?_append_right (by simp only [List.length_append, List.length_take, hv]; omega)]
      simp only [List.length_append, List.length_take, hv, List.getElem?_drop]
      congr 1
      omega
    · rw [List.append_assoc, List.getElem?_append_left (by simp only [List.length_take]; omega),
        List.getElem?_take_of_lt (by omega)]
  · rfl

/-! ## The property -/

/-- The state after setting up and allocating: layout, and memory of the right size. -/
structure Ready (b : Buf) (cs : List (String × Nat)) (w h : Nat) (d : List Byte) : Prop where
  lay : Layout b cs
  nd : (cs.map (·.1)).Nodup
  bw : b.width = w
  bh : b.height = h
  data : b.data = some d
  len : d.length = 4 * (w * h * b.elem)

theorem get_eq {b cs w h d} (r : Ready b cs w h d) {l : Loc} (hv : l.Valid cs w h) :
    get b l = .ok (four d (addr b l)) := by
  have hv' : l.Valid cs b.width b.height := by rw [r.bw, r.bh]; exact hv
  have h1 := index_bound r.lay hv
  have h2 := addr_lt r.lay hv'
  rw [r.bw, r.bh] at h2
  simp only [get, read, indexOffset, r.bw, r.bh]
  rw [if_pos ⟨by omega, hv.2.1, hv.2.2⟩]
  simp only [r.data]
  unfold addr at h2 ⊢
  rw [r.bw] at h2 ⊢
  rw [if_pos (by have := r.len; omega)]
  rfl

theorem put_eq {b cs w h d} (r : Ready b cs w h d) {l : Loc} (hv : l.Valid cs w h)
    (v : List Nat) (hlen : v.length = 4) :
    ∃ b' d', put b l v = .ok b' ∧ Ready b' cs w h d' ∧ (∀ l', addr b' l' = addr b l') ∧
      ∀ l' : Loc, l'.Valid cs w h →
        four d' (addr b l') = if l = l' then v.map some else four d (addr b l') := by
  have hv' : l.Valid cs b.width b.height := by rw [r.bw, r.bh]; exact hv
  have h1 := index_bound r.lay hv
  have h2 := addr_lt r.lay hv'
  have hl : 4 * addr b l + 4 ≤ d.length := by
    rw [r.bw, r.bh] at h2; have := r.len; omega
  have hput : put b l v = .ok { b with
      data := some (d.take (4 * addr b l) ++ v.map some ++ d.drop (4 * addr b l + 4)) } := by
    simp only [put, write, indexOffset]
    rw [if_pos ⟨by omega, by rw [r.bw]; exact hv.2.1, by rw [r.bh]; exact hv.2.2⟩]
    simp only [r.data]
    unfold addr at hl ⊢
    rw [if_pos (by omega)]
  refine ⟨_, d.take (4 * addr b l) ++ v.map some ++ d.drop (4 * addr b l + 4), hput, ?_,
    fun l' => rfl, ?_⟩
  · refine ⟨⟨r.lay.elem, r.lay.look, r.lay.off, r.lay.sep⟩, r.nd, r.bw, r.bh, rfl, ?_⟩
    have := r.len
    simp only [List.length_append, List.length_take, List.length_drop, List.length_map, hlen]
    omega
  · intro l' hl'
    by_cases he : l = l'
    · subst he
      rw [if_pos rfl, four_update_same _ _ _ (by simp [hlen]) hl]
    · rw [if_neg he]
      apply four_update_other _ _ _ _ (by simp [hlen]) hl
      intro ha
      exact he (addr_inj r.lay hv' (by rw [r.bw, r.bh]; exact hl') r.nd ha)

theorem putAll_eq {cs w h} : ∀ (ws : List (Loc × List Nat)) (b : Buf) (d : List Byte),
    Ready b cs w h d → (∀ p ∈ ws, p.1.Valid cs w h ∧ p.2.length = 4) →
    ∃ b', putAll b ws = .ok b' ∧ ∀ l : Loc, l.Valid cs w h →
      get b' l = .ok (match lastWritten l ws with
        | some v => v.map some
        | none => four d (addr b l)) := by
  intro ws
  induction ws with
  | nil => intro b d r _; exact ⟨b, rfl, fun l hl => get_eq r hl⟩
  | cons p ws ih =>
    intro b d r hws
    obtain ⟨l0, v⟩ := p
    obtain ⟨hl0, hlen⟩ := hws (l0, v) (by simp)
    obtain ⟨b1, d1, h1, r1, hadr, h2⟩ := put_eq r hl0 v hlen
    obtain ⟨b2, g1, g2⟩ := ih b1 d1 r1 (fun p hp => hws p (by simp [hp]))
    refine ⟨b2, by simp only [putAll, h1, g1], ?_⟩
    intro l hl
    rw [g2 l hl]
    simp only [lastWritten]
    cases lastWritten l ws with
    | some u => rfl
    | none =>
      simp only [Option.none_or]
      rw [hadr, h2 l hl]
      by_cases he : l0 = l
      · simp [he]
      · simp [he]

theorem fresh_length (n : Nat) : (freshBytes n).length = 4 * n := by
  simp [freshBytes]; omega

/-- **C32, partial.**  For every set of differently named channels, every size
of the buffer and every history of writes: once the channels have been added to
a cleared buffer and the buffer has been allocated, no access is undefined and
reading a value gives what was last written to that component of that channel
of that pixel; what has not been written since holds the bytes the allocation
left there.  Missing: those bytes are not all set (`C32_zero_violated`), and
allocating again without clearing (`C32_shrink_violated`). -/
theorem C32_history_partial (b0 : Buf) (cs : List (String × Nat)) (w h : Nat)
    (hnd : (cs.map (·.1)).Nodup) :
    ∃ b1 b2, addAll (clearChannels b0) cs = .ok b1 ∧ allocate b1 w h = .ok b2 ∧
      ∀ ws : List (Loc × List Nat), (∀ p ∈ ws, p.1.Valid cs w h ∧ p.2.length = 4) →
        ∃ b', putAll b2 ws = .ok b' ∧ ∀ l : Loc, l.Valid cs w h →
          (∀ v, lastWritten l ws = some v → get b' l = .ok (v.map some)) ∧
          (lastWritten l ws = none → get b' l = get b2 l) := by
  obtain ⟨b1, h1, h2, h3⟩ := layout_addAll cs [] (clearChannels b0) (layout_nil b0) (by simpa using hnd)
  simp only [List.nil_append] at h2
  have hd : b1.data = none := by rw [h3]; rfl
  refine ⟨b1, _, h1, by simp only [allocate, hd]; rfl, ?_⟩
  intro ws hws
  have r : Ready { b1 with width := w, height := h, data := some (freshBytes (w * h * b1.elem)) }
      cs w h (freshBytes (w * h * b1.elem)) :=
    ⟨⟨h2.elem, h2.look, h2.off, h2.sep⟩, hnd, rfl, rfl, rfl, fresh_length _⟩
  obtain ⟨b', g1, g2⟩ := putAll_eq ws _ _ r hws
  refine ⟨b', g1, ?_⟩
  intro l hl
  refine ⟨?_, ?_⟩
  · intro v hv
    rw [g2 l hl, hv]
  · intro hn
    rw [g2 l hl, hn, get_eq r hl]

/-- **C32, initial values, partial.**  The values whose position is below a
quarter of the size of the buffer are zero after the allocation. -/
theorem C32_zero_partial (b : Buf) (w h x y i : Nat) (hd : b.data = none) (hx : x < w)
    (hy : y < h) (hi : i < b.elem)
    (hq : 4 * ((y * w + x) * b.elem + i) + 4 ≤ w * h * b.elem) :
    ∃ b', allocate b w h = .ok b' ∧ read b' x y i 0 = .ok [some 0, some 0, some 0, some 0] := by
  refine ⟨_, by simp only [allocate, hd]; rfl, ?_⟩
  simp only [read, indexOffset]
  rw [if_pos ⟨hi, hx, hy⟩]
  simp only [Nat.add_zero]
  rw [if_pos (by rw [fresh_length]; omega)]
  congr 1
  unfold freshBytes
  rw [List.drop_append_of_le_length (by simp; omega),
    List.take_append_of_le_length (by simp; omega)]
  rw [List.drop_replicate, List.take_replicate]
  have : min 4 (w * h * b.elem - 4 * ((y * w + x) * b.elem + i)) = 4 := by omega
  rw [this]
  rfl

/-- **C32 fails for initial values.**  The buffer is cleared with a number of
values taken as a number of bytes (libs/core/channelbuffer.h:129): for every
size of at least one value, the last value of the last pixel is not set. -/
theorem C32_zero_violated (b : Buf) (w h : Nat) (hd : b.data = none) (hw : 0 < w) (hh : 0 < h)
    (he : 0 < b.elem) :
    ∃ b', allocate b w h = .ok b' ∧
      ∃ bytes, read b' (w - 1) (h - 1) (b.elem - 1) 0 = .ok bytes ∧ none ∈ bytes := by
  refine ⟨_, by simp only [allocate, hd]; rfl, ?_⟩
  simp only [read, indexOffset]
  rw [if_pos ⟨by omega, by omega, by omega⟩]
  simp only [Nat.add_zero]
  have hpos : (h - 1) * w + (w - 1) + 1 = w * h := by
    have : (h - 1) * w + w = h * w := by
      have := Nat.succ_mul (h - 1) w
      have e : (h - 1).succ = h := by omega
      rw [e] at this
      omega
    have : h * w = w * h := Nat.mul_comm _ _
    omega
  have hlast : ((h - 1) * w + (w - 1)) * b.elem + (b.elem - 1) + 1 = w * h * b.elem := by
    rw [← hpos, Nat.add_mul ((h - 1) * w + (w - 1)) 1 b.elem]; omega
  rw [if_pos (by rw [fresh_length]; omega)]
  refine ⟨_, rfl, ?_⟩
  generalize w * h * b.elem = n at *
  generalize ((h - 1) * w + (w - 1)) * b.elem + (b.elem - 1) = a at *
  have ha : a = n - 1 := by omega
  subst ha
  rw [List.mem_iff_getElem?]
  refine ⟨3, ?_⟩
  rw [List.getElem?_take_of_lt (by omega), List.getElem?_drop]
  unfold freshBytes
  rw [List.getElem?_append_right (by simp; omega)]
  rw [List.getElem?_replicate]
  simp
  omega

/-- **C32 fails for allocating again.**  The old values are copied whatever the
new size (libs/core/channelbuffer.h:132): making a buffer less than a quarter as
large writes behind its end. -/
theorem C32_shrink_violated (b : Buf) (old : List Byte) (w h : Nat) (hd : b.data = some old)
    (hsmall : 4 * (w * h * b.elem) < b.width * b.height * b.elem) : allocate b w h = .ub := by
  simp only [allocate, hd, fresh_length]
  rw [if_pos (Or.inr hsmall)]

/-- As a concrete case: from 4 by 4 to 1 by 1. -/
example : ∃ b1 b2, addAll (clearChannels create) [("z", 1)] = .ok b1 ∧
    allocate b1 4 4 = .ok b2 ∧ allocate b2 1 1 = .ub := by
  exact ⟨_, _, rfl, rfl, rfl⟩

/-- **C32, access.**  An access to a pixel or a channel out of range fails an assertion; an access
beyond the end of the memory is undefined; every other access is neither. -/
theorem C32_access (b : Buf) (d : List Byte) (x y index i : Nat) (v : List Nat)
    (hd : b.data = some d) (hl : d.length = 4 * (b.width * b.height * b.elem)) :
    (read b x y index i = .assert ↔ b.elem ≤ index ∨ b.width ≤ x ∨ b.height ≤ y) ∧
    (write b x y index i v = .assert ↔ b.elem ≤ index ∨ b.width ≤ x ∨ b.height ≤ y) ∧
    (read b x y index i = .ub ↔ (index < b.elem ∧ x < b.width ∧ y < b.height) ∧
      b.width * b.height * b.elem ≤ (y * b.width + x) * b.elem + index + i) ∧
    (write b x y index i v = .ub ↔ (index < b.elem ∧ x < b.width ∧ y < b.height) ∧
      b.width * b.height * b.elem ≤ (y * b.width + x) * b.elem + index + i) := by
  simp only [read, write, indexOffset, hd, hl]
  by_cases h : index < b.elem ∧ x < b.width ∧ y < b.height
  · rw [if_pos h]
    have h' : ¬ (b.elem ≤ index ∨ b.width ≤ x ∨ b.height ≤ y) := by omega
    generalize (y * b.width + x) * b.elem = o
    generalize b.width * b.height * b.elem = n
    by_cases hb : n ≤ o + index + i
    · simp only
      rw [if_neg (by omega), if_neg (by omega)]
      simp only [reduceCtorEq, false_iff, true_iff]
      exact ⟨h', h', ⟨h, hb⟩, ⟨h, hb⟩⟩
    · simp only
      rw [if_pos (by omega), if_pos (by omega)]
      simp only [reduceCtorEq, false_iff]
      exact ⟨h', h', fun h => hb h.2, fun h => hb h.2⟩
  · rw [if_neg h]
    have h' : b.elem ≤ index ∨ b.width ≤ x ∨ b.height ≤ y := by omega
    simp [h', h]

example : read { width := 1, height := 1, elem := 2, channels := [], data := some (freshBytes 2) } 0 0 1 1
    = .ub := by decide

/-- **C32, allocating again, partial.**  If the new memory can hold as many bytes as there were old
values, the buffer has the new size, that many bytes are kept, then come zeroes up to as many bytes
as there are new values, and the rest is not set.  Missing: three quarters of the old values are
lost (`C32_again_violated`), and the other sizes (`C32_shrink_violated`). -/
theorem C32_again_partial (b : Buf) (old : List Byte) (w h : Nat) (hd : b.data = some old)
    (hl : old.length = 4 * (b.width * b.height * b.elem))
    (hbig : b.width * b.height * b.elem ≤ 4 * (w * h * b.elem)) :
    ∃ new, allocate b w h = .ok { b with width := w, height := h, data := some new } ∧
      new.length = 4 * (w * h * b.elem) ∧
      ∀ k, k < 4 * (w * h * b.elem) → new[k]? =
        if k < b.width * b.height * b.elem then old[k]?
        else if k < w * h * b.elem then some (some 0) else some none := by
  simp only [allocate, hd, fresh_length]
  rw [if_neg (by omega)]
  refine ⟨_, rfl, ?_, ?_⟩
  · simp only [List.length_append, List.length_take, List.length_drop, fresh_length]
    omega
  · intro k hk
    generalize b.width * b.height * b.elem = m at *
    generalize w * h * b.elem = n at *
    split
    · rename_i hkm
      rw [List.getElem?_append_left (by simp; omega), List.getElem?_take_of_lt hkm]
    · rename_i hkm
      rw [List.getElem?_append_right (by simp; omega), List.getElem?_drop]
      have : m + (k - (old.take m).length) = k := by simp; omega
      rw [this, freshBytes]
      split
      · rename_i hkn
        rw [List.getElem?_append_left (by simpa using hkn), List.getElem?_replicate, if_pos hkn]
      · rename_i hkn
        rw [List.getElem?_append_right (by simpa using hkn), List.getElem?_replicate, if_pos]
        simp
        omega

/-- **C32 fails for allocating again with the same size.**  The value written is lost. -/
theorem C32_again_violated : ∃ b1 b2 b3 b4, addAll (clearChannels create) [("z", 1)] = .ok b1 ∧
    allocate b1 1 1 = .ok b2 ∧ put b2 ⟨"z", 0, 0, 0⟩ [1, 2, 3, 4] = .ok b3 ∧
    allocate b3 1 1 = .ok b4 ∧ get b3 ⟨"z", 0, 0, 0⟩ = .ok [some 1, some 2, some 3, some 4] ∧
    get b4 ⟨"z", 0, 0, 0⟩ = .ok [some 1, none, none, none] := by
  refine ⟨_, _, _, _, rfl, rfl, rfl, rfl, ?_, ?_⟩ <;> decide +kernel

/-- A channel that does not exist has the index of the first channel
(libs/core/channelbuffer.h:114-116). -/
theorem C32_unknown_violated : ∃ b, addAll (clearChannels create) [("Ci", 3), ("z", 1)] = .ok b ∧
    getChannelIndex b "depth" = getChannelIndex b "Ci" := by
  exact ⟨_, rfl, by decide +kernel⟩

/-- The channels of the renderer in use. -/
example : ∃ b1 b2, addAll (clearChannels create) [("Ci", 3), ("Oi", 3), ("a", 1)] = .ok b1 ∧
    allocate b1 2 2 = .ok b2 ∧
    ∃ b3, putAll b2 [(⟨"Oi", 1, 1, 0⟩, [1, 2, 3, 4]), (⟨"Ci", 2, 1, 0⟩, [5, 6, 7, 8])] = .ok b3 ∧
      get b3 ⟨"Oi", 1, 1, 0⟩ = .ok [some 1, some 2, some 3, some 4] := by
  refine ⟨_, _, rfl, rfl, _, rfl, ?_⟩
  decide +kernel

end Verif.Core.ChannelBuffer
