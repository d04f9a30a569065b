import Verif.Filter.Cache
/-!
# C22: recorded requests own a faithful copy of their arguments
-/
namespace Verif.Filter.Cache

/-- An array filled from the front. -/
def fill (w : List Nat) (k : Nat) : Buf := w.map some ++ List.replicate k none

theorem write_fill (w xs : List Nat) (k : Nat) :
    write (fill w (xs.length + k)) w.length xs = some (fill (w ++ xs) k) := by
  have h : w.length + xs.length ≤ (fill w (xs.length + k)).length := by simp [fill]
  rw [write, if_pos h]
  simp only [fill, Option.some.injEq]
  have h1 : (w.map some ++ List.replicate (xs.length + k) (none : Option Nat)).take w.length =
      w.map some := by
    rw [List.take_left' (by simp)]
  have h2 : (w.map some ++ List.replicate (xs.length + k) (none : Option Nat)).drop
      (w.length + xs.length) = List.replicate k none := by
    rw [← List.drop_drop, List.drop_left' (by simp)]
    simp
  rw [h1, h2]
  simp

theorem readN_fill (a xs b : List Nat) (k : Nat) :
    readN (fill (a ++ xs ++ b) k) a.length xs.length = some xs := by
  induction xs generalizing a with
  | nil => rfl
  | cons x xs ih =>
    have h : (fill (a ++ (x :: xs) ++ b) k)[a.length]? = some (some x) := by
      simp [fill]
    have := ih (a ++ [x])
    simp only [List.length_append, List.length_cons, List.length_nil, List.append_assoc,
      List.cons_append, List.nil_append] at this
    simp only [List.length_cons, readN, h]
    simp only [List.append_assoc, List.cons_append]
    rw [this]
    rfl

theorem cstr_fill (a s b : List Nat) (k : Nat) (hs : 0 ∉ s) :
    cstr ((fill (a ++ (s ++ [0]) ++ b) k).drop a.length) = some s := by
  have h : (fill (a ++ (s ++ [0]) ++ b) k).drop a.length = (s ++ [0]).map some ++ fill b k := by
    simp only [fill, List.map_append, List.append_assoc]
    rw [List.drop_left' (by simp)]
  rw [h]
  clear h
  induction s with
  | nil => simp [cstr]
  | cons c s ih =>
    have hc : c ≠ 0 := fun h => hs (by simp [h])
    simp only [List.cons_append, List.map_cons, cstr, if_neg hc]
    rw [ih (fun h => hs (by simp [h]))]
    rfl

/-- What has been written to the arrays. -/
structure Written where
  i : List Nat
  f : List Nat
  p : List Nat
  c : List Nat
  s : List Nat

/-- Space left in the arrays. -/
structure Room where
  i : Nat
  f : Nat
  p : Nat
  c : Nat
  s : Nat

def memOf (w : Written) (k : Room) : Mem where
  ints := fill w.i k.i
  floats := fill w.f k.f
  ptrs := fill w.p k.p
  chars := fill w.c k.c
  strs := fill w.s k.s
  ni := w.i.length
  nf := w.f.length
  np := w.p.length
  nc := w.c.length
  ns := w.s.length

/-- `w'` continues `w`. -/
structure Ext (w w' : Written) : Prop where
  i : w.i <+: w'.i
  f : w.f <+: w'.f
  p : w.p <+: w'.p
  c : w.c <+: w'.c
  s : w.s <+: w'.s

theorem Ext.refl (w : Written) : Ext w w :=
  ⟨List.prefix_rfl, List.prefix_rfl, List.prefix_rfl, List.prefix_rfl, List.prefix_rfl⟩
theorem Ext.trans {a b c : Written} (h : Ext a b) (g : Ext b c) : Ext a c :=
  ⟨h.i.trans g.i, h.f.trans g.f, h.p.trans g.p, h.c.trans g.c, h.s.trans g.s⟩

def Room.plus (k : Room) (p : Param) : Room :=
  ⟨intCount p + k.i, floatCount p + k.f, ptrCount p + k.p, charCount p + k.c, strCount p + k.s⟩

theorem copyStrings_ok (l : List (List Nat)) (hl : ∀ s ∈ l, 0 ∉ s) (w : Written) (k : Room) :
    ∃ w', copyStrings (memOf w ⟨k.i, k.f, k.p, (l.map fun s => s.length + 1).sum + k.c,
        l.length + k.s⟩) l = some (memOf w' k) ∧ Ext w w' ∧
      ∀ w'' k'', Ext w' w'' → readStrings (memOf w'' k'') w.s.length l.length = some l := by
  induction l generalizing w with
  | nil =>
    refine ⟨w, ?_, .refl w, fun w'' k'' _ => rfl⟩
    simp [copyStrings]
  | cons s l ih =>
    let w1 : Written := { w with c := w.c ++ (s ++ [0]), s := w.s ++ [w.c.length] }
    obtain ⟨w', h1, h2, h3⟩ := ih (fun x hx => hl x (by simp [hx])) w1
    have e1 : Ext w w1 := ⟨List.prefix_rfl, List.prefix_rfl, List.prefix_rfl,
      List.prefix_append _ _, List.prefix_append _ _⟩
    refine ⟨w', ?_, e1.trans h2, ?_⟩
    · have hw1 := write_fill w.c (s ++ [0]) ((l.map fun s => s.length + 1).sum + k.c)
      have hw2 := write_fill w.s [w.c.length] (l.length + k.s)
      have a1 : (s ++ [0]).length + ((l.map fun s => s.length + 1).sum + k.c) =
          ((s :: l).map fun s => s.length + 1).sum + k.c := by simp; omega
      have a2 : [w.c.length].length + (l.length + k.s) = (s :: l).length + k.s := by simp; omega
      rw [a1] at hw1
      rw [a2] at hw2
      rw [copyStrings]
      simp only [memOf, hw1, hw2]
      simp only [Option.bind_eq_bind, Option.bind_some]
      simp only [memOf, w1, List.length_append, List.length_cons, List.length_nil] at h1
      exact h1
    · intro w'' k'' he
      have hext := h2.trans he
      obtain ⟨c2, hc2⟩ := hext.c
      obtain ⟨s2, hs2⟩ := hext.s
      have hb := h3 w'' k'' he
      simp only [w1, List.length_append, List.length_cons, List.length_nil] at hb hc2 hs2
      simp only [List.length_cons, readStrings]
      have hget : (memOf w'' k'').strs[w.s.length]? = some (some w.c.length) := by
        simp [memOf, fill, ← hs2]
      have hcs : cstr ((memOf w'' k'').chars.drop w.c.length) = some s := by
        simp only [memOf, ← hc2]
        exact cstr_fill w.c s c2 _ (hl s (by simp))
      rw [hget]
      simp only [hcs, hb]

/-- Names and string values are C strings. -/
def Param.ok (p : Param) : Prop :=
  0 ∉ p.name ∧ match p.data with
    | .strings l => ∀ s ∈ l, 0 ∉ s
    | _ => True

theorem copyParam_ok (p : Param) (hp : p.ok) (w : Written) (k : Room) :
    ∃ w' c, copyParam (memOf w (k.plus p)) p = some (memOf w' k, c) ∧ Ext w w' ∧
      ∀ w'' k'', Ext w' w'' → readParam (memOf w'' k'') c = some p := by
  obtain ⟨spec, name, data⟩ := p
  obtain ⟨hn, hd⟩ := hp
  simp only at hn hd
  cases data with
  | ints l =>
    let w' : Written := { w with c := w.c ++ (name ++ [0]), i := w.i ++ l }
    refine ⟨w', ⟨spec, w.c.length, .int, w.i.length, l.length⟩, ?_, ?_, ?_⟩
    · have h1 := write_fill w.c (name ++ [0]) k.c
      have h2 := write_fill w.i l k.i
      have a1 : (name ++ [0]).length + k.c = charCount ⟨spec, name, .ints l⟩ + k.c := by
        simp [charCount]
      rw [a1] at h1
      simp [copyParam, memOf, Room.plus, intCount, floatCount, ptrCount, strCount, h1, h2, w']
    · exact ⟨List.prefix_append _ _, List.prefix_rfl, List.prefix_rfl, List.prefix_append _ _,
        List.prefix_rfl⟩
    · intro w'' k'' he
      obtain ⟨c2, hc2⟩ := he.c
      obtain ⟨i2, hi2⟩ := he.i
      simp only [w'] at hc2 hi2
      have hcs : cstr ((memOf w'' k'').chars.drop w.c.length) = some name := by
        simp only [memOf, ← hc2]
        exact cstr_fill w.c name c2 _ hn
      have hr : readN (memOf w'' k'').ints w.i.length l.length = some l := by
        simp only [memOf, ← hi2]
        exact readN_fill w.i l i2 _
      simp [readParam, hcs, hr]
  | floats l =>
    let w' : Written := { w with c := w.c ++ (name ++ [0]), f := w.f ++ l }
    refine ⟨w', ⟨spec, w.c.length, .float, w.f.length, l.length⟩, ?_, ?_, ?_⟩
    · have h1 := write_fill w.c (name ++ [0]) k.c
      have h2 := write_fill w.f l k.f
      have a1 : (name ++ [0]).length + k.c = charCount ⟨spec, name, .floats l⟩ + k.c := by
        simp [charCount]
      rw [a1] at h1
      simp [copyParam, memOf, Room.plus, intCount, floatCount, ptrCount, strCount, h1, h2, w']
    · exact ⟨List.prefix_rfl, List.prefix_append _ _, List.prefix_rfl, List.prefix_append _ _,
        List.prefix_rfl⟩
    · intro w'' k'' he
      obtain ⟨c2, hc2⟩ := he.c
      obtain ⟨i2, hi2⟩ := he.f
      simp only [w'] at hc2 hi2
      have hcs : cstr ((memOf w'' k'').chars.drop w.c.length) = some name := by
        simp only [memOf, ← hc2]
        exact cstr_fill w.c name c2 _ hn
      have hr : readN (memOf w'' k'').floats w.f.length l.length = some l := by
        simp only [memOf, ← hi2]
        exact readN_fill w.f l i2 _
      simp [readParam, hcs, hr]
  | ptrs l =>
    let w' : Written := { w with c := w.c ++ (name ++ [0]), p := w.p ++ l }
    refine ⟨w', ⟨spec, w.c.length, .ptr, w.p.length, l.length⟩, ?_, ?_, ?_⟩
    · have h1 := write_fill w.c (name ++ [0]) k.c
      have h2 := write_fill w.p l k.p
      have a1 : (name ++ [0]).length + k.c = charCount ⟨spec, name, .ptrs l⟩ + k.c := by
        simp [charCount]
      rw [a1] at h1
      simp [copyParam, memOf, Room.plus, intCount, floatCount, ptrCount, strCount, h1, h2, w']
    · exact ⟨List.prefix_rfl, List.prefix_rfl, List.prefix_append _ _, List.prefix_append _ _,
        List.prefix_rfl⟩
    · intro w'' k'' he
      obtain ⟨c2, hc2⟩ := he.c
      obtain ⟨i2, hi2⟩ := he.p
      simp only [w'] at hc2 hi2
      have hcs : cstr ((memOf w'' k'').chars.drop w.c.length) = some name := by
        simp only [memOf, ← hc2]
        exact cstr_fill w.c name c2 _ hn
      have hr : readN (memOf w'' k'').ptrs w.p.length l.length = some l := by
        simp only [memOf, ← hi2]
        exact readN_fill w.p l i2 _
      simp [readParam, hcs, hr]
  | strings l =>
    let w1 : Written := { w with c := w.c ++ (name ++ [0]) }
    have e1 : Ext w w1 := ⟨List.prefix_rfl, List.prefix_rfl, List.prefix_rfl,
      List.prefix_append _ _, List.prefix_rfl⟩
    obtain ⟨w', h1, h2, h3⟩ := copyStrings_ok l hd w1 k
    refine ⟨w', ⟨spec, w.c.length, .str, w.s.length, l.length⟩, ?_, e1.trans h2, ?_⟩
    · have g1 := write_fill w.c (name ++ [0]) ((l.map fun s => s.length + 1).sum + k.c)
      have a1 : (name ++ [0]).length + ((l.map fun s => s.length + 1).sum + k.c) =
          charCount ⟨spec, name, .strings l⟩ + k.c := by
        simp [charCount]; omega
      rw [a1] at g1
      simp only [memOf, w1, List.length_append, List.length_cons, List.length_nil] at h1
      simp [copyParam, memOf, Room.plus, intCount, floatCount, ptrCount, strCount, g1, h1]
    · intro w'' k'' he
      have hext := h2.trans he
      obtain ⟨c2, hc2⟩ := hext.c
      simp only [w1] at hc2
      have hcs : cstr ((memOf w'' k'').chars.drop w.c.length) = some name := by
        simp only [memOf, ← hc2]
        exact cstr_fill w.c name c2 _ hn
      have hr := h3 w'' k'' he
      simp only [w1] at hr
      simp [readParam, hcs, hr]

def Room.plusAll (k : Room) : List Param → Room
  | [] => k
  | p :: ps => (k.plusAll ps).plus p

theorem copyAll_ok (ps : List Param) (hps : ∀ p ∈ ps, p.ok) (w : Written) (k : Room) :
    ∃ w' cs, copyAll (memOf w (k.plusAll ps)) ps = some (memOf w' k, cs) ∧ Ext w w' ∧
      ∀ w'' k'', Ext w' w'' → readAll (memOf w'' k'') cs = ps.map some := by
  induction ps generalizing w with
  | nil => exact ⟨w, [], rfl, .refl w, fun _ _ _ => rfl⟩
  | cons p ps ih =>
    obtain ⟨w1, c, h1, h2, h3⟩ := copyParam_ok p (hps p (by simp)) w (k.plusAll ps)
    obtain ⟨w', cs, g1, g2, g3⟩ := ih (fun q hq => hps q (by simp [hq])) w1
    refine ⟨w', c :: cs, ?_, h2.trans g2, ?_⟩
    · simp [copyAll, Room.plusAll, h1, g1]
    · intro w'' k'' he
      have := g3 w'' k'' he
      simp only [readAll, List.map_cons] at this ⊢
      rw [this, h3 w'' k'' (g2.trans he)]

theorem plusAll_eq (ps : List Param) (k : Room) :
    k.plusAll ps = ⟨(ps.map intCount).sum + k.i, (ps.map floatCount).sum + k.f,
      (ps.map ptrCount).sum + k.p, (ps.map charCount).sum + k.c, (ps.map strCount).sum + k.s⟩ := by
  induction ps with
  | nil => simp [Room.plusAll]
  | cons p ps ih =>
    simp only [Room.plusAll, ih, Room.plus, List.map_cons, List.sum_cons, Room.mk.injEq]
    omega

/-- **C22, parameter lists.**  Recording any parameter list stays inside the storage computed
beforehand, fills it completely, and reading the recorded list back gives the list recorded. -/
theorem C22_param_list (ps : List Param) (h : ∀ p ∈ ps, p.ok) :
    ∃ m cs, record ps = some (m, cs) ∧ readAll m cs = ps.map some ∧
      (none ∉ m.ints ∧ none ∉ m.floats ∧ none ∉ m.ptrs ∧ none ∉ m.chars ∧ none ∉ m.strs) := by
  obtain ⟨w', cs, h1, h2, h3⟩ := copyAll_ok ps h ⟨[], [], [], [], []⟩ ⟨0, 0, 0, 0, 0⟩
  refine ⟨memOf w' ⟨0, 0, 0, 0, 0⟩, cs, ?_, h3 _ _ (.refl _), ?_⟩
  · rw [← h1, plusAll_eq, record]
    simp [alloc, memOf, fill]
  · simp [memOf, fill]

example : ∃ m cs, record [⟨0, [80], .floats [1, 2, 3]⟩, ⟨1, [115], .strings [[97, 98], []]⟩,
      ⟨2, [110], .ints [7]⟩] = some (m, cs) ∧
    readAll m cs = [some ⟨0, [80], .floats [1, 2, 3]⟩, some ⟨1, [115], .strings [[97, 98], []]⟩,
      some ⟨2, [110], .ints [7]⟩] := by
  obtain ⟨m, cs, h1, h2, _⟩ := C22_param_list [⟨0, [80], .floats [1, 2, 3]⟩,
    ⟨1, [115], .strings [[97, 98], []]⟩, ⟨2, [110], .ints [7]⟩] (by simp [Param.ok])
  exact ⟨m, cs, h1, h2⟩

/-- **C22, string arrays.**  A multi-string buffer returns exactly the C strings put in, in order,
whatever is added afterwards. -/
theorem C22_string_array (l : List (List Nat)) (h : ∀ s ∈ l, 0 ∉ s) :
    (MSB.ofList l).strings = l.map some := by
  have key : ∀ (l : List (List Nat)) (b : MSB) (done : List (List Nat)), (∀ s ∈ l, 0 ∉ s) →
      (∀ ext, b.offsets.map (fun o => cstr (((b.storage ++ ext).drop o).map some)) =
        done.map some) →
      (∀ o ∈ b.offsets, o ≤ b.storage.length) →
      (l.foldl MSB.push b).strings = (done ++ l).map some := by
    intro l
    induction l with
    | nil =>
      intro b done _ hb _
      have := hb []
      simpa [MSB.strings] using this
    | cons s l ih =>
      intro b done hl hb ho
      have := ih (b.push s) (done ++ [s]) (fun x hx => hl x (by simp [hx])) ?_ ?_
      · simpa using this
      · intro ext
        simp only [MSB.push, List.map_append, List.map_cons, List.map_nil]
        have h1 := hb ((s ++ [0]) ++ ext)
        simp only [List.append_assoc] at h1 ⊢
        rw [h1]
        have h2 := cstr_fill b.storage s ext 0 (hl s (by simp))
        simp only [fill, List.replicate_zero, List.append_nil, List.append_assoc] at h2
        rw [List.map_drop, h2]
      · intro o ho'
        simp only [MSB.push, List.mem_append, List.mem_singleton, List.length_append] at ho' ⊢
        rcases ho' with ho' | rfl
        · have := ho o ho'; omega
        · omega
  simpa [MSB.ofList] using key l .empty [] h (by simp [MSB.empty]) (by simp [MSB.empty])

example : (MSB.ofList [[97, 98], [], [99]]).strings = [some [97, 98], some [], some [99]] :=
  C22_string_array _ (by simp)

/-- A buffer that has been cleared and refilled holds only the new strings. -/
theorem C22_string_buffer_reuse (b : MSB) (l : List (List Nat)) (h : ∀ s ∈ l, 0 ∉ s) :
    (l.foldl MSB.push b.clear).strings = l.map some := C22_string_array l h

example : ([[99]].foldl MSB.push (MSB.ofList [[97]]).clear).strings = [some [99]] :=
  C22_string_buffer_reuse _ _ (by simp)

end Verif.Filter.Cache
