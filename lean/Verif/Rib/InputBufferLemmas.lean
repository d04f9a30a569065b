import Verif.Rib.InputBuffer

namespace Verif.Rib

/-- The infinite character sequence of a stream: its bytes, then 255 for ever. -/
def streamAt (l : List Nat) (i : Nat) : Nat := l.getD i 255

/-- The character before index `i` (0 before the first). -/
def before (l : List Nat) (i : Nat) : Nat := if i = 0 then 0 else streamAt l (i - 1)

/-- What the buffer looks back at for the character with index `i`. -/
def lookback (l : List Nat) (i : Nat) : Nat :=
  if i % 255 = 254 then before l (i - 1) else before l i

/-- Position reported after `n` characters. -/
def codePos (l : List Nat) : Nat → SPos
  | 0 => ⟨1, 0⟩
  | n + 1 => stepPos (codePos l n) (streamAt l n) (lookback l n)

/-- The buffer state after `n` characters; `u` tells whether the last operation was `unget`. -/
structure Inv (l : List Nat) (b : Buf) (n : Nat) (u : Bool) : Prop where
  hpos : b.pos = if u then (n + 1) % 255 else n % 255 + 1
  hfin : b.pos < b.fin ∧ b.fin ≤ 256
  hu : u = true → b.pos + 1 < b.fin
  fwd : ∀ j, b.pos + 1 + j < b.fin → b.mem (b.pos + 1 + j) = streamAt l (n + j)
  here : u = false → b.mem b.pos = before l n
  back : u = false → 0 < n → b.mem (b.pos - 1) = lookback l (n - 1)
  uback : u = true → b.mem b.pos = lookback l n
  src : ∀ i, streamAt b.src i = streamAt l (n + (b.fin - 1 - b.pos) + i)
  cur : b.cur = codePos l n
  prv : u = false → 0 < n → b.prev = codePos l (n - 1)

theorem inv_init (junk src sched) : Inv src (Buf.init junk src sched) 0 false := by
  constructor <;> simp [Buf.init, before, codePos]
  intro j h; omega

theorem streamAt_drop (l : List Nat) (k i) : streamAt (l.drop k) i = streamAt l (k + i) := by
  simp [streamAt, List.getD_eq_getElem?_getD, List.getElem?_drop]

theorem streamAt_tail (l : List Nat) (i) : streamAt l.tail i = streamAt l (1 + i) := by
  rw [← List.drop_one]; exact streamAt_drop l 1 i

theorem headD_streamAt (l : List Nat) : l.headD 255 = streamAt l 0 := by
  cases l <;> rfl

/-- What a successful refill guarantees. -/
theorem fill_spec {l : List Nat} {b : Buf} {n : Nat} (h : Inv l b n false)
    (hf : b.pos + 1 = b.fin) :
    ∃ b', ({ b with pos := b.pos + 1 } : Buf).fill = some b' ∧
      b'.pos = (n + 1) % 255 + 1 ∧ b'.pos < b'.fin ∧ b'.fin ≤ 256 ∧
      (∀ j, b'.pos + j < b'.fin → b'.mem (b'.pos + j) = streamAt l (n + j)) ∧
      b'.mem (b'.pos - 1) = lookback l n ∧
      (∀ i, streamAt b'.src i = streamAt l (n + (b'.fin - b'.pos) + i)) ∧
      b'.cur = b.cur := by
  have hpos := h.hpos
  have hfin := h.hfin
  have hsrc := h.src
  have hhere := h.here rfl
  have hback := h.back rfl
  simp at hpos
  have hs0 : ∀ i, streamAt b.src i = streamAt l (n + i) := by
    intro i; rw [hsrc i]; congr 1; omega
  by_cases hw : b.fin = 256
  · -- wrap
    have hn : n % 255 = 254 := by omega
    have hn1 : (n + 1) % 255 = 0 := by omega
    have hb254 : b.mem 254 = lookback l n := by
      have : b.pos = 255 := by omega
      have hb := hback (by omega)
      rw [this] at hb
      have h2 : ¬ (n - 1) % 255 = 254 := by omega
      simp only [lookback, hn, if_true]
      simp only [lookback, h2, if_false] at hb
      exact hb
    by_cases hr : min (b.sched b.calls) (min (256 - 1) b.src.length) > 0
    · refine ⟨_, by simp only [Buf.fill, hf, hw, ne_eq, not_true_eq_false, if_false, if_true, if_pos hr]; rfl, ?_⟩
      simp only
      refine ⟨by omega, by omega, by omega, ?_, ?_, ?_, trivial⟩
      · intro j hj
        have : 1 ≤ 1 + j ∧ 1 + j < 1 + min (b.sched b.calls) (min (256 - 1) b.src.length) := by omega
        rw [if_pos this, show 1 + j - 1 = j by omega]
        exact hs0 j
      · simpa using hb254
      · intro i
        rw [streamAt_drop, hs0]; congr 1; omega
    · refine ⟨_, by simp only [Buf.fill, hf, hw, ne_eq, not_true_eq_false, if_false, if_true, if_neg hr]; rfl, ?_⟩
      simp only
      refine ⟨by omega, by omega, by omega, ?_, ?_, ?_, trivial⟩
      · intro j hj
        have : j = 0 := by omega
        subst this
        simp only [Nat.add_zero, if_true]
        rw [headD_streamAt, hs0]; rfl
      · simpa using hb254
      · intro i
        rw [streamAt_tail, hs0]; congr 1; omega
  · -- no wrap
    have hlt : b.fin < 256 := by omega
    have hn : n % 255 ≠ 254 := by omega
    by_cases hr : min (b.sched b.calls) (min (256 - b.fin) b.src.length) > 0
    · refine ⟨_, by simp only [Buf.fill, hf, hw, ne_eq, not_true_eq_false, if_false, if_pos hr]; rfl, ?_⟩
      simp only
      have hprev : b.mem (b.fin - 1) = before l n := by
        rw [show b.fin - 1 = b.pos by omega]; exact hhere
      have hnot : ¬ (b.fin ≤ b.fin - 1 ∧ b.fin - 1 < b.fin + min (b.sched b.calls) (min (256 - b.fin) b.src.length)) := by omega
      refine ⟨by omega, by omega, by omega, ?_, ?_, ?_, trivial⟩
      · intro j hj
        have : b.fin ≤ b.fin + j ∧ b.fin + j < b.fin + min (b.sched b.calls) (min (256 - b.fin) b.src.length) := by omega
        rw [if_pos this, show b.fin + j - b.fin = j by omega]
        exact hs0 j
      · rw [if_neg hnot, hprev]; simp [lookback, hn]
      · intro i
        rw [streamAt_drop, hs0]; congr 1; omega
    · refine ⟨_, by simp only [Buf.fill, hf, hw, ne_eq, not_true_eq_false, if_false, if_neg hr]; rfl, ?_⟩
      simp only
      have hprev : b.mem (b.fin - 1) = before l n := by
        rw [show b.fin - 1 = b.pos by omega]; exact hhere
      have hnot : ¬ (b.fin - 1 = b.fin) := by omega
      refine ⟨by omega, by omega, by omega, ?_, ?_, ?_, trivial⟩
      · intro j hj
        have : j = 0 := by omega
        subst this
        simp only [Nat.add_zero, if_true]
        rw [headD_streamAt, hs0]; rfl
      · rw [if_neg hnot, hprev]; simp [lookback, hn]
      · intro i
        rw [streamAt_tail, hs0]; congr 1; omega

theorem before_succ (l : List Nat) (n : Nat) : before l (n + 1) = streamAt l n := by
  simp [before]

/-- Bookkeeping after the character has been located. -/
theorem inv_after_get {l : List Nat} {b' : Buf} {n : Nat}
    (hp : b'.pos = (n + 1) % 255 + 1) (h1 : b'.pos < b'.fin) (h2 : b'.fin ≤ 256)
    (hfwd : ∀ j, b'.pos + j < b'.fin → b'.mem (b'.pos + j) = streamAt l (n + j))
    (hlb : b'.mem (b'.pos - 1) = lookback l n)
    (hsrc : ∀ i, streamAt b'.src i = streamAt l (n + (b'.fin - b'.pos) + i))
    (hcur : b'.cur = codePos l n) :
    b'.mem b'.pos = streamAt l n ∧
    Inv l { b' with prev := b'.cur, cur := stepPos b'.cur (b'.mem b'.pos) (b'.mem (b'.pos - 1)) } (n + 1) false := by
  have hc : b'.mem b'.pos = streamAt l n := by simpa using hfwd 0 (by omega)
  refine ⟨hc, ?_⟩
  constructor
  · simpa using hp
  · exact ⟨h1, h2⟩
  · simp
  · intro j hj
    have := hfwd (1 + j) (by simp only at hj; omega)
    simp only
    rw [show b'.pos + 1 + j = b'.pos + (1 + j) by omega, this]; congr 1; omega
  · intro _; simp only; rw [hc, before_succ]
  · intro _ _
    simpa using hlb
  · simp
  · intro i
    simp only
    rw [hsrc i]; congr 1; omega
  · simp only [codePos]; rw [hcur, hc, hlb]
  · intro _ _; simpa using hcur

theorem get_spec {l : List Nat} {b : Buf} {n : Nat} {u : Bool} (h : Inv l b n u) :
    ∃ b', b.get = some (streamAt l n, b') ∧ Inv l b' (n + 1) false := by
  by_cases hf : b.pos + 1 < b.fin
  · -- no refill needed
    have hge : ¬ (b.pos + 1 ≥ b.fin) := by omega
    have hpos := h.hpos
    have hfin := h.hfin
    have key := inv_after_get (l := l) (b' := { b with pos := b.pos + 1 }) (n := n)
      (by cases u <;> simp at hpos ⊢ <;> omega) (by simpa using hf) (by simpa using hfin.2)
      (by simpa using h.fwd)
      (by
        simp only [Nat.add_sub_cancel]
        cases u with
        | true => exact h.uback rfl
        | false =>
          rw [h.here rfl]
          simp at hpos
          have : n % 255 ≠ 254 := by omega
          simp [lookback, this])
      (by
        intro i
        rw [show ({ b with pos := b.pos + 1 } : Buf).src = b.src from rfl, h.src i]
        congr 1; simp only; omega)
      h.cur
    refine ⟨_, ?_, key.2⟩
    simp only [Buf.get, if_neg hge, Option.map_some]
    rw [key.1]
  · cases u with
    | true => exact absurd (h.hu rfl) hf
    | false =>
      have hfe : b.pos + 1 = b.fin := by have := h.hfin; omega
      obtain ⟨b', hb', a1, a2, a3, a4, a5, a7, a8⟩ := fill_spec h hfe
      have key := inv_after_get a1 a2 a3 a4 a5 a7 (a8.trans h.cur)
      refine ⟨_, ?_, key.2⟩
      have hge : b.pos + 1 ≥ b.fin := by omega
      simp only [Buf.get, if_pos hge, hb', Option.map_some]
      rw [key.1]

theorem unget_spec {l : List Nat} {b : Buf} {n : Nat} (h : Inv l b (n + 1) false) :
    ∃ b', b.unget = some b' ∧ Inv l b' n true := by
  have hpos := h.hpos
  have hfin := h.hfin
  simp at hpos
  refine ⟨{ b with pos := b.pos - 1, cur := b.prev }, ?_, ?_⟩
  · simp only [Buf.unget]; rw [if_pos (by omega)]
  constructor
  · simp only [if_true]; omega
  · exact ⟨by simp only; omega, hfin.2⟩
  · intro _; simp only; omega
  · intro j hj
    simp only at hj ⊢
    by_cases hj0 : j = 0
    · subst hj0
      rw [show b.pos - 1 + 1 + 0 = b.pos by omega, h.here rfl, before_succ]; rfl
    · have := h.fwd (j - 1) (by omega)
      rw [show b.pos - 1 + 1 + j = b.pos + 1 + (j - 1) by omega, this]; congr 1; omega
  · simp
  · simp
  · intro _
    simpa using h.back rfl (by omega)
  · intro i
    simp only
    rw [h.src i]; congr 1; omega
  · simp only; have := h.prv rfl (by omega); simpa using this
  · simp

end Verif.Rib
