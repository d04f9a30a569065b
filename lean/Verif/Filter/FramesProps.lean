import Verif.Filter.Frames
import Verif.Filter.StrtolLemmas
/-!
# C18, C19, C20: frame selection, frame lists, the tee
-/
namespace Verif.Filter.Frames
open Verif.Rib

/-! ## C18 -/

/-- A piece of a stream: a request outside frames, or a whole frame. -/
inductive Piece where
  | outside (r : Nat)
  | frame (n : Int) (body : List Nat)

def Piece.reqs : Piece → List FReq
  | .outside r => [.other r]
  | .frame n body => .frameBegin n :: (body.map .other ++ [.frameEnd])

/-- Specification: what lies outside frames stays, and the wanted frames stay whole. -/
def Piece.wanted (want : List Int) : Piece → Bool
  | .outside _ => true
  | .frame n _ => decide (n ∈ want)

theorem dropRun_append (want : List Int) (a : Bool) (xs ys : List FReq) :
    dropRun want a (xs ++ ys) =
      ((dropRun want (dropRun want a xs).1 ys).1,
        (dropRun want a xs).2 ++ (dropRun want (dropRun want a xs).1 ys).2) := by
  induction xs generalizing a with
  | nil => rfl
  | cons x xs ih => simp [dropRun, ih]

theorem dropRun_others (want : List Int) (a : Bool) (body : List Nat) :
    dropRun want a (body.map .other) = (a, if a then body.map .other else []) := by
  induction body with
  | nil => cases a <;> rfl
  | cons b body ih =>
    simp only [List.map_cons, dropRun, dropStep, ih]
    cases a <;> rfl

theorem dropRun_piece (want : List Int) (p : Piece) :
    dropRun want true p.reqs = (true, if p.wanted want then p.reqs else []) := by
  cases p with
  | outside r => rfl
  | frame n body =>
    simp only [Piece.reqs, dropRun, dropStep, dropRun_append, dropRun_others, Piece.wanted]
    by_cases h : n ∈ want <;> simp [h]

/-- **C18.**  Of a stream of requests outside frames and whole frames, exactly the requests outside
frames and the wanted frames are passed on, unchanged and in order. -/
theorem C18_selected_frames (want : List Int) (ps : List Piece) :
    frameDrop want (ps.flatMap Piece.reqs) =
      (ps.filter (Piece.wanted want)).flatMap Piece.reqs := by
  have h : dropRun want true (ps.flatMap Piece.reqs) =
      (true, (ps.filter (Piece.wanted want)).flatMap Piece.reqs) := by
    induction ps with
    | nil => rfl
    | cons p ps ih =>
      rw [List.flatMap_cons, dropRun_append, dropRun_piece]
      simp only [ih]
      by_cases hp : p.wanted want = true <;> simp [hp]
  rw [frameDrop, h]

example : frameDrop [2] [.other 1, .frameBegin 1, .other 2, .frameEnd, .frameBegin 2, .other 3,
    .frameEnd, .other 4] = [.other 1, .frameBegin 2, .other 3, .frameEnd, .other 4] :=
  C18_selected_frames [2] [.outside 1, .frame 1 [2], .frame 2 [3], .outside 4]

/-- The last frame request of a stream, if any. -/
def lastFrame (rs : List FReq) : Option FReq :=
  rs.reverse.find? fun r => match r with
    | .other _ => false
    | _ => true

/-- Is something after `pre` in an unwanted frame? -/
def unwanted (want : List Int) (pre : List FReq) : Prop :=
  ∃ n, lastFrame pre = some (.frameBegin n) ∧ n ∉ want

/-- **C18, all streams**, nested well or not: a request that is not `FrameBegin` is passed on unless
the last frame request before it began an unwanted frame; `FrameBegin` exactly when wanted. -/
theorem C18_any_stream (want : List Int) (pre : List FReq) (r : FReq) :
    (frameDrop want (pre ++ [r]) = frameDrop want pre ++ [r] ∧
      ((∀ n, r = .frameBegin n → n ∈ want) ∧ ((∀ n, r ≠ .frameBegin n) → ¬ unwanted want pre))) ∨
    (frameDrop want (pre ++ [r]) = frameDrop want pre ∧
      ((∃ n, r = .frameBegin n ∧ n ∉ want) ∨ ((∀ n, r ≠ .frameBegin n) ∧ unwanted want pre))) := by
  have hst : (dropRun want true pre).1 = false ↔ unwanted want pre := by
    have : ∀ (l : List FReq), (dropRun want true l.reverse).1 = false ↔
        unwanted want l.reverse := by
      intro l
      induction l with
      | nil => simp [dropRun, unwanted, lastFrame]
      | cons x l ih =>
        simp only [List.reverse_cons, dropRun_append, dropRun, unwanted, lastFrame,
          List.reverse_append, List.reverse_nil, List.nil_append, List.reverse_cons,
          List.cons_append, List.reverse_reverse] at ih ⊢
        cases x with
        | frameBegin n => simp [dropStep]
        | frameEnd => simp [dropStep]
        | other r => simpa [dropStep, List.find?_cons] using ih
    have h := this pre.reverse
    rwa [List.reverse_reverse] at h
  simp only [frameDrop, dropRun_append]
  cases r with
  | frameBegin n =>
    by_cases hn : n ∈ want
    · left
      refine ⟨by simp [dropRun, dropStep, hn], ?_, fun h => absurd rfl (h n)⟩
      intro m hm
      cases hm
      exact hn
    · right
      exact ⟨by simp [dropRun, dropStep, hn], .inl ⟨n, rfl, hn⟩⟩
  | frameEnd =>
    cases ha : (dropRun want true pre).1 with
    | true =>
      left
      refine ⟨by simp [dropRun, dropStep], fun n h => by simp at h, fun _ h => ?_⟩
      rw [← hst, ha] at h
      simp at h
    | false =>
      right
      exact ⟨by simp [dropRun, dropStep], .inr ⟨fun n h => by simp at h, hst.1 ha⟩⟩
  | other r =>
    cases ha : (dropRun want true pre).1 with
    | true =>
      left
      refine ⟨by simp [dropRun, dropStep], fun n h => by simp at h, fun _ h => ?_⟩
      rw [← hst, ha] at h
      simp at h
    | false =>
      right
      exact ⟨by simp [dropRun, dropStep], .inr ⟨fun n h => by simp at h, hst.1 ha⟩⟩

example : unwanted [3] [.frameBegin 4, .other 1] := ⟨4, rfl, by decide⟩

/-! ## C19 -/

/-- An item of a frame list. -/
inductive Item where
  | one (n : Nat)
  | range (a b : Nat)

def Item.text : Item → List Nat
  | .one n => decText n
  | .range a b => decText a ++ 45 :: decText b

/-- Items separated by commas. -/
def listText : List Item → List Nat
  | [] => []
  | [i] => i.text
  | i :: is => i.text ++ 44 :: listText is

/-- Specification: an item names a number, or all from the smaller to the larger, inclusive. -/
def Item.names : Item → Int → Prop
  | .one n, f => f = n
  | .range a b, f => (min a b : Nat) ≤ f ∧ f ≤ (max a b : Nat)

/-- Frame numbers are `int`s; the largest `int` cannot end a range (`C19_range_end_violated`). -/
def Item.ok : Item → Prop
  | .one n => n < 2 ^ 31
  | .range a b => a < 2 ^ 31 - 1 ∧ b < 2 ^ 31 - 1

def Item.list : Item → List Int
  | .one n => [(n : Int)]
  | .range a b => intRange (min (a : Int) b) (max (a : Int) b)

theorem toInt32_small (n : Nat) (h : n < 2 ^ 31) : toInt32 (n : Int) = n := by
  simp only [toInt32]
  omega

theorem takeWhile_digits (n : Nat) (r : List Nat) (hr : ∀ c ∈ r.head?, isDigit c = false) :
    digits (decDigits n ++ r) = decDigits n ∧ afterDigits (decDigits n ++ r) = r := by
  have h : ∀ ds : List Nat, (∀ c ∈ ds, isDigit c = true) →
      digits (ds ++ r) = ds ∧ afterDigits (ds ++ r) = r := by
    intro ds hds
    induction ds with
    | nil =>
      cases r with
      | nil => exact ⟨rfl, rfl⟩
      | cons c r =>
        have := hr c (by simp)
        simp [digits, afterDigits, this]
    | cons d ds ih =>
      have hd := hds d (by simp)
      have := ih fun c hc => hds c (by simp [hc])
      simp only [digits, afterDigits, List.cons_append] at this ⊢
      simp [hd, this.1, this.2]
  exact h _ (decDigits_isDigit n)

theorem strtol_dec (n : Nat) (hn : n < 2 ^ 31) (r : List Nat)
    (hr : ∀ c ∈ r.head?, isDigit c = false) : strtol (decDigits n ++ r) = some ((n : Int), r) := by
  obtain ⟨d, ds, hd⟩ := List.exists_cons_of_ne_nil (decDigits_ne_nil n)
  have hdig := decDigits_isDigit n d (by simp [hd])
  obtain ⟨h1, h2⟩ := takeWhile_digits n r hr
  rw [hd] at h1 h2
  simp only [isDigit, Bool.and_eq_true, decide_eq_true_eq] at hdig
  have hsp : isSpaceC d = false := by
    simp [isSpaceC]
    omega
  rw [strtol, hd]
  simp only [List.cons_append, List.dropWhile_cons, hsp, Bool.false_eq_true, if_false]
  rw [if_neg (by omega), if_neg (by omega), strtolDigits]
  simp only [List.cons_append] at h1 h2
  rw [h1, h2, if_neg (by simp), ← hd, digitsVal_decDigits]
  simp [toInt32_small n hn]

theorem strtol_shorter {l r : List Nat} {v : Int} (h : strtol l = some (v, r)) :
    r.length < l.length := by
  have hd : ∀ neg m, strtolDigits neg m = some (v, r) → r.length < m.length := by
    intro neg m h
    simp only [strtolDigits] at h
    split at h
    · simp at h
    · rename_i hne
      simp only [Option.some.injEq, Prod.mk.injEq] at h
      rw [← h.2]
      have := List.takeWhile_append_dropWhile (p := isDigit) (l := m)
      have h2 : (digits m).length + (afterDigits m).length = m.length := by
        rw [← List.length_append]
        exact congrArg List.length this
      have h3 : 0 < (digits m).length := List.length_pos_iff.2 hne
      omega
  unfold strtol at h
  have hle : (l.dropWhile isSpaceC).length ≤ l.length := (List.dropWhile_suffix _).length_le
  split at h
  · simp at h
  · rename_i c m hm
    rw [hm] at hle
    simp only [List.length_cons] at hle
    split at h
    · have := hd _ _ h; omega
    · split at h
      · have := hd _ _ h; omega
      · have := hd _ _ h
        simp only [List.length_cons] at this
        omega

/-- **C19, termination.**  More turns of the loop than there are characters change nothing: the
loop ends for every text. -/
theorem C19_terminates (l : List Nat) (n : Nat) (h : l.length ≤ n) :
    framesLoop n l = parseFrames l := by
  have key : ∀ n m l, l.length ≤ n → l.length ≤ m → framesLoop n l = framesLoop m l := by
    intro n
    induction n with
    | zero =>
      intro m l h _
      have : l = [] := List.length_eq_zero_iff.1 (by omega)
      subst this
      cases m <;> rfl
    | succ n ih =>
      intro m l h hm
      cases l with
      | nil => cases m <;> rfl
      | cons c r =>
        cases m with
        | zero => simp at hm
        | succ m =>
          simp only [framesLoop]
          simp only [List.length_cons] at h hm
          cases hs : strtol (c :: r) with
          | none => simp only; rw [ih m r (by omega) (by omega)]
          | some p =>
            obtain ⟨f1, e1⟩ := p
            have h1 := strtol_shorter hs
            simp only [List.length_cons] at h1
            simp only
            rw [ih m e1 (by omega) (by omega)]
            cases hs2 : strtol e1.tail with
            | none => rfl
            | some p =>
              obtain ⟨f2, e2⟩ := p
              have h2 := strtol_shorter hs2
              have h3 : e1.tail.length ≤ e1.length := by simp
              simp only
              rw [ih m e2 (by omega) (by omega)]
  exact key n _ l h (Nat.le_refl _)

example : framesLoop 100 [49, 44] = parseFrames [49, 44] := C19_terminates _ _ (by decide)

theorem loop_eq (l : List Nat) {n : Nat} (h : l.length ≤ n) : framesLoop n l = parseFrames l :=
  C19_terminates l n h

theorem parse_item (i : Item) (hi : i.ok) (r : List Nat)
    (hr : r = [] ∨ ∃ r', r = 44 :: r') :
    parseFrames (i.text ++ r) = (parseFrames r).cons i.list := by
  have hrd : ∀ c ∈ r.head?, isDigit c = false := by
    rcases hr with rfl | ⟨r', rfl⟩
    · simp
    · simp [isDigit]
  have hr45 : r.head? ≠ some 45 := by
    rcases hr with rfl | ⟨r', rfl⟩ <;> simp
  cases i with
  | one n =>
    have hst := strtol_dec n hi r hrd
    obtain ⟨d, ds, hd⟩ := List.exists_cons_of_ne_nil (decDigits_ne_nil n)
    simp only [Item.text, ← decDigits_eq]
    rw [parseFrames]
    rw [hd] at hst ⊢
    simp only [List.cons_append, List.length_cons] at hst ⊢
    rw [framesLoop]
    simp only [hst]
    rw [if_neg hr45, loop_eq r (by simp)]
    rfl
  | range a b =>
    obtain ⟨ha, hb⟩ := hi
    have hst := strtol_dec a (by omega) (45 :: (decDigits b ++ r)) (by simp [isDigit])
    have hst2 := strtol_dec b (by omega) r hrd
    obtain ⟨d, ds, hd⟩ := List.exists_cons_of_ne_nil (decDigits_ne_nil a)
    simp only [Item.text, ← decDigits_eq]
    rw [parseFrames]
    rw [hd] at hst ⊢
    simp only [List.cons_append, List.length_cons, List.append_assoc] at hst ⊢
    rw [framesLoop]
    simp only [hst, List.head?_cons, if_true, List.tail_cons, hst2]
    rw [if_neg (by omega), loop_eq r (by simp; omega)]
    rfl

theorem mem_intRange (a b f : Int) : f ∈ intRange a b ↔ a ≤ f ∧ f ≤ b := by
  simp only [intRange, List.mem_map, List.mem_range]
  constructor
  · rintro ⟨k, hk, rfl⟩
    omega
  · rintro ⟨h1, h2⟩
    exact ⟨(f - a).toNat, by omega, by omega⟩

theorem mem_list (i : Item) (f : Int) : f ∈ i.list ↔ i.names f := by
  cases i with
  | one n => simp [Item.list, Item.names]
  | range a b =>
    simp only [Item.list, mem_intRange, Item.names]
    omega

/-- **C19.**  A comma separated list of frame numbers and ranges selects exactly the frames its
items name. -/
theorem C19_list_denotes (is : List Item) (h : ∀ i ∈ is, i.ok) :
    ∃ l, parseFrames (listText is) = .frames l ∧ ∀ f, f ∈ l ↔ ∃ i ∈ is, i.names f := by
  have key : parseFrames (listText is) = .frames (is.flatMap Item.list) := by
    induction is with
    | nil => rfl
    | cons i is ih =>
      cases is with
      | nil =>
        have := parse_item i (h i (by simp)) [] (.inl rfl)
        simp only [List.append_nil] at this
        simp only [listText, List.flatMap_cons, List.flatMap_nil, List.append_nil]
        rw [this]
        simp [parseFrames, framesLoop, FrameRes.cons]
      | cons j js =>
        have ih := ih fun k hk => h k (by simp [hk])
        have := parse_item i (h i (by simp)) (44 :: listText (j :: js)) (.inr ⟨_, rfl⟩)
        rw [listText]
        · rw [this, List.flatMap_cons]
          have hc : parseFrames (44 :: listText (j :: js)) = parseFrames (listText (j :: js)) := by
            rw [parseFrames, List.length_cons, framesLoop]
            have hs : strtol (44 :: listText (j :: js)) = none := by
              simp [strtol, isSpaceC, strtolDigits, digits, isDigit]
            simp only [hs]
            rfl
          rw [hc, ih]
          rfl
        · simp
  refine ⟨_, key, fun f => ?_⟩
  simp only [List.mem_flatMap, mem_list]

example : ∃ l, parseFrames [49, 44, 51, 44, 54, 45, 57] = .frames l ∧ (8 : Int) ∈ l ∧ (5 : Int) ∉ l := by
  obtain ⟨l, h, hl⟩ := C19_list_denotes [.one 1, .one 3, .range 6 9] (by simp [Item.ok])
  refine ⟨l, ?_, ?_, ?_⟩
  · have : listText [.one 1, .one 3, .range 6 9] = [49, 44, 51, 44, 54, 45, 57] := by
      simp [listText, Item.text, ← decDigits_eq, decDigits]
    rwa [this] at h
  · rw [hl]
    exact ⟨.range 6 9, by simp, by simp [Item.names]⟩
  · rw [hl]
    rintro ⟨i, hi, hn⟩
    simp only [List.mem_cons, List.not_mem_nil, or_false] at hi
    rcases hi with rfl | rfl | rfl <;> simp [Item.names] at hn

/-- The lists the filter accepts, with the frames they select: commas, numbers and ranges in any
order.  A number takes all the digits there are, and is a range if `-` follows. -/
inductive FrameText : List Nat → List Int → Prop where
  | done : FrameText [] []
  | comma {r fs} (h : FrameText r fs) : FrameText (44 :: r) fs
  | one {w v r fs} (hw : NumberText w v) (hd : ∀ c ∈ r.head?, ¬ Digit c ∧ c ≠ 45)
      (h : FrameText r fs) : FrameText (w ++ r) (v :: fs)
  | range {w1 v1 w2 v2 r fs} (h1 : NumberText w1 v1) (h2 : NumberText w2 v2)
      (hd : ∀ c ∈ r.head?, ¬ Digit c) (hmax : v1 < 2 ^ 31 - 1 ∧ v2 < 2 ^ 31 - 1)
      (h : FrameText r fs) :
      FrameText (w1 ++ 45 :: (w2 ++ r))
        ((List.range ((v1 - v2).natAbs + 1)).map (fun k : Nat => min v1 v2 + (k : Int)) ++ fs)

theorem NumberText.ne_nil {w : List Nat} {v : Int} (h : NumberText w v) : w ≠ [] := by
  obtain ⟨sp, sg, ds, rfl, -, -, hne, -⟩ := h
  simp [hne]

theorem NumberText.lt {w : List Nat} {v : Int} (h : NumberText w v) : v < 2 ^ 31 := by
  have : ∀ x, cInt x < 2 ^ 31 := by
    intro x
    have := Int.bmod_lt (x := max (-2 ^ 63) (min x (2 ^ 63 - 1))) (m := 2 ^ 32) (by decide)
    simp only [cInt]
    omega
  obtain ⟨sp, sg, ds, rfl, -, ⟨-, rfl⟩ | ⟨-, rfl⟩, -, -⟩ := h <;> exact this _

theorem intRange_eq (a b : Int) : intRange (min a b) (max a b) =
    (List.range ((a - b).natAbs + 1)).map (fun k : Nat => min a b + (k : Int)) := by
  rw [intRange]
  congr 2
  omega

theorem cons_frames {m : List Int} {x : FrameRes} {l : List Int} (h : x.cons m = .frames l) :
    ∃ l', x = .frames l' ∧ l = m ++ l' := by
  cases x with
  | frames l' => exact ⟨l', rfl, by simpa [FrameRes.cons] using h.symm⟩
  | error => simp [FrameRes.cons] at h
  | ub => simp [FrameRes.cons] at h

theorem strtol_comma (r : List Nat) : strtol (44 :: r) = none := by
  simp [strtol, isSpaceC, strtolDigits, digits, isDigit]

theorem parse_number {w : List Nat} {v : Int} {r : List Nat} (hw : NumberText w v)
    (hd : ∀ c ∈ r.head?, ¬ Digit c) : parseFrames (w ++ r) =
      if r.head? = some 45 then
        match strtol r.tail with
        | some (f2, e2) =>
          if max v f2 = 2 ^ 31 - 1 then .ub
          else (parseFrames e2).cons (intRange (min v f2) (max v f2))
        | none => .error
      else (parseFrames r).cons [v] := by
  have hs : strtol (w ++ r) = some (v, r) := strtol_iff.2 ⟨w, rfl, hw, hd⟩
  obtain ⟨c, w', rfl⟩ := List.exists_cons_of_ne_nil hw.ne_nil
  rw [parseFrames]
  simp only [List.cons_append, List.length_cons] at hs ⊢
  rw [framesLoop]
  simp only [hs]
  rw [loop_eq r (by simp)]
  cases hs2 : strtol r.tail with
  | none => rfl
  | some p =>
    obtain ⟨f2, e2⟩ := p
    have h2 := strtol_shorter hs2
    have h3 : r.tail.length ≤ r.length := by simp
    simp only
    rw [loop_eq e2 (by simp; omega)]

/-- **C19, what is accepted (partial).**  The filter accepts exactly the texts of `FrameText`, with
the frames given there, in their order.  Missing: this grammar takes in texts that are not lists of
numbers and ranges separated by commas, see `C19_malformed_violated`. -/
theorem C19_grammar_partial (l : List Nat) (fs : List Int) :
    parseFrames l = .frames fs ↔ FrameText l fs := by
  constructor
  · have key : ∀ n l fs, l.length ≤ n → parseFrames l = .frames fs → FrameText l fs := by
      intro n
      induction n with
      | zero =>
        intro l fs hl h
        have : l = [] := List.length_eq_zero_iff.1 (by omega)
        subst this
        simp only [parseFrames, List.length_nil, framesLoop, FrameRes.frames.injEq] at h
        subst h
        exact .done
      | succ n ih =>
        intro l fs hl h
        cases hs : strtol l with
        | none =>
          cases l with
          | nil =>
            simp only [parseFrames, List.length_nil, framesLoop, FrameRes.frames.injEq] at h
            subst h
            exact .done
          | cons c r =>
            simp only [parseFrames, List.length_cons, framesLoop, hs] at h
            split at h
            · rename_i hc
              subst hc
              exact .comma (ih r fs (by simpa using hl) h)
            · simp at h
        | some p =>
          obtain ⟨v, r⟩ := p
          have hlt := strtol_shorter hs
          obtain ⟨w, rfl, hw, hd⟩ := strtol_iff.1 hs
          rw [parse_number hw hd] at h
          split at h
          · rename_i h45
            cases r with
            | nil => simp at h45
            | cons d r =>
              simp only [List.head?_cons, Option.some.injEq] at h45
              subst h45
              simp only [List.tail_cons] at h
              cases hs2 : strtol r with
              | none => simp [hs2] at h
              | some p =>
                obtain ⟨f2, e2⟩ := p
                have hlt2 := strtol_shorter hs2
                obtain ⟨w2, rfl, hw2, hd2⟩ := strtol_iff.1 hs2
                simp only [hs2] at h
                split at h
                · simp at h
                · rename_i hmax
                  obtain ⟨l', hl', rfl⟩ := cons_frames h
                  rw [intRange_eq]
                  have := hw.lt
                  have := hw2.lt
                  simp only [List.length_cons] at hlt
                  exact .range hw hw2 hd2 (by omega) (ih e2 l' (by omega) hl')
          · rename_i h45
            obtain ⟨l', hl', rfl⟩ := cons_frames h
            refine .one hw (fun c hc => ⟨hd c hc, ?_⟩) (ih r l' (by omega) hl')
            rintro rfl
            exact h45 hc
    exact key _ l fs (Nat.le_refl _)
  · intro h
    induction h with
    | done => rfl
    | @comma r fs h ih =>
      rw [← ih, parseFrames, List.length_cons, framesLoop]
      simp only [strtol_comma, if_true]
      rfl
    | @one w v r fs hw hd h ih =>
      rw [parse_number hw fun c hc => (hd c hc).1, if_neg (show ¬ r.head? = some 45 from fun h45 => (hd 45 h45).2 rfl), ih]
      rfl
    | @range w1 v1 w2 v2 r fs h1 h2 hd hmax h ih =>
      rw [parse_number h1 (by simp [Digit]), if_pos (by simp), List.tail_cons,
        strtol_iff.2 ⟨w2, rfl, h2, hd⟩]
      simp only
      rw [if_neg (by omega), ih, intRange_eq]
      rfl

example : FrameText [49, 45, 50, 45, 51] [1, 2, -3] :=
  (C19_grammar_partial _ _).1 (by decide)

/-- **C19, rejection (partial).**  A list is accepted only if every character is a digit, a sign, a
comma or white space.  Missing: sequences of these that are not lists may be accepted, see
`C19_malformed_violated`. -/
theorem C19_rejects_bad_characters_partial (l : List Nat) (fs : List Int)
    (h : parseFrames l = .frames fs) :
    ∀ c ∈ l, 48 ≤ c ∧ c ≤ 57 ∨ c = 43 ∨ c = 44 ∨ c = 45 ∨ c = 32 ∨ 9 ≤ c ∧ c ≤ 13 := by
  have num : ∀ w v, NumberText w v →
      ∀ c ∈ w, 48 ≤ c ∧ c ≤ 57 ∨ c = 43 ∨ c = 44 ∨ c = 45 ∨ c = 32 ∨ 9 ≤ c ∧ c ≤ 13 := by
    rintro w v ⟨sp, sg, ds, rfl, hsp, hsg, -, hd⟩ c hc
    simp only [List.mem_append] at hc
    rcases hc with hc | hc | hc
    · have := hsp c hc
      omega
    · rcases hsg with ⟨rfl | rfl, -⟩ | ⟨rfl, -⟩ <;> simp at hc <;> omega
    · have := hd c hc
      simp only [Digit] at this
      omega
  have h' := (C19_grammar_partial l fs).1 h
  clear h
  induction h' with
  | done => simp
  | comma h ih =>
    intro c hc
    rcases List.mem_cons.1 hc with rfl | hc
    · omega
    · exact ih c hc
  | one hw hd h ih =>
    intro c hc
    rcases List.mem_append.1 hc with hc | hc
    · exact num _ _ hw c hc
    · exact ih c hc
  | range h1 h2 hd hmax h ih =>
    intro c hc
    simp only [List.mem_append, List.mem_cons] at hc
    rcases hc with hc | rfl | hc | hc
    · exact num _ _ h1 c hc
    · omega
    · exact num _ _ h2 c hc
    · exact ih c hc

example : parseFrames [49, 44, 120] = .error := by decide

/-- **C19 fails: malformed lists accepted.**  `1-2-3` is taken as 1, 2 and -3, and `1 2` as 1, 2. -/
theorem C19_malformed_violated :
    parseFrames [49, 45, 50, 45, 51] = .frames [1, 2, -3] ∧
    parseFrames [49, 32, 50] = .frames [1, 2] := by decide

/-- **C19 fails: numbers beyond `int`.**  `4294967297` selects frame 1. -/
theorem C19_overflow_violated :
    parseFrames [52, 50, 57, 52, 57, 54, 55, 50, 57, 55] = .frames [1] := by decide

/-- **C19 fails: a range up to the largest `int`** overflows the loop counter. -/
theorem C19_range_end_violated :
    parseFrames ([50, 45] ++ [50, 49, 52, 55, 52, 56, 51, 54, 52, 55]) = .ub := by decide

/-! ## C20 -/

/-- What one side of the tee receives. -/
def side (b : Bool) (ds : List (Bool × TReq)) : List TReq := (ds.filter (·.1 = b)).map (·.2)

/-- **C20.**  Both sides of the tee receive exactly the incoming requests, in order. -/
theorem C20_tee_same (rs : List TReq) (b : Bool) : side b (tee rs) = rs := by
  induction rs with
  | nil => rfl
  | cons r rs ih =>
    simp only [tee, List.flatMap_cons, side, List.filter_append, List.map_append] at ih ⊢
    rw [ih]
    obtain ⟨e, i⟩ := r
    cases e <;> cases b <;> rfl

/-- Both sides have received each request before either receives the next one, and whatever the
next filter does between a `Begin` and its `End` happens between the branch's. -/
theorem C20_tee_in_step (pre rs : List TReq) (r : TReq) :
    tee (pre ++ r :: rs) = tee pre ++ (if r.isEnd then [(false, r), (true, r)]
      else [(true, r), (false, r)]) ++ tee rs := by
  simp [tee, teeStep]

example : tee [⟨false, 1⟩, ⟨true, 2⟩] =
    [(true, ⟨false, 1⟩), (false, ⟨false, 1⟩), (false, ⟨true, 2⟩), (true, ⟨true, 2⟩)] := by decide

end Verif.Filter.Frames
