import Verif.Rib.Tokenizer

namespace Verif.Rib

theorem ite_elim {α} (P : α → Prop) {c : Prop} [Decidable c] {a b : α} (ha : c → P a) (hb : ¬c → P b) :
    P (if c then a else b) := by
  by_cases h : c
  · rw [if_pos h]; exact ha h
  · rw [if_neg h]; exact hb h

theorem getc_length (l : List Nat) : (getc l).2.length ≤ l.length := by
  cases l <;> simp [getc]

theorem decodeInt_length (n l) : (decodeInt n l).2.length ≤ l.length := by
  induction n generalizing l with
  | zero => simp [decodeInt]
  | succ n ih => simp only [decodeInt]; exact Nat.le_trans (ih _) (getc_length l)

theorem takeBytes_length (n l) : (takeBytes n l).2.length ≤ l.length := by
  induction n generalizing l with
  | zero => simp [takeBytes]
  | succ n ih => simp only [takeBytes]; exact Nat.le_trans (ih _) (getc_length l)

theorem decodeString_length (n l) : (decodeString n l).2.length ≤ l.length := takeBytes_length _ _

theorem dropWhile_length {α} (p : α → Bool) (l : List α) : (l.dropWhile p).length ≤ l.length :=
  (List.dropWhile_suffix p).length_le

theorem tail_length_le {α} (l : List α) : l.tail.length ≤ l.length := by simp

theorem readSign_length (l) : (readSign l).2.length ≤ l.length := by
  unfold readSign; split <;> simp

theorem readExp_length (neg ds fs l) : (readExp neg ds fs l).2.length ≤ l.length := by
  have h1 := readSign_length l
  have h2 := dropWhile_length isDigit (readSign l).2
  unfold readExp
  dsimp only
  split
  · simp only [List.length_tail]; omega
  · split <;> (dsimp only; omega)

theorem readNumber_length (l) : (readNumber l).2.length ≤ l.length := by
  have h1 := readSign_length l
  have h2 := dropWhile_length isDigit (readSign l).2
  unfold readNumber
  dsimp only
  split
  · dsimp only; omega
  · split
    · rename_i r1 heq
      rw [heq] at h2; simp only [List.length_cons] at h2
      have h3 := dropWhile_length isDigit r1
      split
      · simp only [List.length_tail]; omega
      · split
        · rename_i c r3 heq2
          rw [heq2] at h3; simp only [List.length_cons] at h3
          have := readExp_length (readSign l).1 ((readSign l).2.takeWhile isDigit) (r1.takeWhile isDigit) r3
          split
          · omega
          · simp only [heq2, List.length_cons]; omega
        · simp
    · rename_i c r1 _ heq
      rw [heq] at h2; simp only [List.length_cons] at h2
      have := readExp_length (readSign l).1 ((readSign l).2.takeWhile isDigit) [] r1
      split
      · omega
      · split
        · dsimp only; omega
        · simp only [heq, List.length_cons]; omega
    · split <;> simp

/-- A number token consumes at least one character. -/
theorem readNumber_length_lt (c : Nat) (r : List Nat) (h : isNumStart c) :
    (readNumber (c :: r)).2.length ≤ r.length := by
  simp only [isNumStart, Bool.or_eq_true, decide_eq_true_eq] at h
  by_cases hs : c = 45 ∨ c = 43
  · have hsg : (readSign (c :: r)).2 = r := by rcases hs with rfl | rfl <;> rfl
    have h2 := dropWhile_length isDigit r
    unfold readNumber
    dsimp only
    rw [hsg]
    split
    · exact h2
    · split
      · rename_i r1 heq
        rw [heq] at h2; simp only [List.length_cons] at h2
        have h3 := dropWhile_length isDigit r1
        split
        · simp only [List.length_tail]; omega
        · split
          · rename_i c' r3 heq2
            rw [heq2] at h3; simp only [List.length_cons] at h3
            have := readExp_length (readSign (c :: r)).1 (r.takeWhile isDigit) (r1.takeWhile isDigit) r3
            split
            · omega
            · simp only [heq2, List.length_cons]; omega
          · simp
      · rename_i c' r1 _ heq
        rw [heq] at h2; simp only [List.length_cons] at h2
        have := readExp_length (readSign (c :: r)).1 (r.takeWhile isDigit) [] r1
        split
        · omega
        · split
          · dsimp only; omega
          · simp only [heq, List.length_cons]; omega
      · split <;> simp
  · have hsg : readSign (c :: r) = (false, c :: r) := by
      unfold readSign; split
      · rename_i heq; simp at heq; omega
      · rename_i heq; simp at heq; omega
      · rfl
    have hc : isDigit c ∨ c = 46 := by
      rcases h with ((h | h) | h) | h
      · exact .inl h
      · omega
      · omega
      · exact .inr h
    rcases hc with hc | rfl
    · have h2 := dropWhile_length isDigit r
      have hd : (c :: r).dropWhile isDigit = r.dropWhile isDigit := by simp [hc]
      unfold readNumber
      rw [hsg]
      dsimp only
      rw [hd]
      split
      · exact h2
      · split
        · rename_i r1 heq
          rw [heq] at h2; simp only [List.length_cons] at h2
          have h3 := dropWhile_length isDigit r1
          split
          · simp only [List.length_tail]; omega
          · split
            · rename_i c' r3 heq2
              rw [heq2] at h3; simp only [List.length_cons] at h3
              have := readExp_length false ((c :: r).takeWhile isDigit) (r1.takeWhile isDigit) r3
              split
              · omega
              · simp only [heq2, List.length_cons]; omega
            · simp
        · rename_i c' r1 _ heq
          rw [heq] at h2; simp only [List.length_cons] at h2
          have := readExp_length false ((c :: r).takeWhile isDigit) [] r1
          split
          · omega
          · split
            · dsimp only; omega
            · simp only [heq, List.length_cons]; omega
        · split <;> simp
    · have hd : (46 :: r).dropWhile isDigit = 46 :: r := by simp [isDigit]
      have ht : (46 :: r).takeWhile isDigit = [] := by simp [isDigit]
      unfold readNumber
      rw [hsg]
      dsimp only
      rw [hd, ht]
      have h3 := dropWhile_length isDigit r
      simp only [overflows, digitsVal, List.foldl_nil]
      simp only [Nat.not_lt_zero, decide_false, Bool.false_eq_true, if_false, true_and]
      split
      · simp
      · split
        · rename_i c' r3 heq2
          rw [heq2] at h3; simp only [List.length_cons] at h3
          have := readExp_length false [] (r.takeWhile isDigit) r3
          split
          · omega
          · simp only [heq2, List.length_cons]; omega
        · simp

theorem readString_length (acc l) : (readString acc l).2.length ≤ l.length := by
  induction hn : l.length using Nat.strongRecOn generalizing acc l with
  | _ n ih =>
    cases l with
    | nil => simp [readString]
    | cons c r =>
      simp only [List.length_cons] at hn
      have key : ∀ acc' l', l'.length ≤ r.length → (readString acc' l').2.length ≤ n := by
        intro acc' l' hl
        exact Nat.le_trans (ih l'.length (by omega) acc' l' rfl) (by omega)
      rw [readString.eq_def]
      dsimp only
      split
      · dsimp only; omega
      · split
        · cases r with
          | nil => simp
          | cons d r => exact key _ _ (by simp)
        · split
          · cases r with
            | nil => exact key _ _ (by simp)
            | cons d r =>
              dsimp only
              split
              · exact key _ _ (by simp)
              · exact key _ _ (by simp)
          · split
            · dsimp only; omega
            · exact key _ _ (by simp)

theorem scanBin_length (st c r) : (scanBin st c r).2.2.length ≤ r.length := by
  let P : Tok × TkSt × List Nat → Prop := fun x => x.2.2.length ≤ r.length
  show P (scanBin st c r)
  unfold scanBin
  refine ite_elim P (fun h0 => by dsimp only [P]; exact decodeInt_length (c - 128 + 1) r) (fun h0 => ?_)
  refine ite_elim P (fun h1 => by dsimp only [P]; exact Nat.le_trans (decodeInt_length (min ((c - 128) / 4 % 4) ((c - 128) % 4 + 1)) _) (decodeInt_length ((c - 128) % 4 + 1 - (c - 128) / 4 % 4) r)) (fun h1 => ?_)
  refine ite_elim P (fun h2 => by dsimp only [P]; exact decodeString_length (c - 144) r) (fun h2 => ?_)
  refine ite_elim P (fun h3 => by dsimp only [P]; exact Nat.le_trans (decodeString_length _ _) (decodeInt_length (c - 160 + 1) r)) (fun h3 => ?_)
  refine ite_elim P (fun h4 => by dsimp only [P]; exact decodeInt_length 4 r) (fun h4 => ?_)
  refine ite_elim P (fun h5 => by dsimp only [P]; exact Nat.le_trans (decodeInt_length 4 _) (decodeInt_length 4 r)) (fun h5 => ?_)
  refine ite_elim P (fun h6 => by dsimp only [P]; exact getc_length _) (fun h6 => ?_)
  refine ite_elim P (fun h7 => by dsimp only [P]; exact Nat.le_refl _) (fun h7 => ?_)
  refine ite_elim P (fun h8 => by dsimp only [P]; exact decodeInt_length (c - 200 + 1) r) (fun h8 => ?_)
  refine ite_elim P (fun h9 => by dsimp only [P]; exact decodeInt_length (c - 207 + 1) r) (fun h9 => ?_)
  refine ite_elim P (fun h10 => Nat.le_refl _) (fun h10 => ?_)
  exact Nat.le_refl _

theorem scanChar_length (st c r) : (scanChar st c r).2.2.length ≤ r.length := by
  let P : Option Tok × TkSt × List Nat → Prop := fun x => x.2.2.length ≤ r.length
  show P (scanChar st c r)
  unfold scanChar
  refine ite_elim P (fun h0 => Nat.le_refl _) (fun h0 => ?_)
  refine ite_elim P (fun h1 => dropWhile_length _ _) (fun h1 => ?_)
  refine ite_elim P (fun h2 => readNumber_length_lt c r h2) (fun h2 => ?_)
  refine ite_elim P (fun h3 => readString_length _ _) (fun h3 => ?_)
  refine ite_elim P (fun h4 => Nat.le_refl _) (fun h4 => ?_)
  refine ite_elim P (fun h5 => Nat.le_refl _) (fun h5 => ?_)
  refine ite_elim P (fun h6 => ?_) (fun h6 => ?_)
  · have : isReqChar c = true := by
      simp [isSpace] at h0; simp [isReqChar]; omega
    show (readRequest (c :: r)).2.length ≤ r.length
    simp only [readRequest, List.dropWhile_cons, this, if_true]
    exact dropWhile_length _ _
  exact scanBin_length _ _ _

theorem scanBody_mono {rec rec' : TkSt → List Nat → Option (Tok × TkSt × List Nat)}
    (hr : ∀ st l x, rec st l = some x → rec' st l = some x) (st l x)
    (h : scanBody rec st l = some x) : scanBody rec' st l = some x := by
  unfold scanBody at h ⊢
  split at h
  · rename_i ha
    rw [if_pos ha]; exact h
  · rename_i ha
    rw [if_neg ha]
    cases l with
    | nil => exact h
    | cons c r =>
      dsimp only at h ⊢
      split at h
      · rename_i hc
        rw [if_pos hc]
        cases hs : rec st (getc r).2 with
        | none => rw [hs] at h; simp at h
        | some y =>
          rw [hr _ _ _ hs]
          rw [hs] at h
          obtain ⟨t, st', r'⟩ := y
          cases t <;> try exact h
          dsimp only at h ⊢
          split
          · rename_i hn; rw [if_pos hn] at h; exact h
          · rename_i hn; rw [if_neg hn] at h; exact hr _ _ _ h
      · rename_i hc0
        rw [if_neg hc0]
        split at h
        · rename_i hc
          rw [if_pos hc]
          cases hs : rec st (decodeInt (c - 205 + 1) r).2 with
          | none => rw [hs] at h; simp at h
          | some y =>
            rw [hr _ _ _ hs]
            rw [hs] at h
            obtain ⟨t, st', r'⟩ := y
            cases t <;> try exact h
            exact hr _ _ _ h
        · rename_i hc
          rw [if_neg hc]
          rcases hsc : scanChar st c r with ⟨o, st', r'⟩
          rw [hsc] at h
          cases o with
          | none => exact hr _ _ _ h
          | some t => exact h

theorem scanNext_mono (f st l x) (h : scanNext f st l = some x) : scanNext (f + 1) st l = some x := by
  induction f generalizing st l x with
  | zero => simp [scanNext] at h
  | succ f ih => exact scanBody_mono ih st l x h

theorem scanNext_mono_le {f g st l x} (hfg : f ≤ g) (h : scanNext f st l = some x) :
    scanNext g st l = some x := by
  induction hfg with
  | refl => exact h
  | step _ ih => exact scanNext_mono _ _ _ _ ih

/-- `scanNext` terminates: more rounds than bytes always suffice; it never un-reads more than it
read; and outside a float array it consumes at least one byte if there is one. -/
theorem scanNext_total (f st l) (h : l.length < f) :
    ∃ x, scanNext f st l = some x ∧ x.2.2.length ≤ l.length ∧
      (st.arr < 0 → l ≠ [] → x.2.2.length < l.length) := by
  induction f generalizing st l with
  | zero => omega
  | succ f ih =>
    rw [scanNext]
    unfold scanBody
    split
    · rename_i ha
      split
      · exact ⟨_, rfl, Nat.le_refl _, fun h => by omega⟩
      · exact ⟨_, rfl, decodeInt_length _ _, fun h => by omega⟩
    · split
      · exact ⟨_, rfl, Nat.le_refl _, fun _ h => absurd rfl h⟩
      · rename_i c r
        split
        have h1 := getc_length r
        simp only [List.length_cons] at h ⊢
        obtain ⟨⟨t, st', r'⟩, hx, hl, _⟩ := ih st (getc r).2 (by omega)
        dsimp only at hl ⊢
        rw [hx]
        cases t <;> try exact ⟨_, rfl, by dsimp only; omega, fun _ _ => by dsimp only; omega⟩
        rename_i s _
        dsimp only
        split
        · exact ⟨_, rfl, by dsimp only; omega, fun _ _ => by dsimp only; omega⟩
        · obtain ⟨y, hy, hyl, _⟩ := ih { st' with reqs := update st'.reqs (getc r).1 s } r' (by omega)
          exact ⟨y, hy, by omega, fun _ _ => by omega⟩
        simp only [List.length_cons] at h ⊢
        split
        · have h1 := decodeInt_length (c - 205 + 1) r
          obtain ⟨⟨t, st', r'⟩, hx, hl, _⟩ := ih st (decodeInt (c - 205 + 1) r).2 (by omega)
          dsimp only at hl ⊢
          rw [hx]
          cases t <;> try exact ⟨_, rfl, by dsimp only; omega, fun _ _ => by dsimp only; omega⟩
          rename_i s _
          dsimp only
          obtain ⟨y, hy, hyl, _⟩ := ih { st' with strs := update st'.strs (decodeInt (c - 205 + 1) r).1 (some s) } r' (by omega)
          exact ⟨y, hy, by omega, fun _ _ => by omega⟩
        · have h1 := scanChar_length st c r
          rcases hsc : scanChar st c r with ⟨o, st', r'⟩
          rw [hsc] at h1
          dsimp only at h1
          cases o with
          | some t => exact ⟨_, rfl, by dsimp only; omega, fun _ _ => by dsimp only; omega⟩
          | none =>
            obtain ⟨y, hy, hyl, _⟩ := ih st' r' (by omega)
            exact ⟨y, hy, by omega, fun _ _ => by omega⟩

theorem scanNext_eq {f st l} (h : l.length < f) : scanNext f st l = some (scan st l) := by
  obtain ⟨x, hx, _⟩ := scanNext_total (l.length + 1) st l (by omega)
  rw [scan, hx, Option.getD_some]
  exact scanNext_mono_le (by omega) hx

theorem scan_length (st l) : (scan st l).2.2.length ≤ l.length := by
  obtain ⟨x, hx, hl, _⟩ := scanNext_total (l.length + 1) st l (by omega)
  rw [scan, hx]; exact hl

theorem scan_length_lt (st l) (ha : st.arr < 0) (hne : l ≠ []) : (scan st l).2.2.length < l.length := by
  obtain ⟨x, hx, _, hl⟩ := scanNext_total (l.length + 1) st l (by omega)
  rw [scan, hx]; exact hl ha hne

/-! Equations for `scan`. -/

theorem scan_array (st l) (ha : 0 ≤ st.arr) :
    scan st l = if st.arr - 1 < 0 then (.arrayEnd, { st with arr := st.arr - 1 }, l)
      else (.float (.bits32 (decodeInt 4 l).1), { st with arr := st.arr - 1 }, (decodeInt 4 l).2) := by
  rw [scan, scanNext]
  unfold scanBody
  rw [if_pos ha]
  split <;> rfl

theorem scan_nil (st) (ha : st.arr < 0) : scan st [] = (.eof, st, []) := by
  rw [scan, scanNext, scanBody, if_neg (by omega)]; rfl

theorem scan_char {st c r t st' r'} (ha : st.arr < 0) (h1 : c ≠ 204) (h2 : c ≠ 205) (h3 : c ≠ 206)
    (h : scanChar st c r = (some t, st', r')) : scan st (c :: r) = (t, st', r') := by
  rw [scan, scanNext, scanBody, if_neg (by omega)]
  dsimp only
  rw [if_neg h1, if_neg (by omega), h]; rfl

theorem scan_skip {st c r st' r'} (ha : st.arr < 0) (h1 : c ≠ 204) (h2 : c ≠ 205) (h3 : c ≠ 206)
    (h : scanChar st c r = (none, st', r')) : scan st (c :: r) = scan st' r' := by
  have hl := scanChar_length st c r
  rw [h] at hl
  rw [scan, scanNext, scanBody, if_neg (by omega)]
  dsimp only
  rw [if_neg h1, if_neg (by omega), h]
  dsimp only
  rw [scanNext_eq (by simp only [List.length_cons]; dsimp only at hl; omega)]; rfl

theorem scan_space {st c r} (ha : st.arr < 0) (h : isSpace c = true) : scan st (c :: r) = scan st r := by
  have : c ≠ 204 ∧ c ≠ 205 ∧ c ≠ 206 := by simp [isSpace] at h; omega
  exact scan_skip ha this.1 this.2.1 this.2.2 (by simp [scanChar, h])

theorem scan_defReq {st k r s st' r'} (ha : st.arr < 0) (h : scan st r = (.str s, st', r')) (hs : s ≠ []) :
    scan st (204 :: k :: r) = scan { st' with reqs := update st'.reqs k s } r' := by
  have hl := scan_length st r
  rw [h] at hl; dsimp only at hl
  rw [scan, scanNext, scanBody, if_neg (by omega)]
  simp only [getc, List.length_cons, if_true]
  rw [scanNext_eq (by omega), h]
  simp only [hs, if_false]
  rw [scanNext_eq (by omega)]; rfl

theorem scan_defStr {st c r s st' r'} (hc : c = 205 ∨ c = 206) (ha : st.arr < 0)
    (h : scan st (decodeInt (c - 205 + 1) r).2 = (.str s, st', r')) :
    scan st (c :: r) =
      scan { st' with strs := update st'.strs (decodeInt (c - 205 + 1) r).1 (some s) } r' := by
  have hl := scan_length st (decodeInt (c - 205 + 1) r).2
  have hl2 := decodeInt_length (c - 205 + 1) r
  rw [h] at hl; dsimp only at hl
  rw [scan, scanNext, scanBody, if_neg (by omega)]
  dsimp only
  rw [if_neg (by omega), if_pos hc]
  rw [scanNext_eq (by simp only [List.length_cons]; omega), h]
  dsimp only
  rw [scanNext_eq (by simp only [List.length_cons]; omega)]; rfl

theorem scanBin_arr (st c r) (ha : st.arr < 0) :
    (scanBin st c r).2.1.arr < 0 ∨ (scanBin st c r).1 = .arrayBegin := by
  let P : Tok × TkSt × List Nat → Prop := fun x => x.2.1.arr < 0 ∨ x.1 = .arrayBegin
  show P (scanBin st c r)
  unfold scanBin
  refine ite_elim P (fun h0 => .inl ha) (fun h0 => ?_)
  refine ite_elim P (fun h1 => .inl ha) (fun h1 => ?_)
  refine ite_elim P (fun h2 => .inl ha) (fun h2 => ?_)
  refine ite_elim P (fun h3 => .inl ha) (fun h3 => ?_)
  refine ite_elim P (fun h4 => .inl ha) (fun h4 => ?_)
  refine ite_elim P (fun h5 => .inl ha) (fun h5 => ?_)
  refine ite_elim P (fun h6 => .inl ha) (fun h6 => ?_)
  refine ite_elim P (fun h7 => .inl ha) (fun h7 => ?_)
  refine ite_elim P (fun h8 => .inr rfl) (fun h8 => ?_)
  refine ite_elim P (fun h9 => .inl ha) (fun h9 => ?_)
  refine ite_elim P (fun h10 => .inl ha) (fun h10 => ?_)
  exact .inl ha

theorem scanChar_arr (st c r) (ha : st.arr < 0) :
    (scanChar st c r).2.1.arr < 0 ∨ (scanChar st c r).1 = some .arrayBegin := by
  let P : Option Tok × TkSt × List Nat → Prop := fun x => x.2.1.arr < 0 ∨ x.1 = some .arrayBegin
  show P (scanChar st c r)
  unfold scanChar
  refine ite_elim P (fun h0 => .inl ha) (fun h0 => ?_)
  refine ite_elim P (fun h1 => .inl ha) (fun h1 => ?_)
  refine ite_elim P (fun h2 => .inl ha) (fun h2 => ?_)
  refine ite_elim P (fun h3 => .inl ha) (fun h3 => ?_)
  refine ite_elim P (fun h4 => .inl ha) (fun h4 => ?_)
  refine ite_elim P (fun h5 => .inl ha) (fun h5 => ?_)
  refine ite_elim P (fun h6 => .inl ha) (fun h6 => ?_)
  exact (scanBin_arr st c r ha).imp id (congrArg some)

/-- A token other than `[` leaves the tokenizer outside any float array (if it was outside). -/
theorem scanNext_arr (f st l x) (ha : st.arr < 0) (h : scanNext f st l = some x) :
    x.2.1.arr < 0 ∨ x.1 = .arrayBegin ∨ x.1 = .err .expectedStringReq ∨ x.1 = .err .expectedStringStr := by
  induction f generalizing st l x with
  | zero => simp [scanNext] at h
  | succ f ih =>
    rw [scanNext] at h
    unfold scanBody at h
    rw [if_neg (by omega)] at h
    split at h
    · injection h with h; subst h; exact .inl ha
    rename_i c r
    split at h
    · dsimp only at h
      cases hs : scanNext f st (getc r).2 with
      | none => rw [hs] at h; simp at h
      | some y =>
        rw [hs] at h
        have hy := ih _ _ _ ha hs
        obtain ⟨t, st', r'⟩ := y
        cases t <;> try (injection h with h; subst h; simp_all; done)
        simp only [reduceCtorEq, or_false] at hy
        dsimp only at h
        split at h
        · injection h with h; subst h; exact .inl hy
        · exact ih _ _ _ (by exact hy) h
    · split at h
      · dsimp only at h
        cases hs : scanNext f st (decodeInt (c - 205 + 1) r).2 with
        | none => rw [hs] at h; simp at h
        | some y =>
          rw [hs] at h
          have hy := ih _ _ _ ha hs
          obtain ⟨t, st', r'⟩ := y
          cases t <;> try (injection h with h; subst h; simp_all; done)
          simp only [reduceCtorEq, or_false] at hy
          dsimp only at h
          exact ih _ _ _ (by exact hy) h
      · have hsa := scanChar_arr st c r ha
        rcases hsc : scanChar st c r with ⟨o, st', r'⟩
        rw [hsc] at h hsa
        cases o with
        | some t =>
          injection h with h; subst h
          rcases hsa with h1 | h1
          · exact .inl h1
          · simp only [Option.some.injEq] at h1; exact .inr (.inl h1)
        | none => simp at hsa; exact ih _ _ _ hsa h

/-- The claim made in the comment of `scanNext`: a string token leaves
`m_arrayElementsRemaining < 0`. -/
theorem scanNext_str_arr (f st l s st' r') (ha : st.arr < 0)
    (h : scanNext f st l = some (.str s, st', r')) : st'.arr < 0 := by
  have := scanNext_arr f st l _ ha h
  simpa using this

end Verif.Rib
