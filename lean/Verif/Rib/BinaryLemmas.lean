import Verif.Rib.TokenizerLemmas
import Verif.Rib.BinaryWriter

namespace Verif.Rib

/-- Reading the tokens `ts` from state `st` and input `l` ends in `st'`, `l'`. -/
inductive Reads : TkSt → List Nat → List Tok → TkSt → List Nat → Prop
  | nil (st l) : Reads st l [] st l
  | cons {st l t st' l' ts st'' l''} : scan st l = (t, st', l') → Reads st' l' ts st'' l'' →
      Reads st l (t :: ts) st'' l''

theorem Reads.append {st l ts st' l' ts' st'' l''} (h : Reads st l ts st' l')
    (h' : Reads st' l' ts' st'' l'') : Reads st l (ts ++ ts') st'' l'' := by
  induction h with
  | nil => exact h'
  | cons hs _ ih => exact .cons hs (ih h')

theorem Reads.one {st l t st' l'} (h : scan st l = (t, st', l')) : Reads st l [t] st' l' :=
  .cons h (.nil _ _)

theorem encodeInt32_spec (i base : Nat) (hi : i < 2 ^ 32) :
    ∃ h bs, h ≤ 3 ∧ encodeInt32 i base = (base + h) :: bs ∧
      ∀ r, decodeInt (h + 1) (bs ++ r) = (i, r) := by
  obtain ⟨a, b, c, d, hu⟩ : ∃ a b c d, unpack i = (a, b, c, d) := ⟨_, _, _, _, rfl⟩
  have ⟨h1, h2, h3, h4⟩ : i / 2 ^ 24 % 256 = a ∧ i / 2 ^ 16 % 256 = b ∧ i / 2 ^ 8 % 256 = c ∧ i % 256 = d := by
    simpa [unpack] using hu
  simp only [encodeInt32, hu]
  have hh : highestByteNonzero (a, b, c, d) = if a ≠ 0 then 3 else if b ≠ 0 then 2 else if c ≠ 0 then 1 else 0 := rfl
  rw [hh]
  by_cases ha : a ≠ 0
  · rw [if_pos ha]
    exact ⟨3, _, by omega, rfl, fun r => by simp [decodeInt, getc]; omega⟩
  rw [if_neg ha]
  by_cases hb : b ≠ 0
  · rw [if_pos hb]
    exact ⟨2, _, by omega, rfl, fun r => by simp [decodeInt, getc]; omega⟩
  rw [if_neg hb]
  by_cases hc : c ≠ 0
  · rw [if_pos hc]
    exact ⟨1, _, by omega, rfl, fun r => by simp [decodeInt, getc]; omega⟩
  rw [if_neg hc]
  exact ⟨0, _, by omega, rfl, fun r => by simp [decodeInt, getc]; omega⟩

theorem rawFloat_spec (b : Nat) (hb : b < 2 ^ 32) (r) : decodeInt 4 (rawFloat b ++ r) = (b, r) := by
  simp [rawFloat, unpack, decodeInt, getc]; omega

theorem takeBytes_append (s r : List Nat) : takeBytes s.length (s ++ r) = (s, r) := by
  induction s with
  | nil => rfl
  | cons c s ih => simp [takeBytes, getc, ih]

theorem decodeString_append (s r : List Nat) (h : s.length < 2 ^ 31) :
    decodeString s.length (s ++ r) = (s, r) := by
  rw [decodeString, toInt32, if_pos h, Int.toNat_natCast, takeBytes_append]

theorem toInt32_toU32 (i : Int) (h1 : -2 ^ 31 ≤ i) (h2 : i < 2 ^ 31) : toInt32 (toU32 i) = i := by
  have hu : toU32 i = (i % 2 ^ 32).toNat := rfl
  generalize toU32 i = u at hu
  rw [toInt32]
  by_cases h : u < 2 ^ 31
  · rw [if_pos h]; omega
  · rw [if_neg h]; omega

theorem toU32_lt (i : Int) : toU32 i < 2 ^ 32 := by simp only [toU32]; omega

/-- Characters of the binary range go to `scanBin`. -/
theorem scan_bin {st c r} (ha : st.arr < 0) (hc : 128 ≤ c) (h1 : c ≠ 204) (h2 : c ≠ 205) (h3 : c ≠ 206) :
    scan st (c :: r) = scanBin st c r := by
  have e1 : isSpace c = false := by simp [isSpace]; omega
  have e2 : isNumStart c = false := by simp [isNumStart, isDigit]; omega
  have h : scanChar st c r = (some (scanBin st c r).1, (scanBin st c r).2.1, (scanBin st c r).2.2) := by
    rw [scanChar, if_neg (by simp [e1]), if_neg (by omega), if_neg (by simp [e2]), if_neg (by omega),
      if_neg (by omega), if_neg (by omega), if_neg (by omega)]
  exact scan_char ha h1 h2 h3 h

theorem scan_binInt {st} (ha : st.arr < 0) (i : Int) (h1 : -2 ^ 31 ≤ i) (h2 : i < 2 ^ 31) (r) :
    scan st (binInt i ++ r) = (.int i, st, r) := by
  obtain ⟨h, bs, hh, he, hd⟩ := encodeInt32_spec (toU32 i) 128 (toU32_lt i)
  rw [binInt, he, List.cons_append, scan_bin ha (by omega) (by omega) (by omega) (by omega)]
  rw [scanBin, if_pos (by omega)]
  simp only [show 128 + h - 128 + 1 = h + 1 by omega, hd, toInt32_toU32 i h1 h2]

theorem scan_binFloat {st} (ha : st.arr < 0) (b : Nat) (h : b < 2 ^ 32) (r) :
    scan st (binFloat b ++ r) = (.float (.bits32 b), st, r) := by
  rw [binFloat, List.cons_append, scan_bin ha (by omega) (by omega) (by omega) (by omega)]
  rw [scanBin, if_neg (by omega), if_neg (by omega), if_neg (by omega), if_neg (by omega), if_pos rfl]
  simp only [rawFloat_spec b h]

theorem scan_binStr {st} (ha : st.arr < 0) (s : List Nat) (h : s.length < 2 ^ 31) (r) :
    scan st (binStr s ++ r) = (.str s, st, r) := by
  have hm : s.length % 2 ^ 32 = s.length := Nat.mod_eq_of_lt (by omega)
  simp only [binStr, hm, List.take_length]
  split
  · rw [List.cons_append, scan_bin ha (by omega) (by omega) (by omega) (by omega)]
    rw [scanBin, if_neg (by omega), if_neg (by omega), if_pos (by omega)]
    rw [show 144 + s.length - 144 = s.length by omega, decodeString_append s r h]
  · obtain ⟨k, bs, hh, he, hd⟩ := encodeInt32_spec s.length 160 (by omega)
    rw [he, List.append_assoc, List.cons_append, scan_bin ha (by omega) (by omega) (by omega) (by omega)]
    rw [scanBin, if_neg (by omega), if_neg (by omega), if_neg (by omega), if_pos (by omega)]
    simp only [show 160 + k - 160 + 1 = k + 1 by omega, hd, decodeString_append s r h]

/-- Spec: what is legal to write. -/
def WArg.Ok : WArg → Prop
  | .int i => -2 ^ 31 ≤ i ∧ i < 2 ^ 31
  | .float b => b < 2 ^ 32
  | .str s => s.length < 2 ^ 31
  | .ints a => ∀ i ∈ a, -2 ^ 31 ≤ i ∧ i < 2 ^ 31
  | .floats a => a.length < 2 ^ 31 ∧ ∀ b ∈ a, b < 2 ^ 32
  | .strs a => ∀ s ∈ a, s.length < 2 ^ 31

/-- Spec: the tokens an argument stands for. -/
def WArg.tokens : WArg → List Tok
  | .int i => [.int i]
  | .float b => [.float (.bits32 b)]
  | .str s => [.str s]
  | .ints a => .arrayBegin :: (a.map .int ++ [.arrayEnd])
  | .floats a => .arrayBegin :: (a.map (fun b => .float (.bits32 b)) ++ [.arrayEnd])
  | .strs a => .arrayBegin :: (a.map .str ++ [.arrayEnd])

def WOp.Ok : WOp → Prop
  | .request name args => name ≠ [] ∧ name.length < 2 ^ 31 ∧ ∀ a ∈ args, a.Ok
  | .comment t => ∀ c ∈ t, c ≠ 10 ∧ c ≠ 13 ∧ c ≠ 255

def WOp.tokens : WOp → List Tok
  | .request name args => .req name :: args.flatMap WArg.tokens
  | .comment _ => []

theorem scan_bracket {st} (ha : st.arr < 0) (r) : scan st (91 :: r) = (.arrayBegin, st, r) ∧
    scan st (93 :: r) = (.arrayEnd, st, r) :=
  ⟨scan_char ha (by omega) (by omega) (by omega) rfl, scan_char ha (by omega) (by omega) (by omega) rfl⟩

theorem reads_list {α} {st : TkSt} (f : α → List Nat) (t : α → Tok) (a : List α)
    (h : ∀ x ∈ a, ∀ r, scan st (f x ++ r) = (t x, st, r)) (r) :
    Reads st (a.flatMap f ++ r) (a.map t) st r := by
  induction a with
  | nil => exact .nil _ _
  | cons x a ih =>
    simp only [List.flatMap_cons, List.map_cons, List.append_assoc]
    exact .cons (h x (by simp) _) (ih fun y hy => h y (by simp [hy]))

theorem reads_floats (st : TkSt) (a : List Nat) (hlen : st.arr = a.length) (h : ∀ b ∈ a, b < 2 ^ 32) (r) :
    Reads st (a.flatMap rawFloat ++ r) (a.map (fun b => .float (.bits32 b)) ++ [.arrayEnd])
      { st with arr := -1 } r := by
  induction a generalizing st with
  | nil =>
    simp only [List.length_nil] at hlen
    refine .one ?_
    rw [scan_array _ _ (by omega), if_pos (by omega), hlen]; rfl
  | cons b a ih =>
    simp only [List.length_cons] at hlen
    simp only [List.flatMap_cons, List.map_cons, List.append_assoc, List.cons_append]
    refine .cons (st' := { st with arr := a.length }) (l' := a.flatMap rawFloat ++ r) ?_ ?_
    · rw [scan_array _ _ (by omega), if_neg (by omega), rawFloat_spec b (h b (by simp)), hlen]
      simp
    · exact ih { st with arr := a.length } rfl (fun x hx => h x (by simp [hx]))

theorem arr_eq {st : TkSt} (h : st.arr = -1) : { st with arr := -1 } = st := by
  cases st; simp_all

theorem reads_arg {st : TkSt} (ha : st.arr = -1) (a : WArg) (h : a.Ok) (r) :
    Reads st (binArg a ++ r) a.tokens st r := by
  have ha' : st.arr < 0 := by omega
  cases a with
  | int i => exact .one (scan_binInt ha' i h.1 h.2 r)
  | float b => exact .one (scan_binFloat ha' b h r)
  | str s => exact .one (scan_binStr ha' s h r)
  | ints a =>
    simp only [binArg, WArg.tokens, List.cons_append, List.append_assoc]
    exact .cons (scan_bracket ha' _).1
      ((reads_list binInt .int a (fun i hi r => scan_binInt ha' i (h i hi).1 (h i hi).2 r) _).append
        (.one (scan_bracket ha' _).2))
  | strs a =>
    simp only [binArg, WArg.tokens, List.cons_append, List.append_assoc]
    exact .cons (scan_bracket ha' _).1
      ((reads_list binStr .str a (fun s hs r => scan_binStr ha' s (h s hs) r) _).append
        (.one (scan_bracket ha' _).2))
  | floats a =>
    have hl : a.length % 2 ^ 32 = a.length := Nat.mod_eq_of_lt (by have := h.1; omega)
    have hl2 := h.1
    obtain ⟨k, bs, hh, he, hd⟩ := encodeInt32_spec a.length 200 (by omega)
    simp only [binArg, WArg.tokens, hl, he, List.cons_append, List.append_assoc]
    refine .cons (st' := { st with arr := a.length }) (l' := a.flatMap rawFloat ++ r) ?_ ?_
    · rw [scan_bin ha' (by omega) (by omega) (by omega) (by omega)]
      rw [scanBin, if_neg (by omega), if_neg (by omega), if_neg (by omega), if_neg (by omega),
        if_neg (by omega), if_neg (by omega), if_neg (by omega), if_neg (by omega), if_pos (by omega)]
      simp only [show 200 + k - 200 + 1 = k + 1 by omega, hd, toInt32, if_pos hl2]
    · have := reads_floats { st with arr := a.length } a rfl h.2 r
      simpa [arr_eq ha] using this

theorem reads_args {st : TkSt} (ha : st.arr = -1) (as : List WArg) (h : ∀ a ∈ as, a.Ok) (r) :
    Reads st (as.flatMap binArg ++ r) (as.flatMap WArg.tokens) st r := by
  induction as with
  | nil => exact .nil _ _
  | cons a as ih =>
    simp only [List.flatMap_cons, List.append_assoc]
    exact (reads_arg ha a (h a (by simp)) _).append (ih fun x hx => h x (by simp [hx]))

/-- The decoder knows every name the writer has given a code. -/
structure Agree (w : BinW) (st : TkSt) : Prop where
  arr : st.arr = -1
  lt : w.next < 256
  known : ∀ n k, w.codes.lookup n = some k → n ≠ [] ∧ st.reqs k = n ∧ k < w.next

theorem agree_init : Agree .init .init := ⟨rfl, by simp [BinW.init], by simp [BinW.init]⟩

theorem scan_lookup {st : TkSt} (ha : st.arr < 0) (k r) (h : st.reqs k ≠ []) :
    scan st (166 :: k :: r) = (.req (st.reqs k), st, r) := by
  rw [scan_bin ha (by omega) (by omega) (by omega) (by omega)]
  simp [scanBin, getc, h]

theorem scan_comment {st : TkSt} (ha : st.arr < 0) (t r : List Nat)
    (h : ∀ c ∈ t, c ≠ 10 ∧ c ≠ 13 ∧ c ≠ 255) : scan st (35 :: (t ++ 10 :: r)) = scan st r := by
  rw [scan_skip (st' := st) (r' := 10 :: r) ha (by omega) (by omega) (by omega), scan_space ha rfl]
  simp only [scanChar, readComment, show isSpace 35 = false from rfl, Bool.false_eq_true, if_false, if_true]
  congr 2
  induction t with
  | nil => simp
  | cons c t ih =>
    have hc := h c (by simp)
    rw [List.cons_append, List.dropWhile_cons_of_pos (by simp [hc]), ih fun x hx => h x (by simp [hx])]

/-- Reading may skip comments first; `Reads` up to a prefix that produces no token. -/
theorem Reads.skip {st l l' ts st'' l''} (h : scan st l = scan st l') (hne : ts ≠ [])
    (hr : Reads st l' ts st'' l'') : Reads st l ts st'' l'' := by
  cases hr with
  | nil => exact absurd rfl hne
  | cons hs hr => exact .cons (h.trans hs) hr

theorem reads_ops (ops : List WOp) : ∀ (w : BinW) (st : TkSt) (out : List Nat) (w' : BinW),
    Agree w st → (∀ o ∈ ops, o.Ok) → w.ops ops = some (out, w') →
    ∃ st', Reads st out (ops.flatMap WOp.tokens ++ [.eof]) st' [] := by
  induction ops with
  | nil =>
    intro w st out w' ha _ h
    simp only [BinW.ops, Option.some.injEq, Prod.mk.injEq] at h
    obtain ⟨rfl, rfl⟩ := h
    exact ⟨st, .one (scan_nil st (by have := ha.arr; omega))⟩
  | cons o ops ih =>
    intro w st out w' ha hok h
    have hneg : st.arr < 0 := by have := ha.arr; omega
    rw [BinW.ops] at h
    cases ho : w.op o with
    | none => rw [ho] at h; simp at h
    | some x =>
      obtain ⟨b, w1⟩ := x
      rw [ho] at h
      dsimp only at h
      cases hrest : w1.ops ops with
      | none => rw [hrest] at h; simp at h
      | some y =>
        obtain ⟨b', w2⟩ := y
        rw [hrest] at h
        simp only [Option.some.injEq, Prod.mk.injEq] at h
        obtain ⟨rfl, rfl⟩ := h
        have hok1 : o.Ok := hok o (by simp)
        have hok2 : ∀ o ∈ ops, o.Ok := fun x hx => hok x (by simp [hx])
        cases o with
        | comment t =>
          simp only [BinW.op, Option.some.injEq, Prod.mk.injEq] at ho
          obtain ⟨rfl, rfl⟩ := ho
          obtain ⟨st', hr⟩ := ih w st b' w2 ha hok2 hrest
          refine ⟨st', ?_⟩
          simp only [List.flatMap_cons, WOp.tokens, List.nil_append]
          refine Reads.skip ?_ (by simp) hr
          simpa using scan_comment hneg t b' hok1
        | request name args =>
          obtain ⟨hn, hnl, hargs⟩ := hok1
          simp only [BinW.op] at ho
          simp only [List.flatMap_cons, WOp.tokens, List.append_assoc]
          cases hl : w.codes.lookup name with
          | some k =>
            simp only [BinW.beginRequest, hl, Option.some.injEq, Prod.mk.injEq] at ho
            obtain ⟨rfl, rfl⟩ := ho
            obtain ⟨st', hr⟩ := ih w st b' w2 ha hok2 hrest
            obtain ⟨_, hreq, _⟩ := ha.known name k hl
            refine ⟨st', ?_⟩
            simp only [List.cons_append, List.nil_append]
            refine .cons (l' := args.flatMap binArg ++ b') (st' := st) ?_ ?_
            · rw [scan_lookup hneg _ _ (by rw [hreq]; exact hn), hreq]
            · exact (reads_args ha.arr args hargs _).append hr
          | none =>
            simp only [BinW.beginRequest, hl] at ho
            by_cases hw : (w.next + 1) % 256 = 0
            · simp [hw] at ho
            · simp only [hw, if_false, Option.some.injEq, Prod.mk.injEq] at ho
              obtain ⟨rfl, rfl⟩ := ho
              have hag : Agree ⟨(name, w.next) :: w.codes, (w.next + 1) % 256⟩
                  { st with reqs := update st.reqs w.next name } := by
                have hlt := ha.lt
                refine ⟨ha.arr, by dsimp only; omega, fun n k hnk => ?_⟩
                dsimp only at hnk ⊢
                rw [Nat.mod_eq_of_lt (show w.next + 1 < 256 by omega)]
                rw [List.lookup_cons] at hnk
                by_cases hnn : n = name
                · subst hnn
                  simp at hnk
                  subst hnk
                  exact ⟨hn, by simp [update], by omega⟩
                · rw [beq_false_of_ne hnn] at hnk
                  obtain ⟨h1, h2, h3⟩ := ha.known n k hnk
                  refine ⟨h1, ?_, by omega⟩
                  rw [update, if_neg (by omega), h2]
              obtain ⟨st', hr⟩ := ih _ _ b' w2 hag hok2 hrest
              refine ⟨st', ?_⟩
              simp only [List.cons_append, List.nil_append, List.append_assoc]
              refine .cons (l' := args.flatMap binArg ++ b')
                (st' := { st with reqs := update st.reqs w.next name }) ?_ ?_
              · rw [scan_defReq hneg (scan_binStr hneg name hnl _) hn]
                rw [scan_lookup (by exact hneg) _ _ (by simp [update, hn])]
                simp [update]
              · exact (reads_args hag.arr args hargs _).append hr

end Verif.Rib
