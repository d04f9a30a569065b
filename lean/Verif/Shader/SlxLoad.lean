import Verif.Shader.SlxLemmas

/-!
# Compiled shaders: loading instructions
-/

set_option linter.unusedSectionVars false

namespace Verif.Shader.Slx

variable {F : Type}

/-! ## Variables -/

theorem getVar_local {i : Nat} (h : i < 0x8000) : getVar i = (false, i) := by
  have h1 : i.testBit 15 = false := Nat.testBit_lt_two_pow h
  have h2 : i &&& 0x8000 = 0 := by
    apply Nat.eq_of_testBit_eq
    intro k
    have e2 : (0x8000 : Nat) = 2 ^ 15 := rfl
    rw [e2]
    simp only [Nat.testBit_and, Nat.testBit_two_pow, Nat.zero_testBit]
    by_cases hk : 15 = k
    · subst hk; simp [h1]
    · simp [hk]
  rw [getVar, h2]
  rfl

theorem getVar_std {i : Nat} (h : i < 0x8000) : getVar (i ||| 0x8000) = (true, i) := by
  have h1 : (i ||| 0x8000) &&& 0x8000 = 0x8000 := by
    apply Nat.eq_of_testBit_eq
    intro k
    simp only [Nat.testBit_and, Nat.testBit_or]
    cases i.testBit k <;> cases Nat.testBit 0x8000 k <;> rfl
  have h2 : (i ||| 0x8000) &&& 0x7FFF = i := by
    apply Nat.eq_of_testBit_eq
    intro k
    have e1 : (0x7FFF : Nat) = 2 ^ 15 - 1 := rfl
    have e2 : (0x8000 : Nat) = 2 ^ 15 := rfl
    rw [e1, e2]
    simp only [Nat.testBit_and, Nat.testBit_or, Nat.testBit_two_pow_sub_one, Nat.testBit_two_pow]
    by_cases hk : k < 15
    · have : ¬ (15 = k) := by omega
      simp [hk, this]
    · have : i.testBit k = false :=
        Nat.testBit_lt_two_pow (Nat.lt_of_lt_of_le h
          (show 2 ^ 15 ≤ 2 ^ k from Nat.pow_le_pow_right (by decide) (by omega)))
      simp [hk, this]
  rw [getVar, h1, h2]
  rfl

theorem cached_some {n : Nat} {p : Nat → Bool} {i j : Nat} (h : cached n p i = some j) : p j = true :=
  List.find?_some h

theorem cached_ex {n : Nat} {p : Nat → Bool} (i : Nat) {j : Nat} (hj : j < n) (hp : p j = true) :
    ∃ k, cached n p i = some k ∧ p k = true := by
  cases h : cached n p i with
  | some k => exact ⟨k, rfl, cached_some h⟩
  | none =>
    unfold cached at h
    rw [List.find?_eq_none] at h
    refine absurd hp (h j ?_)
    by_cases hi : j < i
    · simp [hi]
    · simp only [List.mem_append, List.mem_range'_1]
      left; omega

theorem cached_none {n : Nat} {p : Nat → Bool} {i j : Nat} (h : cached n p i = none) (hj : j < n) :
    p j = false := by
  cases hp : p j with
  | false => rfl
  | true =>
    obtain ⟨k, hk, _⟩ := cached_ex i hj hp
    rw [h] at hk; cases hk

theorem isAt_true {L : Lib F} {l : List Str} {x : Str} {j : Nat} (h : L.isAt l x j = true) :
    ∃ y, l[j]? = some y ∧ L.hash y = L.hash x := by
  unfold Lib.isAt at h
  cases hl : l[j]? with
  | none => rw [hl] at h; cases h
  | some y =>
    rw [hl] at h
    exact ⟨y, rfl, by simpa [Lib.same] using h⟩

theorem isAt_of {L : Lib F} {l : List Str} {x : Str} {j : Nat} (h : l[j]? = some x) :
    L.isAt l x j = true := by
  unfold Lib.isAt
  rw [h]
  simp [Lib.same]

theorem lt_of_some {α : Type} {l : List α} {j : Nat} {x : α} (h : l[j]? = some x) : j < l.length := by
  rw [List.getElem?_eq_some_iff] at h
  exact h.1

/-- The names that can be used have different hashes, and there are not too many. -/
structure NamesOk (E : Env F) (names : List Str) : Prop where
  apart : ∀ a ∈ names ++ E.std, ∀ b ∈ names ++ E.std, E.L.hash a = E.L.hash b → a = b
  count : names.length ≤ 0x8000
  std : E.std.length ≤ 0x8000

/-- What is added for a name is the variable with that name. -/
theorem addVar_same {E : Env F} {names : List Str} (hn : NamesOk E names) {st : St F}
    (hv : st.vars.map (·.name) = names) {x : Str} (hx : x ∈ names ++ E.std) :
    ∃ j li si, addVar E x st = St.add { st with li := li, si := si } (.var j) ∧
      ∀ all t, Same E names all (.var x t) (.var j) := by
  have hlen : st.vars.length = names.length := by rw [← hv]; simp
  unfold addVar
  rw [hv, hlen]
  cases hc : cached names.length (E.L.isAt names x) st.li with
  | some i =>
    refine ⟨i, i, st.si, rfl, fun all t => ?_⟩
    obtain ⟨y, hy, hh⟩ := isAt_true (cached_some hc)
    have hi := lt_of_some hy
    have hyx : y = x := hn.apart y (List.mem_append_left _ (List.mem_of_getElem? hy)) x hx hh
    subst hyx
    exact .local (getVar_local (Nat.lt_of_lt_of_le hi hn.count)) hy
  | none =>
    have hnot : x ∉ names := by
      intro hm
      obtain ⟨j, hj⟩ := List.mem_iff_getElem?.mp hm
      have := cached_none hc (lt_of_some hj)
      rw [isAt_of hj] at this
      cases this
    have hstd : x ∈ E.std := by
      rcases List.mem_append.mp hx with h | h
      · exact absurd h hnot
      · exact h
    obtain ⟨j, hj⟩ := List.mem_iff_getElem?.mp hstd
    obtain ⟨k, hk, hkp⟩ := cached_ex (n := E.std.length) (p := E.L.isAt E.std x) st.si (lt_of_some hj)
      (isAt_of hj)
    obtain ⟨y, hy, hh⟩ := isAt_true hkp
    have hyx : y = x := hn.apart y (List.mem_append_right _ (List.mem_of_getElem? hy)) x hx hh
    subst hyx
    simp only [hk]
    refine ⟨k ||| 0x8000, st.li, k, rfl, fun all t => ?_⟩
    exact .standard hnot (getVar_std (Nat.lt_of_lt_of_le (lt_of_some hy) hn.std)) hy

/-! ## Parameters -/

/-- Several elements are added. -/
def St.addAll (st : St F) (ws : List (Elem F)) : St F :=
  match st.seg with
  | .init => { st with init := st.init ++ ws }
  | _ => { st with code := st.code ++ ws }

/-- Elements are added and searches for variables made. -/
def Ext (st : St F) (ws : List (Elem F)) (st' : St F) : Prop :=
  ∃ li si, st' = St.addAll { st with li := li, si := si } ws

theorem ext_nil (st : St F) : Ext st [] st := by
  refine ⟨st.li, st.si, ?_⟩
  unfold St.addAll
  cases st with
  | mk seg spec type uses vars li si init code labels =>
    cases seg <;> simp

theorem ext_cons {st st1 st2 : St F} {e : Elem F} {ws : List (Elem F)} (li si : Nat)
    (h1 : st1 = St.add { st with li := li, si := si } e) (h2 : Ext st1 ws st2) : Ext st (e :: ws) st2 := by
  obtain ⟨li', si', rfl⟩ := h2
  refine ⟨li', si', ?_⟩
  subst h1
  cases st with
  | mk seg spec type uses vars li si init code labels =>
    cases seg <;> simp [St.addAll, St.add]

theorem ext_add {st st2 : St F} {e : Elem F} {ws : List (Elem F)} (h2 : Ext (st.add e) ws st2) :
    Ext st (e :: ws) st2 := ext_cons st.li st.si rfl h2

theorem ext_vars {st st' : St F} {ws : List (Elem F)} (h : Ext st ws st') : st'.vars = st.vars := by
  obtain ⟨li, si, rfl⟩ := h
  unfold St.addAll
  cases st with
  | mk seg spec type uses vars li si init code labels => cases seg <;> rfl

theorem add_vars (st : St F) (e : Elem F) : (st.add e).vars = st.vars := by
  cases st with
  | mk seg spec type uses vars li si init code labels => cases seg <;> rfl

/-- The element for an argument before the labels are put in. -/
inductive Raw (E : Env F) (names : List Str) : Arg F → Elem F → Prop where
  | same {a e} : (∀ n, a ≠ .lab n) → (∀ all, Same E names all a e) → Raw E names a e
  | lab {n} : Raw E names (.lab n) (.num (E.L.ofNat n))

theorem writeArgs_space (L : Lib F) (as : List (Arg F)) (r : Str) :
    ∃ c u, writeArgs L as ++ r = c :: u ∧ space c = true := by
  cases as with
  | nil => exact ⟨_, _, rfl, by decide⟩
  | cons a as => exact ⟨_, _, rfl, by decide⟩

/-- The parameters of an instruction are read. -/
theorem params_ok {E : Env F} {names : List Str} (hn : NamesOk E names) {jump : Bool}
    {targets : List Nat} {ps : List Param} {args : List (Arg F)}
    {used : List Str} (h : All2 (Fits E.L used jump targets) ps args)
    (hnm : ∀ a ∈ args, ∀ x t, a = .var x t → x ∈ names ++ E.std) :
    ∀ (s : Stream) (st : St F) (r : Str), st.vars.map (·.name) = names →
      Q s (writeArgs E.L args ++ r) →
      ∃ ws s' st' N, (∀ n, N ≤ n → params E n ps s st = some (s', st')) ∧ Q s' r ∧
        All2 (Raw E names) args ws ∧ Ext st ws st' := by
  induction h with
  | nil =>
    intro s st r _ hq
    refine ⟨[], s, st, 0, fun n _ => rfl, ?_, .nil, ext_nil st⟩
    exact (Q_space (by decide)).mp hq
  | @cons p a ps as hf _ ih =>
    intro s st r hv hq
    have ih := ih (fun b hb => hnm b (List.mem_cons_of_mem _ hb))
    obtain ⟨c, u, hcu, hsp⟩ := writeArgs_space E.L as r
    have hq1 : Q s (writeArg E.L a ++ (writeArgs E.L as ++ r)) := by
      have : writeArgs E.L (a :: as) ++ r = ' ' :: (writeArg E.L a ++ (writeArgs E.L as ++ r)) := by
        simp [writeArgs]
      rw [this] at hq
      exact (Q_space (by decide)).mp hq
    have hqu : Q (str u) (writeArgs E.L as ++ r) := by
      rw [hcu]; exact (Q_space hsp).mpr (Q_refl u)
    have hqc : Q (str (c :: u)) (writeArgs E.L as ++ r) := by rw [hcu]; exact Q_refl _
    rw [hcu] at hq1
    cases p with
    | var =>
      cases a with
      | var x t =>
        obtain ⟨_, hw⟩ := hf
        have ht := getToken_temp (c := c) (r := u) t hw hsp (by simpa [writeArg] using hq1)
        obtain ⟨j, li, si, hadd, hsame⟩ := addVar_same hn hv (hnm _ (by simp) x t rfl)
        obtain ⟨ws, s', st', N, hp, hq', hraw, hext⟩ :=
          ih (str u) (addVar E x st) r (by rw [hadd, add_vars]; exact hv) hqu
        refine ⟨.var j :: ws, s', st', N, fun n hn' => ?_, hq', .cons ?_ hraw, ext_cons li si hadd hext⟩
        · simp only [params, ht]
          exact hp n hn'
        · exact .same (by simp) (fun all => hsame all t)
      | _ => exact absurd hf (by simp [Fits])
    | float =>
      cases a with
      | num f =>
        obtain ⟨_, hr⟩ := hf
        have ht := read_back (z := E.L.ofNat 0) hr hsp hq1
        obtain ⟨ws, s', st', N, hp, hq', hraw, hext⟩ :=
          ih (str (c :: u)) (st.add (.num f)) r (by rw [add_vars]; exact hv) hqc
        refine ⟨.num f :: ws, s', st', N, fun n hn' => ?_, hq', .cons ?_ hraw, ext_add hext⟩
        · simp only [params, ht]
          exact hp n hn'
        · exact .same (by simp) (fun all => .num)
      | lab n =>
        obtain ⟨_, hr, _⟩ := hf
        have ht := read_back (z := E.L.ofNat 0) hr.reads hsp hq1
        obtain ⟨ws, s', st', N, hp, hq', hraw, hext⟩ :=
          ih (str (c :: u)) (st.add (.num (E.L.ofNat n))) r (by rw [add_vars]; exact hv) hqc
        refine ⟨.num (E.L.ofNat n) :: ws, s', st', N, fun n hn' => ?_, hq', .cons .lab hraw, ext_add hext⟩
        simp only [params, ht]
        exact hp n hn'
      | _ => exact absurd hf (by simp [Fits])
    | int =>
      cases a with
      | int i =>
        have ht := read_back (z := 0) hf hsp hq1
        obtain ⟨ws, s', st', N, hp, hq', hraw, hext⟩ :=
          ih (str (c :: u)) (st.add (.int i)) r (by rw [add_vars]; exact hv) hqc
        refine ⟨.int i :: ws, s', st', N, fun n hn' => ?_, hq', .cons ?_ hraw, ext_add hext⟩
        · simp only [params, ht]
          exact hp n hn'
        · exact .same (by simp) (fun all => .int)
      | _ => exact absurd hf (by simp [Fits])
    | string =>
      cases a with
      | str t =>
        obtain ⟨m, hm⟩ := hf
        have hq2 : Q s ('"' :: (t ++ '"' :: (c :: u))) := by simpa [writeArg] using hq1
        obtain ⟨ws, s', st', N, hp, hq', hraw, hext⟩ :=
          ih (str (c :: u)) (st.add (.str m)) r (by rw [add_vars]; exact hv) hqc
        refine ⟨.str m :: ws, s', st', max N (t.length + 1), fun n hn' => ?_, hq', .cons ?_ hraw,
          ext_add hext⟩
        · have h1 := getString_means hm (n := n) (by omega) hq2
          simp only [params, h1]
          rw [takeWhile_all (means_no_zero hm)]
          exact hp n (by omega)
        · exact .same (by simp) (fun all => .str hm)
      | _ => exact absurd hf (by simp [Fits])

/-! ## Instructions -/

/-- The stream `s` is at the text `r`, and at its end if there is nothing but white space. -/
def P (s : Stream) (r : Str) : Prop := Q s r ∧ (r.all space = true → s.eof = true)

theorem all_drop {r : Str} (h : r.all space = true) : r.dropWhile space = [] := by
  induction r with
  | nil => rfl
  | cons c r ih =>
    simp only [List.all_cons, Bool.and_eq_true] at h
    simp [h.1, ih h.2]

theorem P_ws {s : Stream} {r : Str} (h : Q s r) : P s.ws r := by
  refine ⟨Q_ws h, fun ha => ?_⟩
  rw [h]
  simp [Stream.ws, str, all_drop ha]

theorem P_str {r : Str} {c : Char} (hc : c ∈ r) (h : space c = false) : P (str r) r := by
  refine ⟨Q_refl r, fun ha => ?_⟩
  rw [List.all_eq_true] at ha
  rw [ha c hc] at h; cases h

/-- Before a character that is no white space, the stream is not at its end. -/
theorem eof_false {s : Stream} {r : Str} (h : Q s r) {c : Char} (hc : c ∈ r) (hs : space c = false) :
    s.eof = false := by
  cases he : s.eof with
  | false => rfl
  | true =>
    have h1 : s.ws = s := by simp [Stream.ws, he]
    have h2 : (str r).ws.eof = false := by
      have : r.dropWhile space ≠ [] := by
        intro h0
        have : ∀ x ∈ r, space x = true := by
          clear h hc
          induction r with
          | nil => simp
          | cons d r ih =>
            by_cases hd : space d = true
            · intro x hx
              rcases List.mem_cons.mp hx with rfl | hx
              · exact hd
              · exact ih (by simpa [hd] using h0) x hx
            · simp [hd] at h0
        rw [this c hc] at hs; cases hs
      simp [Stream.ws, str, this]
    unfold Q at h
    rw [h1] at h
    rw [h] at he
    rw [h2] at he; cases he

/-- Going through the loop of `LoadProgram` some times. -/
def Steps (E : Env F) (s : Stream) (st : St F) (s' : Stream) (st' : St F) : Prop :=
  ∃ k N, ∀ n, N ≤ n → loadLoop E (n + k) s st = loadLoop E n s' st'

theorem steps_refl (E : Env F) (s : Stream) (st : St F) : Steps E s st s st := ⟨0, 0, fun _ _ => rfl⟩

theorem steps_trans {E : Env F} {s1 s2 s3 : Stream} {t1 t2 t3 : St F} (h1 : Steps E s1 t1 s2 t2)
    (h2 : Steps E s2 t2 s3 t3) : Steps E s1 t1 s3 t3 := by
  obtain ⟨k1, N1, h1⟩ := h1
  obtain ⟨k2, N2, h2⟩ := h2
  refine ⟨k2 + k1, max N1 N2, fun n hn => ?_⟩
  rw [← Nat.add_assoc, h1 (n + k2) (by omega), h2 n (by omega)]

/-- One time, after the token was read. -/
theorem steps_one {E : Env F} {s : Stream} {st : St F} {t : Str} {s1 s2 : Stream} {st2 : St F}
    (he : s.eof = false) (ht : getToken s = (t, s1)) {N : Nat}
    (hp : ∀ n, N ≤ n → pass E n t s1 st = .ok (s2, st2)) : Steps E s st s2 st2 := by
  refine ⟨1, N, fun n hn => ?_⟩
  simp [loadLoop, he, ht, hp n hn]

/-- The labels after a program was read that begins at the element `base`. -/
def marks : List Nat → Nat → List (Ins F) → List Nat
  | l, _, [] => l
  | l, base, .label n :: is => marks (setAt l n base) (base + 1) is
  | l, base, .op _ as :: is => marks l (base + 1 + as.length) is

theorem all2_length {α β : Type} {R : α → β → Prop} {as : List α} {bs : List β} (h : All2 R as bs) :
    as.length = bs.length := by
  induction h with
  | nil => rfl
  | cons _ _ ih => simp [ih]

/-- A token which is the name of an instruction or a colon is none of the words of `LoadProgram`. -/
theorem pass_ins {E : Env F} {n : Nat} {t : Str} {s : Stream} {st : St F} (hs : st.spec = true)
    (hseg : st.seg ≠ .data) (h1 : t ≠ "AQSIS_V".toList) (h2 : E.L.same t "USES".toList = false)
    (h3 : E.L.same t "segment".toList = false) : pass E n t s st = instruction E n t s st := by
  unfold pass
  simp only [hs, if_true, h1, if_false, h2, h3]
  cases hx : st.seg with
  | data => exact absurd hx hseg
  | init => simp
  | code => simp

theorem same_false {L : Lib F} {a b : Str} (h : L.hash a ≠ L.hash b) : L.same a b = false := by
  simp [Lib.same, h]

theorem same_self (L : Lib F) (a : Str) : L.same a a = true := by simp [Lib.same]

/-- The row with a name is found. -/
theorem find_row {E : Env F} (hE : EnvOk E) {r : Row} (hr : r ∈ E.table) :
    E.table.find? (fun x => E.L.same x.name r.name) = some r := by
  cases h : E.table.find? (fun x => E.L.same x.name r.name) with
  | none =>
    rw [List.find?_eq_none] at h
    exact absurd (same_self E.L r.name) (h r hr)
  | some x =>
    have h1 := List.find?_some h
    have h2 := List.mem_of_find?_eq_some h
    have h3 : E.L.hash x.name = E.L.hash r.name := by simpa [Lib.same] using h1
    rw [hE.rows x h2 r hr h3]

theorem P_cons_space {s : Stream} {c : Char} {r : Str} (h : P s (c :: r)) (hc : space c = true) :
    Q s r := (Q_space hc).mp h.1

theorem area_ext {st st' : St F} {ws : List (Elem F)} (h : Ext st ws st') :
    st'.area = st.area ++ ws ∧ st'.labels = st.labels ∧ st'.seg = st.seg ∧ st'.spec = st.spec := by
  obtain ⟨li, si, rfl⟩ := h
  unfold St.addAll
  cases st with
  | mk seg spec type uses vars li si init code labels => cases seg <;> simp [St.area]

/-- The elements and the labels that a program adds. -/
def Ext2 (st : St F) (ws : List (Elem F)) (lab : List Nat) (st' : St F) : Prop :=
  ∃ li si, st' = St.addAll { st with li := li, si := si, labels := lab } ws

theorem ext2_trans {st st1 st2 : St F} {w1 w2 : List (Elem F)} {l1 l2 : List Nat}
    (h1 : Ext2 st w1 l1 st1) (h2 : Ext2 st1 w2 l2 st2) : Ext2 st (w1 ++ w2) l2 st2 := by
  obtain ⟨li, si, rfl⟩ := h1
  obtain ⟨li', si', rfl⟩ := h2
  refine ⟨li', si', ?_⟩
  cases st with
  | mk seg spec type uses vars li si init code labels =>
    cases seg <;> simp [St.addAll]

theorem ext2_proj {st st' : St F} {ws : List (Elem F)} {l : List Nat} (h : Ext2 st ws l st') :
    st'.area = st.area ++ ws ∧ st'.labels = l ∧ st'.seg = st.seg ∧ st'.spec = st.spec ∧
      st'.vars = st.vars := by
  obtain ⟨li, si, rfl⟩ := h
  unfold St.addAll
  cases st with
  | mk seg spec type uses vars li si init code labels => cases seg <;> simp [St.area]

theorem ext2_of {st st' : St F} {ws : List (Elem F)} (h : Ext st ws st') : Ext2 st ws st.labels st' := by
  obtain ⟨li, si, rfl⟩ := h
  exact ⟨li, si, rfl⟩

/-- One line of a program is read. -/
theorem ins_ok {E : Env F} (hE : EnvOk E) {names : List Str} (hn : NamesOk E names) {targets : List Nat} {i : Ins F}
    (hi : InsOk E (names ++ E.std) targets i) {s : Stream} {st : St F} {r : Str} (hs : st.spec = true)
    (hseg : st.seg ≠ .data) (hv : st.vars.map (·.name) = names)
    (hp : P s (writeIns E.L i ++ r)) :
    ∃ ws s' st', Steps E s st s' st' ∧ P s' r ∧ Code E.table (Raw E names) [i] ws ∧
      Ext2 st ws (marks st.labels st.area.length [i]) st' := by
  cases i with
  | label n =>
    have hq : Q s (':' :: (E.L.writeI n ++ '\n' :: r)) := by simpa [writeIns] using hp.1
    have ht := getToken_colon hq
    have he : s.eof = false := eof_false hq (c := ':') (by simp) (by decide)
    have hr := read_back (z := E.L.ofNat 0) hi.reads (c := '\n') (r := r) (by decide)
      (Q_refl (E.L.writeI n ++ '\n' :: r))
    refine ⟨[.cmd "SO_nop".toList], (str ('\n' :: r)).ws,
      St.add (mark st n) (.cmd "SO_nop".toList), ?_, ?_, .label .nil, ?_⟩
    · refine steps_one he ht (N := 0) fun m _ => ?_
      rw [pass_ins hs hseg (by decide) (same_false (hE.colon _ (by simp)))
        (same_false (hE.colon _ (by simp)))]
      simp only [instruction, if_true, label, hr, hi.back]
    · exact P_ws ((Q_space (by decide)).mp (Q_refl _))
    · refine ⟨st.li, st.si, ?_⟩
      cases st with
      | mk seg spec type uses vars li si init code labels =>
        cases seg <;> simp [St.addAll, St.add, mark, marks, St.area]
  | op name args =>
    obtain ⟨row, hrow, rfl, hext, hfits⟩ := hi
    obtain ⟨hfree, hword⟩ := hE.names row hrow
    obtain ⟨c, u, hcu, hsp⟩ := writeArgs_space E.L args r
    have hq : Q s (row.name ++ c :: u) := by
      have : writeIns E.L (.op row.name args) ++ r = '\t' :: (row.name ++ (writeArgs E.L args ++ r)) := by
        simp [writeIns]
      rw [this, hcu] at hp
      exact P_cons_space hp (by decide)
    have ht := getToken_word hword hsp hq
    have he : s.eof = false := by
      obtain ⟨a, as, ha⟩ : ∃ a as, row.name = a :: as := by
        cases hx : row.name with
        | nil => exact absurd hx hword.ne
        | cons a as => exact ⟨a, as, rfl⟩
      exact eof_false hq (c := a) (by rw [ha]; simp) (hword.chars a (by rw [ha]; simp)).1
    have hqu : Q (str u) (writeArgs E.L args ++ r) := by
      rw [hcu]; exact (Q_space hsp).mpr (Q_refl u)
    have hnm : ∀ a ∈ args, ∀ x t, a = .var x t → x ∈ names ++ E.std := by
      intro a ha x t hx
      subst hx
      clear hq hqu hcu hp
      generalize row.params = ps at hfits
      induction hfits with
      | nil => simp at ha
      | @cons p b ps bs hf _ ih =>
        rcases List.mem_cons.mp ha with rfl | ha
        · cases p with
          | var => exact hf.1
          | _ => exact absurd hf (by simp [Fits])
        · exact ih ha
    have hfits' : All2 (Fits E.L (names ++ E.std) (decide (row.cmd ∈ jumps)) targets) row.params args :=
      hfits
    obtain ⟨ws, s', st', N, hpar, hq', hraw, hex⟩ :=
      params_ok hn hfits' hnm (str u) (st.add (.cmd row.cmd)) r (by rw [add_vars]; exact hv) hqu
    have hall : Code E.table (Raw E names) [.op row.name args] (.cmd row.cmd :: (ws ++ [])) :=
      .op hrow hraw .nil
    rw [List.append_nil] at hall
    refine ⟨_, s'.ws, st', ?_, P_ws hq', hall, ?_⟩
    · refine steps_one he ht (N := N) fun m hm => ?_
      have k1 : E.L.hash row.name ≠ E.L.hash "USES".toList := by
        intro h
        exact hfree (by rw [hE.free row hrow _ (by simp) h]; simp)
      have k2 : E.L.hash row.name ≠ E.L.hash "segment".toList := by
        intro h
        exact hfree (by rw [hE.free row hrow _ (by simp) h]; simp)
      have k3 : E.L.hash row.name ≠ E.L.hash "external".toList := fun h =>
        hext (hE.free row hrow _ (by simp) h)
      have k4 : row.name ≠ "AQSIS_V".toList := by
        intro h
        exact hfree (by rw [h]; simp)
      have k5 : row.name ≠ [':'] := by
        intro h
        exact hword.colon (by rw [h]; rfl)
      rw [pass_ins hs hseg k4 (same_false k1) (same_false k2)]
      unfold instruction
      rw [if_neg k5, if_neg (by rw [same_false k3]; decide), find_row hE hrow]
      simp only [hpar m hm]
    · obtain ⟨li, si, rfl⟩ := hex
      refine ⟨li, si, ?_⟩
      cases st with
      | mk seg spec type uses vars li si init code labels =>
        cases seg <;> simp [St.addAll, St.add, marks]

end Verif.Shader.Slx
