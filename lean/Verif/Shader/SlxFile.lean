import Verif.Shader.SlxLoad

/-!
# Compiled shaders: loading a file
-/

set_option linter.unusedSectionVars false

namespace Verif.Shader.Slx

variable {F : Type}

/-! ## Programs -/

theorem code_append {table : List Row} {R : Arg F → Elem F → Prop} {i1 i2 : List (Ins F)}
    {w1 w2 : List (Elem F)} (h1 : Code table R i1 w1) (h2 : Code table R i2 w2) :
    Code table R (i1 ++ i2) (w1 ++ w2) := by
  induction h1 with
  | nil => exact h2
  | label _ ih => exact .label ih
  | @op r as ws is w hr ha _ ih =>
    have := Code.op hr ha ih
    simpa using this

theorem code_length {table : List Row} {R : Arg F → Elem F → Prop} {is : List (Ins F)}
    {w : List (Elem F)} (h : Code table R is w) : w.length = size is := by
  induction h with
  | nil => rfl
  | label _ ih => simp [size, ih]; omega
  | op _ ha _ ih => simp [size, ih, all2_length ha]; omega

theorem marks_append : ∀ (a b : List (Ins F)) (l : List Nat) (base : Nat),
    marks l base (a ++ b) = marks (marks l base a) (base + size a) b := by
  intro a
  induction a with
  | nil => intro b l base; rfl
  | cons i is ih =>
    intro b l base
    cases i with
    | label n =>
      simp only [List.cons_append, marks, ih, size]
      congr 1; omega
    | op name as =>
      simp only [List.cons_append, marks, ih, size]
      congr 1; omega

/-- The lines of a program are read. -/
theorem code_ok {E : Env F} (hE : EnvOk E) {names : List Str} (hn : NamesOk E names)
    {targets : List Nat} (r : Str) : ∀ (is : List (Ins F)),
    (∀ i ∈ is, InsOk E (names ++ E.std) targets i) → ∀ (s : Stream) (st : St F), st.spec = true →
      st.seg ≠ .data → st.vars.map (·.name) = names → P s (writeCode E.L is ++ r) →
      ∃ ws s' st', Steps E s st s' st' ∧ P s' r ∧ Code E.table (Raw E names) is ws ∧
        Ext2 st ws (marks st.labels st.area.length is) st' := by
  intro is
  induction is with
  | nil =>
    intro _ s st _ _ _ hp
    exact ⟨[], s, st, steps_refl E s st, hp, .nil, ext2_of (ext_nil st)⟩
  | cons i is ih =>
    intro hi s st hs hseg hv hp
    have hp' : P s (writeIns E.L i ++ (writeCode E.L is ++ r)) := by
      simpa [writeCode] using hp
    obtain ⟨w1, s1, st1, hst1, hp1, hc1, he1⟩ := ins_ok hE hn (hi i (by simp)) hs hseg hv hp'
    obtain ⟨ha, hl, hsg, hsp, hvr⟩ := ext2_proj he1
    obtain ⟨w2, s2, st2, hst2, hp2, hc2, he2⟩ :=
      ih (fun j hj => hi j (List.mem_cons_of_mem _ hj)) s1 st1 (by rw [hsp]; exact hs)
        (by rw [hsg]; exact hseg) (by rw [hvr]; exact hv) hp1
    refine ⟨w1 ++ w2, s2, st2, steps_trans hst1 hst2, hp2, code_append hc1 hc2, ?_⟩
    have := ext2_trans he1 he2
    rw [hl, ha, List.length_append, code_length hc1] at this
    have e : marks st.labels st.area.length (i :: is) =
        marks (marks st.labels st.area.length [i]) (st.area.length + size [i]) is := by
      rw [← marks_append]; rfl
    rw [e]
    exact this

/-! ## Labels -/

theorem setAt_same (l : List Nat) (n k : Nat) : (setAt l n k)[n]? = some k := by
  unfold setAt
  rw [List.getElem?_set_self (by simp; omega)]

theorem setAt_other (l : List Nat) {n m k v : Nat} (h : n ≠ m) (hm : l[m]? = some v) :
    (setAt l n k)[m]? = some v := by
  unfold setAt
  rw [List.getElem?_set_ne h, List.getElem?_append_left (lt_of_some hm), hm]

theorem marks_keep {n v : Nat} : ∀ (is : List (Ins F)) (l : List Nat) (base : Nat), n ∉ labelsOf is →
    l[n]? = some v → (marks l base is)[n]? = some v := by
  intro is
  induction is with
  | nil => intro l base _ h; exact h
  | cons i is ih =>
    intro l base hn h
    cases i with
    | label m =>
      simp only [labelsOf, List.mem_cons, not_or] at hn
      exact ih _ _ hn.2 (setAt_other l (fun e => hn.1 e.symm) h)
    | op name as => exact ih _ _ hn h

theorem labels_append (a b : List (Ins F)) : labelsOf (a ++ b) = labelsOf a ++ labelsOf b := by
  induction a with
  | nil => rfl
  | cons i is ih => cases i <;> simp [labelsOf, ih]

/-- The labels are those where they stand. -/
theorem marks_at {is : List (Ins F)} (hd : (labelsOf is).Nodup) {n k : Nat} (h : At is n k) :
    (marks [] 0 is)[n]? = some k := by
  obtain ⟨a, b, rfl, rfl⟩ := h
  rw [marks_append, marks]
  refine marks_keep _ _ _ ?_ (by rw [setAt_same]; simp)
  rw [labels_append, labelsOf] at hd
  have := (List.nodup_append.mp hd).2.1
  exact (List.nodup_cons.mp this).1

theorem at_of_mem {is : List (Ins F)} {n : Nat} (h : n ∈ labelsOf is) : ∃ k, At is n k := by
  induction is with
  | nil => simp [labelsOf] at h
  | cons i is ih =>
    cases i with
    | label m =>
      rcases List.mem_cons.mp h with rfl | h
      · exact ⟨0, [], is, rfl, rfl⟩
      · obtain ⟨_, a, b, hab, _⟩ := ih h
        exact ⟨_, .label m :: a, b, by rw [hab]; rfl, rfl⟩
    | op name as =>
      obtain ⟨_, a, b, hab, _⟩ := ih h
      exact ⟨_, .op name as :: a, b, by rw [hab]; rfl, rfl⟩

theorem fix_other {E : Env F} {labels : List Nat} {c : Str} {r l : List (Elem F)} (h : c ∉ jumps)
    (hr : fix E labels (skip E.table c) r = .ok l) :
    fix E labels 0 (.cmd c :: r) = .ok (.cmd c :: l) := by
  unfold fix
  rw [if_neg h, hr]

theorem fix_jump {E : Env F} {labels : List Nat} {c : Str} {f : F} {o : Nat} {r l : List (Elem F)}
    (h : c ∈ jumps) (ho : labels[E.L.toNat f]? = some o) (hr : fix E labels 0 r = .ok l) :
    fix E labels 0 (.cmd c :: .num f :: r) = .ok (.cmd c :: .lab E.me o :: l) := by
  rw [fix]
  rw [if_pos h]
  simp only [ho, hr]

theorem fix_skip {E : Env F} {labels : List Nat} {w l : List (Elem F)}
    (h : fix E labels 0 w = .ok l) : ∀ ws : List (Elem F),
    fix E labels ws.length (ws ++ w) = .ok (ws ++ l) := by
  intro ws
  induction ws with
  | nil => exact h
  | cons e ws ih => simp [fix, ih]

theorem raw_same {E : Env F} {names : List Str} {all : List (Ins F)} {targets : List Nat} {used : List Str}
    {ps : List Param} {args : List (Arg F)} (hf : All2 (Fits E.L used false targets) ps args) :
    ∀ {ws : List (Elem F)}, All2 (Raw E names) args ws → All2 (Same E names all) args ws := by
  induction hf with
  | nil => intro ws h; cases h; exact .nil
  | @cons p a ps as hf _ ih =>
    intro ws h
    cases h with
    | cons hr h =>
      refine .cons ?_ (ih h)
      cases hr with
      | same _ hs => exact hs all
      | lab =>
        cases p with
        | float => exact absurd hf.1 (by decide)
        | _ => exact absurd hf (by simp [Fits])

/-- The second pass puts the labels in. -/
theorem fix_ok {E : Env F} (hE : EnvOk E) {names used : List Str} {all : List (Ins F)}
    {labels targets : List Nat} (hlab : ∀ n ∈ targets, ∃ k, At all n k ∧ labels[n]? = some k) :
    ∀ {is : List (Ins F)} {w : List (Elem F)}, Code E.table (Raw E names) is w →
      (∀ i ∈ is, InsOk E used targets i) →
      ∃ l, fix E labels 0 w = .ok l ∧ Code E.table (Same E names all) is l := by
  intro is w h
  induction h with
  | nil => intro _; exact ⟨[], rfl, .nil⟩
  | @label n is w _ ih =>
    intro hi
    obtain ⟨l, hl, hc⟩ := ih (fun j hj => hi j (List.mem_cons_of_mem _ hj))
    refine ⟨.cmd "SO_nop".toList :: l, ?_, .label hc⟩
    have h1 : "SO_nop".toList ∉ jumps := by decide
    exact fix_other h1 (by rw [hE.nop]; exact hl)
  | @op r as ws is w hr ha _ ih =>
    intro hi
    obtain ⟨l, hl, hc⟩ := ih (fun j hj => hi j (List.mem_cons_of_mem _ hj))
    obtain ⟨r', hr', hname, _, hfits⟩ := hi (.op r.name as) (by simp)
    have : r' = r := hE.rows r' hr' r hr (by rw [hname])
    subst this
    by_cases hj : r'.cmd ∈ jumps
    · have hp := hE.jump r' hr' hj
      rw [hp] at hfits
      rw [show decide (r'.cmd ∈ jumps) = true by simp [hj]] at hfits
      cases hfits with
      | @cons _ a _ as' hf hfs =>
        cases hfs
        cases ha with
        | @cons _ e _ es hre hes =>
          cases hes
          cases a with
          | lab n =>
            obtain ⟨_, hlo, hmem⟩ := hf
            obtain ⟨k, hk, hlk⟩ := hlab n hmem
            have he : e = .num (E.L.ofNat n) := by
              cases hre with
              | same hne _ => exact absurd rfl (hne n)
              | lab => rfl
            subst he
            refine ⟨.cmd r'.cmd :: .lab E.me k :: l, ?_, ?_⟩
            · exact fix_jump hj (by rw [hlo.back]; exact hlk) hl
            · exact .op hr (.cons (.lab hk) .nil) hc
          | num f => exact absurd hf.1 (by decide)
          | _ => exact absurd hf (by simp [Fits])
    · have hd : decide (r'.cmd ∈ jumps) = false := by simp [hj]
      rw [hd] at hfits
      have hlen : skip E.table r'.cmd = ws.length := by
        rw [hE.pass r' hr', all2_length hfits, all2_length ha]
      refine ⟨.cmd r'.cmd :: (ws ++ l), ?_, .op hr (raw_same hfits ha) hc⟩
      exact fix_other hj (by rw [hlen]; exact fix_skip hl ws)

/-- In a program without jumps nothing has to be put in. -/
theorem raw_code {E : Env F} (hE : EnvOk E) {names used : List Str} {all : List (Ins F)} :
    ∀ {is : List (Ins F)} {w : List (Elem F)}, Code E.table (Raw E names) is w →
      (∀ i ∈ is, InsOk E used [] i) → Code E.table (Same E names all) is w := by
  intro is w h
  induction h with
  | nil => intro _; exact .nil
  | label _ ih => intro hi; exact .label (ih (fun j hj => hi j (List.mem_cons_of_mem _ hj)))
  | @op r as ws is w hr ha _ ih =>
    intro hi
    obtain ⟨r', hr', hname, _, hfits⟩ := hi (.op r.name as) (by simp)
    have : r' = r := hE.rows r' hr' r hr (by rw [hname])
    subst this
    refine .op hr ?_ (ih (fun j hj => hi j (List.mem_cons_of_mem _ hj)))
    by_cases hj : r'.cmd ∈ jumps
    · have hp := hE.jump r' hr' hj
      rw [hp] at hfits
      rw [show decide (r'.cmd ∈ jumps) = true by simp [hj]] at hfits
      cases hfits with
      | @cons _ a _ as' hf hfs =>
        cases a with
        | lab n => exact absurd hf.2.2 (by simp)
        | num f => exact absurd hf.1 (by decide)
        | _ => exact absurd hf (by simp [Fits])
    · have hd : decide (r'.cmd ∈ jumps) = false := by simp [hj]
      rw [hd] at hfits
      exact raw_same hfits ha

/-! ## Declarations -/

theorem same_keys {E : Env F} (hE : EnvOk E) {a b : Str} (ha : a ∈ keys) (hb : b ∈ keys) :
    E.L.same a b = decide (a = b) := by
  by_cases h : a = b
  · subst h; simp [Lib.same]
  · simp only [h, decide_false]
    exact same_false (fun hh => h (hE.keys a ha b hb hh))

theorem declLoop_output {E : Env F} (n : Nat) (st : Storage) (c : Option Class) {s s' : Stream} {t : Str}
    (hg : getToken s = (t, s')) :
    declLoop E.L (n + 1) "output".toList st c s = declLoop E.L n t .output c s' := by
  rw [declLoop, if_pos (same_self _ _), hg]

theorem declLoop_param {E : Env F} (hE : EnvOk E) (n : Nat) (st : Storage) (c : Option Class)
    {s s' : Stream} {t : Str} (hg : getToken s = (t, s')) :
    declLoop E.L (n + 1) "param".toList st c s =
      declLoop E.L n t (if st = .output then .output else .parameter) c s' := by
  rw [declLoop, if_neg (by rw [same_keys hE (by decide) (by decide)]; decide),
    if_pos (same_self _ _), hg]

theorem declLoop_class {E : Env F} (hE : EnvOk E) (n : Nat) (st : Storage) (c : Option Class) (k : Class)
    {s s' : Stream} {t : Str} (hg : getToken s = (t, s')) :
    declLoop E.L (n + 1) (match k with | .uniform => "uniform".toList | .varying => "varying".toList)
      st c s = declLoop E.L n t st (some k) s' := by
  cases k with
  | uniform =>
    show declLoop E.L (n + 1) "uniform".toList st c s = _
    rw [declLoop, if_neg (by rw [same_keys hE (by decide) (by decide)]; decide),
      if_neg (by rw [same_keys hE (by decide) (by decide)]; decide),
      if_neg (by rw [same_keys hE (by decide) (by decide)]; decide), if_pos (same_self _ _), hg]
  | varying =>
    show declLoop E.L (n + 1) "varying".toList st c s = _
    rw [declLoop, if_neg (by rw [same_keys hE (by decide) (by decide)]; decide),
      if_neg (by rw [same_keys hE (by decide) (by decide)]; decide), if_pos (same_self _ _), hg]

theorem types_keys : ∀ t ∈ varTypes, t ∈ keys ∧ t ≠ "output".toList ∧ t ≠ "param".toList ∧
    t ≠ "varying".toList ∧ t ≠ "uniform".toList ∧ t ∉ noVarTypes := by decide

theorem declLoop_type {E : Env F} (hE : EnvOk E) (n : Nat) (st : Storage) (c : Option Class) {ty : Str}
    (ht : ty ∈ varTypes) (s : Stream) :
    declLoop E.L (n + 1) ty st c s = some (ty, st, c, getToken s) := by
  obtain ⟨h1, h2, h3, h4, h5, _⟩ := types_keys ty ht
  have k : ∀ a : Str, a ∈ keys → ty ≠ a → ¬ E.L.same ty a = true := by
    intro a ha hne
    rw [same_keys hE h1 ha]; simp [hne]
  rw [declLoop, if_neg (k _ (by decide) h2), if_neg (k _ (by decide) h3), if_neg (k _ (by decide) h4),
    if_neg (k _ (by decide) h5), if_pos (.inl ht)]

/-- The words before the type. -/
def heads : Storage → Class → List Str
  | st, c => (match st with
    | .temporary => []
    | .parameter => ["param".toList]
    | .output => ["output".toList, "param".toList]) ++
    [match c with | .uniform => "uniform".toList | .varying => "varying".toList]

/-- Words, each followed by a space. -/
def words : List Str → Str → Str
  | [], r => r
  | w :: ws, r => w ++ ' ' :: words ws r

theorem spec_words (st : Storage) (c : Class) (r : Str) : spec st c ++ r = words (heads st c) r := by
  cases st <;> cases c <;> rfl

theorem type_word : ∀ t ∈ varTypes, Word 254 t := by
  intro t ht
  have h : ∀ t ∈ varTypes, t ≠ [] ∧ t.length ≤ 254 ∧ t.head? ≠ some ':' ∧
      ∀ c ∈ t, space c = false ∧ c ≠ '\x00' := by decide
  exact ⟨(h t ht).1, (h t ht).2.1, (h t ht).2.2.1, (h t ht).2.2.2⟩

theorem word_of {x : Str} (h : x ≠ [] ∧ x.length ≤ 254 ∧ x.head? ≠ some ':' ∧
    ∀ c ∈ x, space c = false ∧ c ≠ '\x00') : Word 254 x := ⟨h.1, h.2.1, h.2.2.1, h.2.2.2⟩

theorem word_param : Word 254 "param".toList := word_of (by decide)
theorem word_output : Word 254 "output".toList := word_of (by decide)
theorem word_class (k : Class) :
    Word 254 (match k with | .uniform => "uniform".toList | .varying => "varying".toList) := by
  cases k <;> exact word_of (by decide)

/-- What is left after the first word of a declaration: the type is found, and the token after it. -/
theorem declLoop_ok {E : Env F} (hE : EnvOk E) (st : Storage) (c : Class) {ty : Str} (hty : ty ∈ varTypes)
    {s : Stream} {r : Str} (hq : Q s (words (heads st c ++ [[], ty]) r)) :
    ∃ t s1 s2, getToken s = (t, s1) ∧ s.eof = false ∧
      t ∈ ["output".toList, "param".toList, "varying".toList, "uniform".toList] ∧ Q s2 r ∧
      ∀ n, 5 ≤ n → declLoop E.L n t .temporary none s1 = some (ty, st, some c, getToken s2) := by
  have hts : ∀ {s : Stream}, Q s (' ' :: (ty ++ ' ' :: r)) → getToken s = (ty, str r) := by
    intro s h
    exact getToken_word (type_word ty hty) (by decide) ((Q_space (by decide)).mp h)
  cases st with
  | temporary =>
    have g1 := getToken_word (word_class c) (c := ' ') (r := ' ' :: (ty ++ ' ' :: r)) (by decide) hq
    have g2 := hts (Q_refl (' ' :: (ty ++ ' ' :: r)))
    refine ⟨_, _, str r, g1, ?_, ?_, Q_refl r, fun n hn => ?_⟩
    · cases c <;> exact eof_false hq (c := 'n') (by simp [heads, words]) (by decide)
    · cases c <;> decide
    · obtain ⟨m, rfl⟩ : ∃ m, n = m + 2 := ⟨n - 2, by omega⟩
      rw [declLoop_class hE _ _ _ _ g2, declLoop_type hE _ _ _ hty]
  | parameter =>
    have g0 := getToken_word word_param (c := ' ')
      (r := words (heads .temporary c ++ [[], ty]) r) (by decide) hq
    have g1 := getToken_word (word_class c) (c := ' ') (r := ' ' :: (ty ++ ' ' :: r)) (by decide)
      (Q_refl (words (heads .temporary c ++ [[], ty]) r))
    have g2 := hts (Q_refl (' ' :: (ty ++ ' ' :: r)))
    refine ⟨_, _, str r, g0, ?_, by decide, Q_refl r, fun n hn => ?_⟩
    · exact eof_false hq (c := 'p') (by simp [heads, words]) (by decide)
    · obtain ⟨m, rfl⟩ : ∃ m, n = m + 3 := ⟨n - 3, by omega⟩
      rw [declLoop_param hE _ _ _ g1, declLoop_class hE _ _ _ _ g2, declLoop_type hE _ _ _ hty]
      rfl
  | output =>
    have g0 := getToken_word word_output (c := ' ')
      (r := words (heads .parameter c ++ [[], ty]) r) (by decide) hq
    have g1 := getToken_word word_param (c := ' ')
      (r := words (heads .temporary c ++ [[], ty]) r) (by decide)
      (Q_refl (words (heads .parameter c ++ [[], ty]) r))
    have g2 := getToken_word (word_class c) (c := ' ') (r := ' ' :: (ty ++ ' ' :: r)) (by decide)
      (Q_refl (words (heads .temporary c ++ [[], ty]) r))
    have g3 := hts (Q_refl (' ' :: (ty ++ ' ' :: r)))
    refine ⟨_, _, str r, g0, ?_, by decide, Q_refl r, fun n hn => ?_⟩
    · exact eof_false hq (c := 'o') (by simp [heads, words]) (by decide)
    · obtain ⟨m, rfl⟩ : ∃ m, n = m + 4 := ⟨n - 4, by omega⟩
      rw [declLoop_output _ _ _ g1, declLoop_param hE _ _ _ g2, declLoop_class hE _ _ _ _ g3,
        declLoop_type hE _ _ _ hty]
      rfl

/-- The last word of a declaration, as it is read. -/
def lastWord (L : Lib F) (d : Decl) : Str :=
  d.name ++ (match d.len with
    | none => []
    | some n => '[' :: (L.writeI n ++ [']']))

theorem takeWhile_bracket {x : Str} (h : ∀ c ∈ x, c ≠ '[') (y : Str) :
    (x ++ '[' :: y).takeWhile (· ≠ '[') = x ∧ (x ++ '[' :: y).dropWhile (· ≠ '[') = '[' :: y := by
  induction x with
  | nil => simp
  | cons c r ih =>
    have hc := h c (by simp)
    have := ih (fun d hd => h d (List.mem_cons_of_mem _ hd))
    rw [List.cons_append, List.takeWhile_cons_of_pos (by simpa using hc),
      List.dropWhile_cons_of_pos (by simpa using hc), this.1, this.2]
    exact ⟨rfl, rfl⟩

theorem splitName_ok {L : Lib F} {d : Decl} (hd : DeclOk L d) :
    splitName L (lastWord L d) = .ok (d.name, d.len) := by
  unfold splitName lastWord
  cases hl : d.len with
  | none =>
    simp only [List.append_nil]
    cases hg : d.name.getLast? with
    | none => exact absurd (List.getLast?_eq_none_iff.mp hg) hd.word.ne
    | some c =>
      have hc : c ≠ ']' := (hd.bracket c (List.mem_of_getLast? hg)).2
      simp [hc]
  | some n =>
    obtain ⟨hlen, _⟩ := hd.arr n hl
    have e : d.name ++ '[' :: (L.writeI n ++ [']']) = (d.name ++ '[' :: L.writeI n) ++ [']'] := by simp
    have h1 : (d.name ++ '[' :: (L.writeI n ++ [']'])).getLast? = some ']' := by
      rw [e, List.getLast?_append]; rfl
    have h2 : (d.name ++ '[' :: (L.writeI n ++ [']'])).dropLast = d.name ++ '[' :: L.writeI n := by
      rw [e, List.dropLast_concat]
    have h3 := takeWhile_bracket (fun c hc => (hd.bracket c hc).1) (L.writeI n ++ [']'])
    have h4 := takeWhile_bracket (fun c hc => (hd.bracket c hc).1) (L.writeI n)
    have h5 : '[' ∈ d.name ++ '[' :: (L.writeI n ++ [']']) := by simp
    simp only [h1, h2, h3.1, h4.2, h5, if_true]
    simp [hlen.back]

theorem last_token {L : Lib F} {d : Decl} (hd : DeclOk L d) {s : Stream} {r : Str}
    (hq : Q s (d.name ++ ((if d.temp then ['\x00'] else []) ++
      ((match d.len with
      | none => []
      | some n => '[' :: (L.writeI n ++ [']'])) ++ '\n' :: r)))) :
    getToken s = (lastWord L d, str r) := by
  unfold lastWord
  cases hl : d.len with
  | none =>
    rw [hl] at hq
    rw [List.append_nil]
    exact getToken_temp d.temp hd.word (by decide) hq
  | some n =>
    obtain ⟨hlen, _, _, hsz⟩ := hd.arr n hl
    have ht : d.temp = false := by
      cases h : d.temp with
      | false => rfl
      | true => rw [hd.temp h] at hl; cases hl
    rw [hl, ht] at hq
    refine getToken_word (c := '\n') (r := r) ⟨by simp, by simp; omega, ?_, ?_⟩ (by decide)
      (by simpa using hq)
    · cases hx : d.name with
      | nil => exact absurd hx hd.word.ne
      | cons a as => have := hd.word.colon; rw [hx] at this; simpa using this
    · intro c hc
      simp only [List.mem_append, List.mem_cons, List.not_mem_nil, or_false] at hc
      rcases hc with hc | rfl | hc | rfl
      · exact hd.word.chars c hc
      · decide
      · exact hlen.chars c hc
      · decide

/-- One declaration is read. -/
theorem decl_ok {E : Env F} (hE : EnvOk E) {d : Decl} (hd : DeclOk E.L d) {s : Stream} {st : St F}
    {r : Str} (hs : st.spec = true) (hseg : st.seg = .data) (hp : Q s (writeDecl E.L d ++ r)) :
    ∃ s', Steps E s st s' { st with vars := st.vars ++ [d.var] } ∧ Q s' r := by
  have e : writeDecl E.L d ++ r = words (heads d.storage d.cls ++ [[], d.ty])
      (d.name ++ ((if d.temp then ['\x00'] else []) ++
      ((match d.len with
      | none => []
      | some n => '[' :: (E.L.writeI n ++ [']'])) ++ '\n' :: r))) := by
    have hw : ∀ (a b : List Str) (u : Str), words (a ++ b) u = words a (words b u) := by
      intro a b u
      induction a with
      | nil => rfl
      | cons x xs ih => simp [words, ih]
    rw [hw, ← spec_words]
    clear hd hp
    rcases d with ⟨a1, a2, a3, a4, len, a6⟩
    cases len <;> simp [writeDecl, words]
  rw [e] at hp
  obtain ⟨t, s1, s2, hg, heof, htk, hq2, hloop⟩ := declLoop_ok hE d.storage d.cls hd.ty hp
  have hlast := last_token hd hq2
  have hvar : ∀ k ∈ ["USES".toList, "segment".toList], E.L.same t k = false := by
    intro k hk
    have h1 : ∀ t ∈ ["output".toList, "param".toList, "varying".toList, "uniform".toList],
      ∀ k ∈ ["USES".toList, "segment".toList], t ∈ keys ∧ k ∈ keys ∧ t ≠ k := by decide
    obtain ⟨ha, hb, hne⟩ := h1 t htk k hk
    rw [same_keys hE ha hb]; simp [hne]
  have hver : t ≠ "AQSIS_V".toList := by
    have h1 : ∀ t ∈ ["output".toList, "param".toList, "varying".toList, "uniform".toList],
      t ≠ "AQSIS_V".toList := by decide
    exact h1 t htk
  refine ⟨(str r).ws, ?_, Q_ws (Q_refl r)⟩
  refine steps_one heof hg (N := 5) fun n hn => ?_
  unfold pass
  simp only [hs, if_true, hver, if_false, hvar _ (by simp : "USES".toList ∈ _),
    hvar _ (by simp : "segment".toList ∈ _), hseg]
  obtain ⟨_, _, _, _, _, hno⟩ := types_keys d.ty hd.ty
  have harr : ¬ (d.len = some 0 ∨
      (d.len ≠ none ∧ (d.ty = "integer".toList ∨ d.ty = "bool".toList))) := by
    rintro (h | ⟨h, h2⟩)
    · exact absurd (hd.arr 0 h).1.pos (by omega)
    · cases hl : d.len with
      | none => exact h hl
      | some n =>
        rcases h2 with h2 | h2
        · exact (hd.arr n hl).2.1 h2
        · exact (hd.arr n hl).2.2.1 h2
  unfold declare
  rw [hloop n hn, hlast]
  simp only [splitName_ok hd]
  rw [if_neg hno, if_neg harr]
  simp only [Bool.false_eq_true, if_false]
  rw [hs, hseg]
  rfl

/-- The declarations are read. -/
theorem decls_ok {E : Env F} (hE : EnvOk E) (r : Str) : ∀ (ds : List Decl), (∀ d ∈ ds, DeclOk E.L d) →
    ∀ (s : Stream) (st : St F), st.spec = true → st.seg = .data → Q s (writeDecls E.L ds ++ r) →
    ∃ s', Steps E s st s' { st with vars := st.vars ++ ds.map Decl.var } ∧ Q s' r := by
  intro ds
  induction ds with
  | nil =>
    intro _ s st _ _ hq
    refine ⟨s, ?_, hq⟩
    have : { st with vars := st.vars ++ List.map Decl.var [] } = st := by simp
    rw [this]
    exact steps_refl E s st
  | cons d ds ih =>
    intro hd s st hs hseg hq
    have hq' : Q s (writeDecl E.L d ++ (writeDecls E.L ds ++ r)) := by simpa [writeDecls] using hq
    obtain ⟨s1, hst1, hq1⟩ := decl_ok hE (hd d (by simp)) hs hseg hq'
    obtain ⟨s2, hst2, hq2⟩ := ih (fun x hx => hd x (List.mem_cons_of_mem _ hx)) s1
      { st with vars := st.vars ++ [d.var] } hs hseg hq1
    refine ⟨s2, steps_trans hst1 ?_, hq2⟩
    simpa using hst2

/-! ## The file -/

theorem type_words : ∀ t ∈ shaderTypes, t ∈ keys ∧ t ≠ [] ∧ t.length ≤ 254 ∧ t.head? ≠ some ':' ∧
    ∀ c ∈ t, space c = false ∧ c ≠ '\x00' := by decide

/-- The first line gives the type. -/
theorem type_ok {E : Env F} (hE : EnvOk E) {t : Str} (ht : t ∈ shaderTypes) (r : Str) (st : St F)
    (hs : st.spec = false) : ∃ i, shaderTypes[i]? = some t ∧
      Steps E (str (t ++ '\n' :: r)) st (str r) { st with spec := true, type := i } := by
  obtain ⟨hk, h1, h2, h3, h4⟩ := type_words t ht
  have hw : Word 254 t := ⟨h1, h2, h3, h4⟩
  have hg := getToken_word (c := '\n') (r := r) hw (by decide) (Q_refl _)
  obtain ⟨j, hj⟩ := List.mem_iff_getElem?.mp ht
  obtain ⟨i, hi, hp⟩ := cached_ex (n := shaderTypes.length) (p := E.L.isAt shaderTypes t) E.tmp
    (lt_of_some hj) (isAt_of hj)
  obtain ⟨y, hy, hh⟩ := isAt_true hp
  have hyt : y = t :=
    hE.keys y (type_words y (List.mem_of_getElem? hy)).1 t hk hh
  subst hyt
  refine ⟨i, hy, steps_one (by rfl) hg (N := 0) fun n _ => ?_⟩
  unfold pass
  simp only [hs]
  rw [if_neg (by decide), hi]

theorem segment_ok {E : Env F} (hE : EnvOk E) {x : Str}
    (hx : x ∈ ["Data".toList, "Init".toList, "Code".toList]) {s : Stream} {r : Str} {st : St F}
    (hs : st.spec = true) (hq : Q s ("segment ".toList ++ (x ++ '\n' :: r))) :
    ∃ s', Steps E s st s' (segment E.L x st) ∧ P s' r := by
  have h1 : ∀ x ∈ ["Data".toList, "Init".toList, "Code".toList], x ≠ [] ∧ x.length ≤ 254 ∧
      x.head? ≠ some ':' ∧ ∀ c ∈ x, space c = false ∧ c ≠ '\x00' := by decide
  have hw : Word 254 "segment".toList := word_of (by decide)
  have hq' : Q s ("segment".toList ++ ' ' :: (x ++ '\n' :: r)) := hq
  have g1 := getToken_word hw (by decide) hq'
  have g2 := getToken_word (word_of (h1 x hx)) (c := '\n') (r := r) (by decide) (Q_refl _)
  refine ⟨(str r).ws, steps_one (eof_false hq' (c := 's') (by simp) (by decide)) g1 (N := 0) fun n _ => ?_,
    P_ws (Q_refl r)⟩
  unfold pass
  have e1 : "segment".toList ≠ "AQSIS_V".toList := by decide
  have e2 : E.L.same "segment".toList "USES".toList = false := by
    rw [same_keys hE (by decide) (by decide)]; decide
  simp only [hs, if_true, e1, if_false, e2, same_self, g2]
  rfl

theorem segment_data {E : Env F} (st : St F) :
    segment E.L "Data".toList st = { st with seg := .data } := by
  simp [segment, same_self]

theorem segment_init {E : Env F} (hE : EnvOk E) (st : St F) :
    segment E.L "Init".toList st = { st with seg := .init, labels := [] } := by
  have h : E.L.same "Init".toList "Data".toList = false := by
    rw [same_keys hE (by decide) (by decide)]; decide
  unfold segment
  rw [if_neg (by rw [h]; decide), if_pos (same_self _ _)]

theorem segment_code {E : Env F} (hE : EnvOk E) (st : St F) :
    segment E.L "Code".toList st = { st with seg := .code, labels := [] } := by
  have h : E.L.same "Code".toList "Data".toList = false := by
    rw [same_keys hE (by decide) (by decide)]; decide
  have h2 : E.L.same "Code".toList "Init".toList = false := by
    rw [same_keys hE (by decide) (by decide)]; decide
  unfold segment
  rw [if_neg (by rw [h]; decide), if_neg (by rw [h2]; decide), if_pos (same_self _ _)]

theorem version_ok {E : Env F} {s : Stream} {st : St F} {r : Str} (hs : st.spec = true)
    (hq : Q s ("AQSIS_V ".toList ++ (version ++ '\n' :: r))) : Steps E s st (str r) st := by
  have hq' : Q s ("AQSIS_V".toList ++ ' ' :: (version ++ '\n' :: r)) := hq
  have hw : Word 254 "AQSIS_V".toList := word_of (by decide)
  have hv : Word 254 version := word_of (by decide)
  have g1 := getToken_word hw (by decide) hq'
  have g2 := getToken_word hv (c := '\n') (r := r) (by decide) (Q_refl _)
  refine steps_one (eof_false hq' (c := 'A') (by simp) (by decide)) g1 (N := 0) fun n _ => ?_
  unfold pass
  simp only [hs, if_true, g2]

theorem uses_ok {E : Env F} {s : Stream} {st : St F} {r : Str} {u : Int}
    (hu : Reads E.L.readI (E.L.writeI u) u) (hs : st.spec = true)
    (hq : Q s ("USES ".toList ++ (E.L.writeI u ++ '\n' :: r))) :
    Steps E s st (str ('\n' :: r)) { st with uses := u } := by
  have hq' : Q s ("USES".toList ++ ' ' :: (E.L.writeI u ++ '\n' :: r)) := hq
  have hw : Word 254 "USES".toList := word_of (by decide)
  have g1 := getToken_word hw (by decide) hq'
  have g2 := read_back (z := 0) hu (c := '\n') (r := r) (by decide) (Q_refl _)
  refine steps_one (eof_false hq' (c := 'U') (by simp) (by decide)) g1 (N := 0) fun n _ => ?_
  unfold pass
  have e1 : "USES".toList ≠ "AQSIS_V".toList := by decide
  simp only [hs, if_true, e1, if_false, same_self, g2]

/-- What is loaded from a file that was written. -/
theorem load_write {E : Env F} (hE : EnvOk E) {s : Shader F} (h : Good E s) :
    ∃ st N, (∀ n, N ≤ n → load E n (write E.L s) = .ok st) ∧
      shaderTypes[st.type]? = some s.type ∧ st.uses = s.uses ∧ st.vars = s.vars.map Decl.var ∧
      Code E.table (Same E (s.vars.map (·.name)) s.init) s.init st.init ∧
      Code E.table (Same E (s.vars.map (·.name)) s.code) s.code st.code := by
  have hn : NamesOk E (s.vars.map (·.name)) := ⟨h.apart, by simpa using h.count, hE.std⟩
  -- the text from its end
  let codeT := writeCode E.L s.code
  let codeS := "segment ".toList ++ ("Code".toList ++ '\n' :: codeT)
  let initT := writeCode E.L s.init ++ ('\n' :: '\n' :: codeS)
  let initS := "segment ".toList ++ ("Init".toList ++ '\n' :: initT)
  let declT := writeDecls E.L s.vars ++ ('\n' :: '\n' :: initS)
  let usesT := "USES ".toList ++ (E.L.writeI s.uses ++ '\n' :: '\n' :: declT)
  let dataS := "segment ".toList ++ ("Data".toList ++ '\n' :: '\n' :: usesT)
  let verT := "AQSIS_V ".toList ++ (version ++ '\n' :: '\n' :: '\n' :: dataS)
  have htext : write E.L s = s.type ++ '\n' :: verT := by
    simp [write, verT, dataS, usesT, declT, initS, initT, codeS, codeT]
  have sp2 : ∀ {t : Stream} {r : Str}, Q t ('\n' :: '\n' :: r) → Q t r := fun hq =>
    (Q_space (by decide)).mp ((Q_space (by decide)).mp hq)
  obtain ⟨ty, hty, s1⟩ := type_ok hE h.type verT St.start rfl
  generalize ha : ({ St.start with spec := true, type := ty } : St F) = a at s1
  have a1 : a.spec = true := by rw [← ha]
  have s2 := version_ok (E := E) a1 (Q_refl verT)
  obtain ⟨t3, s3, p3⟩ := segment_ok hE (x := "Data".toList) (by simp) (s := str ('\n' :: '\n' :: dataS))
    (r := '\n' :: usesT) (st := a) a1 (sp2 (Q_refl _))
  rw [segment_data] at s3
  have s4 := uses_ok (s := t3) (st := { a with seg := .data }) h.uses a1 ((Q_space (by decide)).mp p3.1)
  obtain ⟨t5, s5, q5⟩ := decls_ok hE ('\n' :: '\n' :: initS) s.vars h.decls (str ('\n' :: '\n' :: declT))
    { a with seg := .data, uses := s.uses } a1 rfl (sp2 (Q_refl _))
  have hav : a.vars = [] := by rw [← ha]; rfl
  obtain ⟨t6, s6, p6⟩ := segment_ok hE (x := "Init".toList) (by simp) (s := t5) (r := initT)
    (st := { a with seg := .data, uses := s.uses, vars := a.vars ++ s.vars.map Decl.var }) a1 (sp2 q5)
  rw [segment_init hE] at s6
  have hnames : ∀ l : List Decl, (l.map Decl.var).map (·.name) = l.map (·.name) := by
    intro l; simp [Decl.var]
  obtain ⟨w7, t7, b7, s7, p7, c7, e7⟩ := code_ok hE hn (targets := []) ('\n' :: '\n' :: codeS) s.init h.init t6
    { a with seg := .init, uses := s.uses, vars := a.vars ++ s.vars.map Decl.var, labels := [] } a1
    (by simp) (by rw [hav, List.nil_append, hnames]) p6
  obtain ⟨t8, s8, p8⟩ := segment_ok hE (x := "Code".toList) (by simp) (s := t7) (r := codeT)
    (st := b7) (by rw [(ext2_proj e7).2.2.2.1]; exact a1) (sp2 p7.1)
  rw [segment_code hE] at s8
  obtain ⟨li, si, hb7⟩ := e7
  have hb : b7 = { a with
      seg := .init, uses := s.uses, vars := a.vars ++ s.vars.map Decl.var,
      labels := marks [] a.init.length s.init, li := li, si := si, init := a.init ++ w7 } := by
    rw [hb7]; rfl
  rw [← List.append_nil codeT] at p8
  obtain ⟨w9, t9, b9, s9, p9, c9, e9⟩ := code_ok hE hn (targets := labelsOf s.code) [] s.code h.code t8
    { b7 with seg := .code, labels := [] } (by rw [hb]; exact a1) (by simp)
    (by rw [hb]; show List.map _ (a.vars ++ _) = _; rw [hav, List.nil_append, hnames]) p8
  obtain ⟨li', si', hb9⟩ := e9
  have hac : a.code = [] := by rw [← ha]; rfl
  have hai : a.init = [] := by rw [← ha]; rfl
  have hc : b9 = { a with
      seg := .code, uses := s.uses, vars := s.vars.map Decl.var,
      labels := marks [] 0 s.code, li := li', si := si', init := w7, code := w9 } := by
    rw [hb9, hb]
    simp [St.addAll, St.area, hac, hai, hav]
  have heof : t9.eof = true := p9.2 rfl
  obtain ⟨l, hfix, hcode⟩ := fix_ok hE (all := s.code) (labels := marks [] 0 s.code)
    (targets := labelsOf s.code)
    (fun n hm => by
      obtain ⟨k, hk⟩ := at_of_mem hm
      exact ⟨k, hk, marks_at h.labels hk⟩) c9 h.code
  obtain ⟨k, N, hsteps⟩ := steps_trans s1 (steps_trans s2 (steps_trans s3 (steps_trans s4
    (steps_trans s5 (steps_trans s6 (steps_trans s7 (steps_trans s8 s9)))))))
  refine ⟨{ b9 with code := l }, N + 1 + k, fun n hnn => ?_, ?_, ?_, ?_, ?_, ?_⟩
  · obtain ⟨m, rfl⟩ : ∃ m, n = (m + 1) + k := ⟨n - k - 1, by omega⟩
    rw [load, htext]
    have := hsteps (m + 1) (by omega)
    have e : (⟨s.type ++ '\n' :: verT, false, false⟩ : Stream) = str (s.type ++ '\n' :: verT) := rfl
    rw [e, this]
    have hf : finish E b9 = .ok { b9 with code := l } := by
      unfold finish
      have h1 : b9.labels = marks [] 0 s.code := by rw [hc]
      have h2 : b9.code = w9 := by rw [hc]
      rw [h1, h2, hfix]
    rw [loadLoop, heof, hf]
    rfl
  · rw [hc]; show shaderTypes[a.type]? = _; rw [← ha]; exact hty
  · rw [hc]
  · rw [hc]
  · rw [hc]
    exact raw_code hE c7 h.init
  · exact hcode

end Verif.Shader.Slx
