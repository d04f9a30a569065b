import Verif.Rib.LexerProps

/-! # Parameter lists (C12)

What a parameter list says, defined on tokens without reference to the lexer, and the theorem that
the lexer reads exactly that. -/
namespace Verif.Rib

/-- The ways a parameter value can be written: a single value, or any number of values between
brackets; numbers of either kind for floats. -/
inductive Written : Storage → List Tok → ParamVal → Prop where
  | int1 (i) : Written .int [.int i] (.ints [i])
  | ints (a) : Written .int (.arrayBegin :: (a.map Tok.int ++ [.arrayEnd])) (.ints a)
  | num1 (t b) : numOf t = some b → Written .float [t] (.floats [b])
  | nums (xs a) : xs.map numOf = a.map some →
      Written .float (.arrayBegin :: (xs ++ [.arrayEnd])) (.floats a)
  | str1 (s) : Written .string [.str s] (.strings [s])
  | strs (a) : Written .string (.arrayBegin :: (a.map Tok.str ++ [.arrayEnd])) (.strings a)

/-- Name-value pairs one after the other; `decl` gives the declared storage of a name. -/
inductive PList (decl : List Nat → Option Storage) : List Tok → List (List Nat × ParamVal) → Prop where
  | nil : PList decl [] []
  | cons (n st ts v l ps) : decl n = some st → Written st ts v → PList decl l ps →
      PList decl (.str n :: (ts ++ l)) ((n, v) :: ps)

/-- The list ends at the end of input or at a token that cannot begin a parameter. -/
def EndsParams : List Tok → Prop
  | [] => True
  | .arrayBegin :: _ | .str _ :: _ | .int _ :: _ | .float _ :: _ => False
  | _ => True

theorem rep_done (r : List Tok) (t : Tok) : Rep ⟨r, t, false⟩ r := Or.inl ⟨rfl, rfl⟩

theorem bracket_ok {α} (elem : Tok → Option α) (he : ElemOk elem) (hend : elem .arrayEnd = none)
    (m : Lex (List α))
    (hm : m = getTok.bind fun t => if t = .arrayBegin then withBound (arrayLoop elem · []) else tokenError t)
    (xs : List Tok) (a : List α) (hx : xs.map elem = a.map some) (r : List Tok)
    (hl : PlainToks (.arrayBegin :: (xs ++ .arrayEnd :: r))) (s : LexSt)
    (hs : Rep s (.arrayBegin :: (xs ++ .arrayEnd :: r))) : m s = (.ok a, ⟨r, .arrayEnd, false⟩) :=
  ((bracketArray_char elem he hend m hm _ hl s hs).1 a r).2 ⟨xs, by simp, hx⟩

theorem numElem_eq : numElem = numOf := by funext t; cases t <;> rfl

/-- `getFloatArray` of any length is the bracketed reader. -/
theorem getFloatArray_any (s : LexSt) (l : List Tok) (hs : Rep s l) (hl : PlainToks l) :
    ∃ s0, Rep s0 l ∧ getFloatArray (-1) s = (getTok.bind fun t => if t = .arrayBegin then
      withBound (arrayLoop numElem · []) else tokenError t) s0 := by
  obtain ⟨t, s0, hp, hr⟩ : ∃ t s0, s.peek = (t, s0) ∧ Rep s0 l ∧ s0.get.1 = t := by
    cases l with
    | nil => obtain ⟨s0, h1, h2⟩ := peek_nil hs; exact ⟨_, s0, h1, h2, by rw [get_nil h2]⟩
    | cons t l =>
      have ht := (hl t (by simp)).1
      obtain ⟨s0, h1, h2⟩ := peek_cons hs ht; exact ⟨_, s0, h1, h2, by rw [get_cons h2 ht]⟩
  refine ⟨s0, hr.1, ?_⟩
  simp only [getFloatArray, Lex.bind, peekTok, hp, getTok]
  by_cases h : t = .arrayBegin
  · rw [if_pos h, hr.2, if_pos h]
    simp only [Lex.bind, getTok]
    generalize withBound (fun x => arrayLoop numElem x []) s0.get.2 = q
    obtain ⟨x, q⟩ := q
    cases x <;> simp [Lex.pure]
  · rw [if_neg h, hr.2, if_neg h]
    simp [Lex.bind, getTok, hr.2]

theorem getParam_ok {st ts v} (hw : Written st ts v) (r : List Tok) (hl : PlainToks (ts ++ r)) (s : LexSt)
    (hs : Rep s (ts ++ r)) : ∃ s', getParam st s = (.ok v, s') ∧ Rep s' r := by
  cases hw with
  | int1 i =>
    obtain ⟨s0, h1, h2⟩ := peek_cons (l := r) hs (by simp)
    have hg := get_cons h2 (by simp)
    exact ⟨_, by simp [getParam, getIntParam, Lex.bind, peekTok, h1, getTok, hg, Lex.pure]; rfl, rep_done _ _⟩
  | ints a =>
    have hs' : Rep s (.arrayBegin :: (a.map Tok.int ++ .arrayEnd :: r)) := by simpa using hs
    have hl' : PlainToks (.arrayBegin :: (a.map Tok.int ++ .arrayEnd :: r)) := by simpa using hl
    obtain ⟨s0, h1, h2⟩ := peek_cons hs' (by simp)
    have := bracket_ok intElem ⟨rfl, fun _ => rfl⟩ rfl getIntArray rfl _ a (by simp [intElem]) r hl' s0 h2
    exact ⟨_, by simp [getParam, getIntParam, Lex.bind, peekTok, h1, this, Lex.pure]; rfl, rep_done _ _⟩
  | num1 t b h =>
    have ht : t ≠ .eof := by rintro rfl; simp [numOf] at h
    obtain ⟨s0, h1, h2⟩ := peek_cons (l := r) hs ht
    have hg := get_cons h2 ht
    refine ⟨⟨r, t, false⟩, ?_, rep_done _ _⟩
    simp only [getParam, getFloatParam, Lex.bind, peekTok, h1]
    cases t <;> simp [numOf] at h <;> subst h <;> simp [Lex.bind, getTok, hg, Lex.pure]
  | nums xs a h =>
    have hs' : Rep s (.arrayBegin :: (xs ++ .arrayEnd :: r)) := by simpa using hs
    have hl' : PlainToks (.arrayBegin :: (xs ++ .arrayEnd :: r)) := by simpa using hl
    obtain ⟨s0, h1, h2⟩ := peek_cons hs' (by simp)
    obtain ⟨s1, h3, h4⟩ := getFloatArray_any s0 _ h2 hl'
    have := bracket_ok numElem ⟨rfl, fun _ => rfl⟩ rfl _ rfl xs a (by rw [numElem_eq]; exact h) r hl' s1 h3
    rw [this] at h4
    exact ⟨_, by simp [getParam, getFloatParam, Lex.bind, peekTok, h1, h4, Lex.pure]; rfl, rep_done _ _⟩
  | str1 i =>
    obtain ⟨s0, h1, h2⟩ := peek_cons (l := r) hs (by simp)
    have hg := get_cons h2 (by simp)
    exact ⟨_, by simp [getParam, getStringParam, Lex.bind, peekTok, h1, getTok, hg, Lex.pure]; rfl, rep_done _ _⟩
  | strs a =>
    have hs' : Rep s (.arrayBegin :: (a.map Tok.str ++ .arrayEnd :: r)) := by simpa using hs
    have hl' : PlainToks (.arrayBegin :: (a.map Tok.str ++ .arrayEnd :: r)) := by simpa using hl
    obtain ⟨s0, h1, h2⟩ := peek_cons hs' (by simp)
    have := bracket_ok strElem ⟨rfl, fun _ => rfl⟩ rfl getStringArray rfl _ a (by simp [strElem]) r hl' s0 h2
    exact ⟨_, by simp [getParam, getStringParam, Lex.bind, peekTok, h1, this, Lex.pure]; rfl, rep_done _ _⟩

theorem elems_int {xs : List Tok} {a : List Int} (h : xs.map intElem = a.map some) : xs = a.map Tok.int := by
  induction xs generalizing a with
  | nil => cases a <;> simp_all
  | cons x xs ih =>
    cases a with
    | nil => simp at h
    | cons y a =>
      simp only [List.map_cons, List.cons.injEq] at h
      rw [ih h.2, List.map_cons]
      congr 1
      have := h.1
      cases x <;> simp_all [intElem]

theorem elems_str {xs : List Tok} {a : List (List Nat)} (h : xs.map strElem = a.map some) :
    xs = a.map Tok.str := by
  induction xs generalizing a with
  | nil => cases a <;> simp_all
  | cons x xs ih =>
    cases a with
    | nil => simp at h
    | cons y a =>
      simp only [List.map_cons, List.cons.injEq] at h
      rw [ih h.2, List.map_cons]
      congr 1
      have := h.1
      cases x <;> simp_all [strElem]

/-- A value reader either finds a value written there or throws. -/
theorem getParam_total (st : Storage) (l : List Tok) (hl : PlainToks l) (s : LexSt) (hs : Rep s l) :
    (∃ ts v r, l = ts ++ r ∧ Written st ts v) ∨ ∃ s', getParam st s = (.throw, s') := by
  cases st with
  | int =>
    have key : ∀ s0, Rep s0 l → getIntParam s = getIntArray s0 →
        (∃ ts v r, l = ts ++ r ∧ Written .int ts v) ∨ ∃ s', getParam .int s = (.throw, s') := by
      intro s0 h0 he
      obtain ⟨h1, h2⟩ := bracketArray_char intElem ⟨rfl, fun _ => rfl⟩ rfl getIntArray rfl l hl s0 h0
      rcases h2 with ⟨a, r, h⟩ | ⟨s', h⟩
      · obtain ⟨xs, e, hx⟩ := (h1 a r).1 h
        exact Or.inl ⟨.arrayBegin :: (a.map Tok.int ++ [.arrayEnd]), _, r,
          by rw [e, elems_int hx]; simp, .ints a⟩
      · exact Or.inr ⟨s', by simp [getParam, Lex.bind, he, h]⟩
    cases l with
    | nil =>
      obtain ⟨s0, h1, h2⟩ := peek_nil hs
      exact key s0 h2 (by simp [getIntParam, Lex.bind, peekTok, h1])
    | cons t l =>
      obtain ⟨s0, h1, h2⟩ := peek_cons hs (hl t (by simp)).1
      cases t with
      | int i => exact Or.inl ⟨[.int i], _, l, rfl, .int1 i⟩
      | _ => exact key s0 h2 (by simp [getIntParam, Lex.bind, peekTok, h1])
  | string =>
    have key : ∀ s0, Rep s0 l → getStringParam s = getStringArray s0 →
        (∃ ts v r, l = ts ++ r ∧ Written .string ts v) ∨ ∃ s', getParam .string s = (.throw, s') := by
      intro s0 h0 he
      obtain ⟨h1, h2⟩ := bracketArray_char strElem ⟨rfl, fun _ => rfl⟩ rfl getStringArray rfl l hl s0 h0
      rcases h2 with ⟨a, r, h⟩ | ⟨s', h⟩
      · obtain ⟨xs, e, hx⟩ := (h1 a r).1 h
        exact Or.inl ⟨.arrayBegin :: (a.map Tok.str ++ [.arrayEnd]), _, r,
          by rw [e, elems_str hx]; simp, .strs a⟩
      · exact Or.inr ⟨s', by simp [getParam, Lex.bind, he, h]⟩
    cases l with
    | nil =>
      obtain ⟨s0, h1, h2⟩ := peek_nil hs
      exact key s0 h2 (by simp [getStringParam, Lex.bind, peekTok, h1])
    | cons t l =>
      obtain ⟨s0, h1, h2⟩ := peek_cons hs (hl t (by simp)).1
      cases t with
      | str i => exact Or.inl ⟨[.str i], _, l, rfl, .str1 i⟩
      | _ => exact key s0 h2 (by simp [getStringParam, Lex.bind, peekTok, h1])
  | float =>
    have key : ∀ s0, Rep s0 l → getFloatParam s = getFloatArray (-1) s0 →
        (∃ ts v r, l = ts ++ r ∧ Written .float ts v) ∨ ∃ s', getParam .float s = (.throw, s') := by
      intro s0 h0 he
      obtain ⟨s1, h3, h4⟩ := getFloatArray_any s0 l h0 hl
      obtain ⟨h1, h2⟩ := bracketArray_char numElem ⟨rfl, fun _ => rfl⟩ rfl _ rfl l hl s1 h3
      rcases h2 with ⟨a, r, h⟩ | ⟨s', h⟩
      · obtain ⟨xs, e, hx⟩ := (h1 a r).1 h
        rw [numElem_eq] at hx
        exact Or.inl ⟨.arrayBegin :: (xs ++ [.arrayEnd]), _, r, by rw [e]; simp, .nums xs a hx⟩
      · exact Or.inr ⟨s', by simp only [getParam]; rw [Lex.bind, he, h4, h]⟩
    cases l with
    | nil =>
      obtain ⟨s0, h1, h2⟩ := peek_nil hs
      exact key s0 h2 (by simp [getFloatParam, Lex.bind, peekTok, h1])
    | cons t l =>
      obtain ⟨s0, h1, h2⟩ := peek_cons hs (hl t (by simp)).1
      cases t with
      | int i => exact Or.inl ⟨[.int i], _, l, rfl, .num1 _ (.ofInt i) rfl⟩
      | float i => exact Or.inl ⟨[.float i], _, l, rfl, .num1 _ (.ofFloat i) rfl⟩
      | _ => exact key s0 h2 (by simp [getFloatParam, Lex.bind, peekTok, h1])

theorem peekType_end {l : List Tok} (hl : PlainToks l) (he : EndsParams l) {s : LexSt} (hs : Rep s l) :
    ∃ s', peekNextType s = (.ok .requestEnd, s') ∧ Rep s' l := by
  cases l with
  | nil =>
    obtain ⟨s0, h1, h2⟩ := peek_nil hs
    exact ⟨s0, by simp [peekNextType, Lex.bind, peekTok, h1, Lex.pure], h2⟩
  | cons t l =>
    have ht := hl t (by simp)
    obtain ⟨s0, h1, h2⟩ := peek_cons hs ht.1
    refine ⟨s0, ?_, h2⟩
    cases t <;> simp [EndsParams] at he <;> simp [peekNextType, Lex.bind, peekTok, h1, Lex.pure]
    exact ht.2 rfl

theorem peekType_more {t : Tok} {l : List Tok} (hl : PlainToks (t :: l)) (he : ¬ EndsParams (t :: l)) {s : LexSt}
    (hs : Rep s (t :: l)) :
    ∃ s' x, peekNextType s = (.ok x, s') ∧ x ≠ .requestEnd ∧ Rep s' (t :: l) := by
  have ht := hl t (by simp)
  obtain ⟨s0, h1, h2⟩ := peek_cons hs ht.1
  cases t <;> simp [EndsParams] at he <;>
    exact ⟨s0, _, by simp [peekNextType, Lex.bind, peekTok, h1, Lex.pure]; rfl, by simp, h2⟩

theorem paramLoop_ok {decl l ps} (h : PList decl l ps) (r : List Tok) (he : EndsParams r)
    (hl : PlainToks (l ++ r)) : ∀ f acc s, Rep s (l ++ r) → l.length < f →
      ∃ s', paramLoop decl f acc s = (.ok (acc.reverse ++ ps), s') ∧ Rep s' r := by
  induction h with
  | nil =>
    intro f acc s hs hf
    obtain ⟨f, rfl⟩ : ∃ g, f = g + 1 := ⟨f - 1, by omega⟩
    obtain ⟨s1, h1, h2⟩ := peekType_end hl he hs
    exact ⟨s1, by simp [paramLoop, Lex.bind, h1, Lex.pure], h2⟩
  | cons n st ts v l ps hd hw _ ih =>
    intro f acc s hs hf
    obtain ⟨f, rfl⟩ : ∃ g, f = g + 1 := ⟨f - 1, by omega⟩
    have e : (Tok.str n :: (ts ++ l)) ++ r = Tok.str n :: (ts ++ (l ++ r)) := by simp
    rw [e] at hs hl
    obtain ⟨s1, x, h1, hx, h2⟩ := peekType_more hl (by simp [EndsParams]) hs
    have hg := get_cons h2 (by simp)
    have hl' : PlainToks (ts ++ (l ++ r)) := fun t ht => hl t (List.mem_cons_of_mem _ ht)
    obtain ⟨s2, h3, h4⟩ := getParam_ok hw (l ++ r) hl' ⟨ts ++ (l ++ r), .str n, false⟩ (rep_done _ _)
    obtain ⟨s3, h5, h6⟩ := ih (fun t ht => hl' t (List.mem_append_right _ ht)) f ((n, v) :: acc) s2 h4
      (by simp at hf; omega)
    refine ⟨s3, ?_, h6⟩
    simp only [paramLoop, Lex.bind, h1, if_neg hx, getString, getTok, hg, Lex.pure, hd, h3, h5]
    simp

theorem paramLoop_total (decl) : ∀ (k : Nat) (l : List Tok), l.length ≤ k → PlainToks l → ∀ f acc s, Rep s l →
    l.length < f →
    (∃ l1 ps r, l = l1 ++ r ∧ PList decl l1 ps ∧ EndsParams r) ∨ ∃ s', paramLoop decl f acc s = (.throw, s') := by
  intro k
  induction k with
  | zero =>
    intro l hk hl f acc s hs hf
    have : l = [] := List.length_eq_zero_iff.1 (by omega)
    subst this
    exact Or.inl ⟨[], [], [], rfl, .nil, trivial⟩
  | succ k ih =>
    intro l hk hl f acc s hs hf
    obtain ⟨f, rfl⟩ : ∃ g, f = g + 1 := ⟨f - 1, by omega⟩
    by_cases he : EndsParams l
    · exact Or.inl ⟨[], [], l, rfl, .nil, he⟩
    · cases l with
      | nil => exact absurd trivial he
      | cons t l =>
        obtain ⟨s1, x, h1, hx, h2⟩ := peekType_more hl he hs
        have ht := hl t (by simp)
        have hg := get_cons h2 ht.1
        by_cases hstr : ∃ n, t = .str n
        · obtain ⟨n, rfl⟩ := hstr
          have hl' : PlainToks l := fun t ht => hl t (List.mem_cons_of_mem _ ht)
          cases hd : decl n with
          | none =>
            exact Or.inr ⟨_, by simp only [paramLoop, Lex.bind, h1, if_neg hx, getString, getTok, hg, Lex.pure, hd]; rfl⟩
          | some st =>
            rcases getParam_total st l hl' ⟨l, .str n, false⟩ (rep_done _ _) with ⟨ts, v, r, rfl, hw⟩ | ⟨s', h⟩
            · obtain ⟨s2, h3, h4⟩ := getParam_ok hw r hl' ⟨ts ++ r, .str n, false⟩ (rep_done _ _)
              have hl'' : PlainToks r := fun t ht => hl' t (List.mem_append_right _ ht)
              rcases ih r (by simp at hk; omega) hl'' f ((n, v) :: acc) s2 h4 (by simp at hf; omega) with
                ⟨l1, ps, r', rfl, hp, hr⟩ | ⟨s', h⟩
              · exact Or.inl ⟨.str n :: (ts ++ l1), _, r', by simp, .cons n st ts v l1 ps hd hw hp, hr⟩
              · refine Or.inr ⟨s', ?_⟩
                simp only [paramLoop, Lex.bind, h1, if_neg hx, getString, getTok, hg, Lex.pure, hd, h3, h]
            · refine Or.inr ⟨s', ?_⟩
              simp only [paramLoop, Lex.bind, h1, if_neg hx, getString, getTok, hg, Lex.pure, hd, h]
        · right
          simp only [paramLoop, Lex.bind, h1, if_neg hx, getString, getTok, hg]
          cases t <;> simp_all [tokenError, Lex.fail, Lex.bind, unget, EndsParams]

/-- **C12**, parameter lists: names and values are delivered as written and in the order written, up
to the first token that cannot begin a parameter, which is left for the next request; if the tokens
are not a parameter list, it is an error. -/
theorem C12_param_list (decl : List Nat → Option Storage) (l : List Tok) (hl : ∀ t ∈ l, t ≠ .eof ∧ t ≠ .ub)
    (s : LexSt) (hs : Rep s l) :
    (∀ l1 ps r, l = l1 ++ r → PList decl l1 ps → EndsParams r →
      ∃ s', readParamList decl s = (.ok ps, s') ∧ Rep s' r) ∧
    ((¬ ∃ l1 ps r, l = l1 ++ r ∧ PList decl l1 ps ∧ EndsParams r) →
      ∃ s', readParamList decl s = (.throw, s')) := by
  have hlen := hs.length
  constructor
  · rintro l1 ps r rfl hp he
    obtain ⟨s', h1, h2⟩ := paramLoop_ok hp r he hl (s.rest.length + 2) [] s hs (by simp at hlen; omega)
    exact ⟨s', by simpa [readParamList, withBound] using h1, h2⟩
  · intro hno
    rcases paramLoop_total decl l.length l (Nat.le_refl _) hl (s.rest.length + 2) [] s hs (by omega) with h | ⟨s', h⟩
    · exact absurd h hno
    · exact ⟨s', by simpa [readParamList, withBound] using h⟩

/-- `"P" [1 2.0] "name" "x"` followed by a request. -/
example : ∃ s', readParamList (fun n => some (if n = [80] then .float else .string))
    (.start [.str [80], .arrayBegin, .int 1, .float (.bits32 0), .arrayEnd, .str [110], .str [120], .req [1]] .eof) =
      (.ok [([80], .floats [.ofInt 1, .ofFloat (.bits32 0)]), ([110], .strings [[120]])], s') ∧
    Rep s' [.req [1]] :=
  (C12_param_list _ [.str [80], .arrayBegin, .int 1, .float (.bits32 0), .arrayEnd, .str [110], .str [120], .req [1]]
    (by simp) _ (Rep.start _ _)).1
    [.str [80], .arrayBegin, .int 1, .float (.bits32 0), .arrayEnd, .str [110], .str [120]] _ [.req [1]] rfl
    (.cons [80] .float [.arrayBegin, .int 1, .float (.bits32 0), .arrayEnd] _ [.str [110], .str [120]] _ rfl
      (.nums [.int 1, .float (.bits32 0)] _ rfl)
      (.cons [110] .string [.str [120]] _ [] _ rfl (.str1 _) .nil)) trivial

end Verif.Rib
