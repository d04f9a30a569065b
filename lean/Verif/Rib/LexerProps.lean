import Verif.Rib.LexerLemmas

/-! Properties C10 (recovery from malformed requests) and C12 (array arguments). -/
namespace Verif.Rib

/-! ### C10 -/

/-- **C10**, general form: if `B` is empty or begins with a request token then parsing `A ++ B`
means parsing `A`, then parsing `B` with the parser state that `A` left.  Nothing in `A`, however
malformed, changes which requests of `B` are delivered or with what arguments.  Holds for every
table of handlers (each an arbitrary program over the lexer functions). -/
theorem C10_requests_independent {σ γ} (H : σ → List Nat → Option (Handler σ γ)) (st : σ) (A B : List Tok)
    (hA : ∀ t ∈ A, t ≠ .eof ∧ t ≠ .ub) (hB : ∀ t ∈ B, t ≠ .eof ∧ t ≠ .ub)
    (hb : B = [] ∨ ∃ n r, B = .req n :: r) :
    parse H st (A ++ B) =
      ((parse H st A).1 ++ (parse H (parse H st A).2 B).1, (parse H (parse H st A).2 B).2) := by
  obtain ⟨ev, st', _, h⟩ := parse_split H A.length A rfl hA st
  obtain ⟨s1, f1, h1, h2, h3⟩ := h B ⟨hB, hb⟩ (.start (A ++ B) .eof) ((A ++ B).length + 1) (Rep.start _ _) (by omega)
  obtain ⟨s2, f2, h4, h5, h6⟩ := h [] Bdry.nil (.start A .eof) (A.length + 1) (by simpa using Rep.start A .eof) (by simp)
  have hA' : parse H st A = (ev, st') := by
    rw [parse, h6, parseLoop_nil H h4 h5, List.append_nil]
  rw [hA', parse, h3, parseLoop_eq H hB st' h1 h2]

/-- The parser never trips the `assert` in `unget`, never loops past its bound, and produces only
renderer calls and error reports. -/
theorem C10_only_calls_and_errors {σ γ} (H : σ → List Nat → Option (Handler σ γ)) (st : σ) (A : List Tok)
    (hA : ∀ t ∈ A, t ≠ .eof ∧ t ≠ .ub) :
    ∀ e ∈ (parse H st A).1, e = .error ∨ ∃ c, e = .call c := by
  obtain ⟨ev, st', hn, h⟩ := parse_split H A.length A rfl hA st
  obtain ⟨s2, f2, h4, h5, h6⟩ := h [] Bdry.nil (.start A .eof) (A.length + 1) (by simpa using Rep.start A .eof) (by simp)
  rw [parse, h6, parseLoop_nil H h4 h5, List.append_nil]
  intro e he
  have := hn e he
  cases e <;> simp_all [Event.Normal]

/-- A request `n` with argument tokens `args` that is not delivered: parsed alone it produces no call. -/
def Bad {σ γ} (H : σ → List Nat → Option (Handler σ γ)) (st : σ) (n : List Nat) (args : List Tok) : Prop :=
  ∀ c, .call c ∉ (parse H st (.req n :: args)).1

/-- A malformed request on its own: exactly one error, and the parser state is unchanged. -/
theorem C10_bad_request_one_error {σ γ} (H : σ → List Nat → Option (Handler σ γ)) (st : σ) (n : List Nat)
    (args : List Tok) (ha : ∀ t ∈ args, (t ≠ .eof ∧ t ≠ .ub) ∧ ∀ m, t ≠ .req m) (hbad : Bad H st n args) :
    parse H st (.req n :: args) = ([.error], st) := by
  have hargs : Args args := fun t ht => ⟨(ha t ht).1, by
    cases t <;> first | rfl | (exact absurd rfl ((ha _ ht).2 _))⟩
  have hnext : nextRequest (.start (.req n :: args) .eof) = (.ok (some n), ⟨args, .req n, false⟩) :=
    nextRequest_req (Rep.start _ _)
  have hrec : ∀ a' s, a' <:+ args → Rep s a' →
      recover (parseLoop H (args.length + 1)) st s = ([.error], st) := by
    intro a' s hs hr
    obtain ⟨s', h1, h2⟩ := recover_eq (again := parseLoop H (args.length + 1)) (st := st) (hargs.suffix hs) Bdry.nil
      (by simpa using hr)
    rw [h2, parseLoop_nil H h1 (by omega)]
  unfold Bad at hbad
  rw [parse] at hbad ⊢
  simp only [List.length_cons] at hbad ⊢
  rw [parseLoop, hnext] at hbad ⊢
  simp only at hbad ⊢
  cases hH : H st n with
  | none =>
    simp only
    exact hrec args _ (List.suffix_refl _) (Or.inl ⟨rfl, rfl⟩)
  | some h =>
    rw [hH] at hbad
    simp only at hbad ⊢
    obtain ⟨x, a', hx, hs', hl⟩ := loc_run h args hargs
    obtain ⟨s2, h1, h2⟩ := hl [] Bdry.nil ⟨args, .req n, false⟩ (Or.inl ⟨rfl, by simp⟩) (args.length + 1) (by omega)
    simp only [List.append_nil] at h2
    dsimp only at h1
    rw [h1] at hbad ⊢
    cases x with
    | throw => exact hrec a' s2 hs' h2
    | ok d =>
      exfalso
      simp only at hbad
      by_cases hd : d.throws = true
      · rw [if_pos hd] at hbad
        exact hbad d.call (List.mem_cons_self ..)
      · rw [if_neg hd] at hbad
        exact hbad d.call (List.mem_cons_self ..)
    | _ => exact hx.elim

/-- **C10**: a malformed request (name `n`, arguments `args`) between `A` and `B` adds one error
report and changes nothing else. -/
theorem C10_bad_request_skipped {σ γ} (H : σ → List Nat → Option (Handler σ γ)) (st : σ) (A B : List Tok)
    (n : List Nat) (args : List Tok)
    (hA : ∀ t ∈ A, t ≠ .eof ∧ t ≠ .ub) (hB : ∀ t ∈ B, t ≠ .eof ∧ t ≠ .ub)
    (hb : B = [] ∨ ∃ m r, B = .req m :: r)
    (ha : ∀ t ∈ args, (t ≠ .eof ∧ t ≠ .ub) ∧ ∀ m, t ≠ .req m)
    (hbad : Bad H (parse H st A).2 n args) :
    (parse H st (A ++ .req n :: args ++ B)).1 =
        (parse H st A).1 ++ .error :: (parse H (parse H st A).2 B).1 ∧
      (parse H st (A ++ B)).1 = (parse H st A).1 ++ (parse H (parse H st A).2 B).1 := by
  have hargs : ∀ t ∈ Tok.req n :: args, t ≠ .eof ∧ t ≠ .ub := by
    intro t ht
    rcases List.mem_cons.1 ht with rfl | ht
    · exact ⟨by simp, by simp⟩
    · exact (ha t ht).1
  constructor
  · rw [List.append_assoc, C10_requests_independent H st A (.req n :: args ++ B) hA
      (PlainToks.append hargs hB) (Or.inr ⟨n, args ++ B, rfl⟩),
      C10_requests_independent H _ (.req n :: args) B hargs hB hb,
      C10_bad_request_one_error H _ n args ha hbad]
    rfl
  · rw [C10_requests_independent H st A B hA hB hb]

/-! Non-vacuity: a small table with `Translate` (three floats), `Sphere` (ribparser.cpp:1169-1178)
and `Color` (a float array whose length is the parser state, ribparser.cpp:807-811). -/
def demoTable : Nat → List Nat → Option (Handler Nat (List Num)) := fun nc n =>
  if n = [84] then some (.getFloat fun x => .getFloat fun y => .getFloat fun z => .deliver [x, y, z] false nc)
  else if n = [83] then some (.getFloatArray 4 fun a => .params (fun _ => some .float) fun _ => .deliver a false nc)
  else if n = [67] then some (.getFloatArray nc fun a => .deliver a false nc)
  else none

example : parse demoTable 3 [.req [84], .int 1, .int 2, .int 3, .req [83], .int 7, .req [84], .int 4, .int 5, .int 6] =
    ([.call [.ofInt 1, .ofInt 2, .ofInt 3], .error, .call [.ofInt 4, .ofInt 5, .ofInt 6]], 3) := by decide
example : Bad demoTable 3 [83] [.int 7] := by
  intro c h
  rw [show (parse demoTable 3 [.req [83], .int 7]).1 = [.error] by decide] at h
  simp at h

/-! ### C12 -/

/-- The numbers a token stands for as a float argument; `none` if it is no number. -/
def numOf : Tok → Option Num
  | .int i => some (.ofInt i)
  | .float f => some (.ofFloat f)
  | _ => none

theorem arrayLoop_char {α} (elem : Tok → Option α) (he : ElemOk elem) (hend : elem .arrayEnd = none)
    (l : List Tok) (hl : PlainToks l) :
    ∀ acc f s, Rep s l → l.length < f →
      (∃ xs a r, l = xs ++ .arrayEnd :: r ∧ xs.map elem = a.map some ∧
        arrayLoop elem f acc s = (.ok (acc.reverse ++ a), ⟨r, .arrayEnd, false⟩)) ∨
      ((¬ ∃ xs, ∃ a : List α, ∃ r, l = xs ++ Tok.arrayEnd :: r ∧ xs.map elem = a.map some) ∧
        ∃ s', arrayLoop elem f acc s = (.throw, s')) := by
  induction l with
  | nil =>
    intro acc f s hs hf
    obtain ⟨f, rfl⟩ : ∃ g, f = g + 1 := ⟨f - 1, by omega⟩
    refine Or.inr ⟨by simp, ⟨[], .eof, true⟩, ?_⟩
    have hg := get_nil hs
    simp only [arrayLoop, Lex.bind, getTok, hg, he.1]
    rfl
  | cons t l ih =>
    intro acc f s hs hf
    obtain ⟨f, rfl⟩ : ∃ g, f = g + 1 := ⟨f - 1, by simp at hf; omega⟩
    have ht := hl t (List.mem_cons_self ..)
    have hg := get_cons hs ht.1
    cases h : elem t with
    | some v =>
      have := ih (fun x hx => hl x (List.mem_cons_of_mem _ hx)) (v :: acc) f ⟨l, t, false⟩ (Or.inl ⟨rfl, rfl⟩) (by simpa using hf)
      have hstep : arrayLoop elem (f + 1) acc s = arrayLoop elem f (v :: acc) ⟨l, t, false⟩ := by
        rw [arrayLoop]; simp only [Lex.bind, getTok, hg, h]
      rw [hstep]
      rcases this with ⟨xs, a, r, h1, h2, h3⟩ | ⟨h1, h2⟩
      · refine Or.inl ⟨t :: xs, v :: a, r, by rw [h1]; rfl, by simp [h, h2], ?_⟩
        rw [h3]; simp
      · refine Or.inr ⟨?_, h2⟩
        rintro ⟨xs, a, r, h3, h4⟩
        cases xs with
        | nil => simp only [List.nil_append, List.cons.injEq] at h3; rw [h3.1, hend] at h; cases h
        | cons x xs =>
          simp only [List.cons_append, List.cons.injEq] at h3
          cases a with
          | nil => simp at h4
          | cons b a =>
            simp only [List.map_cons, List.cons.injEq] at h4
            exact h1 ⟨xs, a, r, h3.2, h4.2⟩
    | none =>
      by_cases hte : t = .arrayEnd
      · subst hte
        refine Or.inl ⟨[], [], l, rfl, rfl, ?_⟩
        rw [arrayLoop]; simp only [Lex.bind, getTok, hg, h, if_true]; simp [Lex.pure]
      · refine Or.inr ⟨?_, ?_⟩
        · rintro ⟨xs, a, r, h3, h4⟩
          cases xs with
          | nil => simp only [List.nil_append, List.cons.injEq] at h3; exact hte h3.1
          | cons x xs =>
            simp only [List.cons_append, List.cons.injEq] at h3
            cases a with
            | nil => simp at h4
            | cons b a =>
              simp only [List.map_cons, List.cons.injEq] at h4
              rw [← h3.1, h] at h4; cases h4.1
        · have : ∃ s', (tokenError t : Lex (List α)) ⟨l, t, false⟩ = (.throw, s') := by
            cases t <;> first | exact ⟨_, rfl⟩ | (exact absurd rfl ht.2)
          obtain ⟨s', h'⟩ := this
          refine ⟨s', ?_⟩
          rw [arrayLoop]; simp only [Lex.bind, getTok, hg, h]
          rw [if_neg hte]; exact h'

theorem split_unique {α} {elem : Tok → Option α} (hend : elem .arrayEnd = none) {xs ys : List Tok} {a b : List α} {r q}
    (h : xs ++ Tok.arrayEnd :: r = ys ++ Tok.arrayEnd :: q) (hx : xs.map elem = a.map some) (hy : ys.map elem = b.map some) :
    a = b ∧ r = q := by
  induction xs generalizing ys a b with
  | nil =>
    cases ys with
    | nil =>
      simp only [List.nil_append, List.cons.injEq] at h
      cases a <;> cases b <;> simp_all
    | cons y ys =>
      simp only [List.nil_append, List.cons_append, List.cons.injEq] at h
      cases b with
      | nil => simp at hy
      | cons c b => simp only [List.map_cons, List.cons.injEq, ← h.1, hend] at hy; cases hy.1
  | cons x xs ih =>
    cases a with
    | nil => simp at hx
    | cons c a =>
      simp only [List.map_cons, List.cons.injEq] at hx
      cases ys with
      | nil =>
        simp only [List.nil_append, List.cons_append, List.cons.injEq] at h
        rw [h.1, hend] at hx; cases hx.1
      | cons y ys =>
        cases b with
        | nil => simp at hy
        | cons d b =>
          simp only [List.map_cons, List.cons.injEq] at hy
          simp only [List.cons_append, List.cons.injEq] at h
          obtain ⟨h1, h2⟩ := ih h.2 hx.2 hy.2
          have : some c = some d := by rw [← hx.1, ← hy.1, h.1]
          simp_all

theorem bracketArray_char {α} (elem : Tok → Option α) (he : ElemOk elem) (hend : elem .arrayEnd = none)
    (m : Lex (List α))
    (hm : m = getTok.bind fun t => if t = .arrayBegin then withBound (arrayLoop elem · []) else tokenError t)
    (l : List Tok) (hl : PlainToks l) (s : LexSt) (hs : Rep s l) :
    (∀ a r, (m s = (.ok a, ⟨r, .arrayEnd, false⟩)) ↔
      ∃ xs, l = .arrayBegin :: xs ++ .arrayEnd :: r ∧ xs.map elem = a.map some) ∧
    ((∃ a r, m s = (.ok a, ⟨r, .arrayEnd, false⟩)) ∨ ∃ s', m s = (.throw, s')) := by
  subst hm
  cases l with
  | nil =>
    have hg := get_nil hs
    have : (getTok.bind fun t => if t = .arrayBegin then withBound (arrayLoop elem · []) else tokenError t) s =
        (.throw, ⟨[], .eof, true⟩) := by
      simp only [Lex.bind, getTok, hg]; rfl
    rw [this]
    refine ⟨fun a r => ?_, Or.inr ⟨_, rfl⟩⟩
    simp
  | cons t l =>
    have ht := hl t (List.mem_cons_self ..)
    have hg := get_cons hs ht.1
    by_cases hb : t = .arrayBegin
    · subst hb
      have heq : (getTok.bind fun t => if t = .arrayBegin then withBound (arrayLoop elem · []) else tokenError t) s =
          arrayLoop elem (l.length + 2) [] ⟨l, .arrayBegin, false⟩ := by
        simp only [Lex.bind, getTok, hg, if_true, withBound]
      rw [heq]
      rcases arrayLoop_char elem he hend l (fun x hx => hl x (List.mem_cons_of_mem _ hx)) [] (l.length + 2)
        ⟨l, .arrayBegin, false⟩ (Or.inl ⟨rfl, rfl⟩) (by omega) with ⟨xs, a, r, h1, h2, h3⟩ | ⟨h1, s', h2⟩
      · rw [h3]
        refine ⟨fun b q => ?_, Or.inl ⟨_, _, rfl⟩⟩
        constructor
        · intro h
          simp only [List.reverse_nil, List.nil_append, Prod.mk.injEq, Res.ok.injEq, LexSt.mk.injEq] at h
          obtain ⟨rfl, rfl, _⟩ := h
          exact ⟨xs, by rw [h1]; rfl, h2⟩
        · rintro ⟨ys, h4, h5⟩
          simp only [List.cons_append, List.cons.injEq, true_and] at h4
          obtain ⟨rfl, rfl⟩ := split_unique hend (h1.symm.trans h4) h2 h5
          simp
      · rw [h2]
        refine ⟨fun b q => ?_, Or.inr ⟨_, rfl⟩⟩
        constructor
        · intro h; simp at h
        · rintro ⟨ys, h4, h5⟩
          simp only [List.cons_append, List.cons.injEq, true_and] at h4
          exact (h1 ⟨ys, b, q, h4, h5⟩).elim
    · have : ∃ s', (getTok.bind fun t => if t = .arrayBegin then withBound (arrayLoop elem · []) else tokenError t) s =
          (.throw, s') := by
        simp only [Lex.bind, getTok, hg]
        rw [if_neg hb]
        cases t <;> first | exact ⟨_, rfl⟩ | (exact absurd rfl ht.2)
      obtain ⟨s', h'⟩ := this
      rw [h']
      refine ⟨fun a r => ?_, Or.inr ⟨_, rfl⟩⟩
      constructor
      · intro h; simp at h
      · rintro ⟨xs, h1, _⟩
        simp only [List.cons_append, List.cons.injEq] at h1
        exact (hb h1.1).elim

/-- **C12**, integer arrays: the value is delivered exactly when the tokens are `[ i1 … ik ]`, with
the elements in order; anything else is an error. -/
theorem C12_int_array (l : List Tok) (hl : ∀ t ∈ l, t ≠ .eof ∧ t ≠ .ub) (s : LexSt) (hs : Rep s l) :
    (∀ a r, (getIntArray s = (.ok a, ⟨r, .arrayEnd, false⟩)) ↔
      l = .arrayBegin :: a.map Tok.int ++ .arrayEnd :: r) ∧
    ((∃ a r, getIntArray s = (.ok a, ⟨r, .arrayEnd, false⟩)) ∨ ∃ s', getIntArray s = (.throw, s')) := by
  obtain ⟨h1, h2⟩ := bracketArray_char intElem ⟨rfl, fun _ => rfl⟩ rfl getIntArray rfl l hl s hs
  refine ⟨fun a r => (h1 a r).trans ⟨?_, fun h => ⟨_, h, by simp [intElem]⟩⟩, h2⟩
  rintro ⟨xs, h, hx⟩
  have : xs = a.map Tok.int := by
    clear h h1 h2
    induction xs generalizing a with
    | nil => cases a <;> simp_all
    | cons x xs ih =>
      cases a with
      | nil => simp at hx
      | cons b a =>
        simp only [List.map_cons, List.cons.injEq] at hx
        rw [ih a hx.2]
        cases x <;> simp_all [intElem]
  rw [h, this]

/-- **C12**, string arrays. -/
theorem C12_string_array (l : List Tok) (hl : ∀ t ∈ l, t ≠ .eof ∧ t ≠ .ub) (s : LexSt) (hs : Rep s l) :
    (∀ a r, (getStringArray s = (.ok a, ⟨r, .arrayEnd, false⟩)) ↔
      l = .arrayBegin :: a.map Tok.str ++ .arrayEnd :: r) ∧
    ((∃ a r, getStringArray s = (.ok a, ⟨r, .arrayEnd, false⟩)) ∨ ∃ s', getStringArray s = (.throw, s')) := by
  obtain ⟨h1, h2⟩ := bracketArray_char strElem ⟨rfl, fun _ => rfl⟩ rfl getStringArray rfl l hl s hs
  refine ⟨fun a r => (h1 a r).trans ⟨?_, fun h => ⟨_, h, by simp [strElem]⟩⟩, h2⟩
  rintro ⟨xs, h, hx⟩
  have : xs = a.map Tok.str := by
    clear h h1 h2
    induction xs generalizing a with
    | nil => cases a <;> simp_all
    | cons x xs ih =>
      cases a with
      | nil => simp at hx
      | cons b a =>
        simp only [List.map_cons, List.cons.injEq] at hx
        rw [ih a hx.2]
        cases x <;> simp_all [strElem]
  rw [h, this]

theorem getFloats_ok (xs : List Tok) (hx : ∃ a : List Num, xs.map numOf = a.map some) (r : List Tok) (a : List Num)
    (ha : xs.map numOf = a.map some) : ∀ acc s, Rep s (xs ++ r) →
      ∃ s', getFloats a.length acc s = (.ok (acc.reverse ++ a), s') ∧ Rep s' r := by
  induction xs generalizing a with
  | nil =>
    cases a with
    | nil => intro acc s hs; exact ⟨s, by simp [getFloats, Lex.pure], hs⟩
    | cons _ _ => simp at ha
  | cons x xs ih =>
    cases a with
    | nil => simp at ha
    | cons b a =>
      intro acc s hs
      simp only [List.map_cons, List.cons.injEq] at ha
      have hne : x ≠ .eof := by intro h; rw [h] at ha; simp [numOf] at ha
      have hg := get_cons (l := xs ++ r) hs hne
      obtain ⟨s', h1, h2⟩ := ih ⟨a, ha.2⟩ a ha.2 (b :: acc) ⟨xs ++ r, x, false⟩ (Or.inl ⟨rfl, rfl⟩)
      refine ⟨s', ?_, h2⟩
      have hf : getFloat s = (.ok b, ⟨xs ++ r, x, false⟩) := by
        simp only [getFloat, Lex.bind, getTok, hg]
        cases x <;> simp_all [numOf, Lex.pure]
      simp only [List.length_cons, getFloats, Lex.bind, hf]
      rw [h1]; simp

/-- **C12**, float arrays: `n` numbers give the same list, and leave the same tokens, whether
written bare or between brackets, and with integer or float tokens in any mixture. -/
theorem C12_float_brackets_optional (xs : List Tok) (a : List Num) (h : xs.map numOf = a.map some) (r : List Tok)
    (s s' : LexSt) (hs : Rep s (xs ++ r)) (hs' : Rep s' (.arrayBegin :: xs ++ .arrayEnd :: r))
    (hr : ∀ t ∈ r, t ≠ .eof ∧ t ≠ .ub) (hr' : xs ++ r ≠ [] → (xs ++ r).head? ≠ some .arrayBegin) :
    ∃ s1 s2, getFloatArray a.length s = (.ok a, s1) ∧ getFloatArray a.length s' = (.ok a, s2) ∧
      Rep s1 r ∧ Rep s2 r := by
  have hxs : PlainToks xs := by
    intro t ht
    have : ∃ b, numOf t = some b := by
      have hm := List.mem_map_of_mem (f := numOf) ht
      rw [h] at hm
      obtain ⟨b, _, hb⟩ := List.mem_map.1 hm
      exact ⟨b, hb.symm⟩
    obtain ⟨b, hb⟩ := this
    exact ⟨by intro e; rw [e] at hb; simp [numOf] at hb, by intro e; rw [e] at hb; simp [numOf] at hb⟩
  have hpl : PlainToks (xs ++ r) := hxs.append hr
  have hnn : (0 : Int) ≤ (a.length : Int) := by omega
  -- bare
  have bare : ∃ s1, getFloatArray a.length s = (.ok a, s1) ∧ Rep s1 r := by
    have hpk : ∃ t s0, s.peek = (t, s0) ∧ t ≠ .arrayBegin ∧ Rep s0 (xs ++ r) := by
      cases hc : xs ++ r with
      | nil =>
        rw [hc] at hs
        obtain ⟨s0, h1, h2⟩ := peek_nil hs
        exact ⟨.eof, s0, h1, by simp, h2⟩
      | cons t l =>
        rw [hc] at hs hr' hpl
        obtain ⟨s0, h1, h2⟩ := peek_cons hs (hpl t (List.mem_cons_self ..)).1
        exact ⟨t, s0, h1, by simpa using hr', h2⟩
    obtain ⟨t, s0, h1, h2, h3⟩ := hpk
    obtain ⟨s1, h4, h5⟩ := getFloats_ok xs ⟨a, h⟩ r a h [] s0 h3
    refine ⟨s1, ?_, h5⟩
    simp only [getFloatArray, Lex.bind, peekTok, h1]
    rw [if_neg h2, if_pos hnn, Int.toNat_natCast, h4]
    rfl
  obtain ⟨s1, hb1, hb2⟩ := bare
  have brk : getFloatArray a.length s' = (.ok a, ⟨r, .arrayEnd, false⟩) := by
    obtain ⟨s0, h1, h2⟩ := peek_cons (l := xs ++ .arrayEnd :: r) hs' (by simp)
    have hg := get_cons h2 (by simp)
    have hpl' : PlainToks (xs ++ .arrayEnd :: r) := by
      refine hxs.append ?_
      intro t ht
      rcases List.mem_cons.1 ht with rfl | ht
      · exact ⟨by simp, by simp⟩
      · exact hr t ht
    have hne : numElem = numOf := by funext t; cases t <;> rfl
    have hloop : arrayLoop numElem ((xs ++ .arrayEnd :: r).length + 2) [] ⟨xs ++ .arrayEnd :: r, .arrayBegin, false⟩ =
        (.ok a, ⟨r, .arrayEnd, false⟩) := by
      rcases arrayLoop_char numElem ⟨rfl, fun _ => rfl⟩ rfl _ hpl' [] ((xs ++ .arrayEnd :: r).length + 2)
        ⟨xs ++ .arrayEnd :: r, .arrayBegin, false⟩ (Or.inl ⟨rfl, rfl⟩) (by omega) with ⟨ys, b, q, h3, h4, h5⟩ | ⟨h3, _⟩
      · obtain ⟨rfl, rfl⟩ := split_unique (elem := numElem) rfl h3.symm h4 (by rw [hne]; exact h)
        rw [h5]; simp
      · exact (h3 ⟨xs, a, r, rfl, by rw [hne]; exact h⟩).elim
    simp only [getFloatArray, Lex.bind, peekTok, h1, if_true, getTok, hg, withBound, hloop]
    rw [if_neg (by simp)]; rfl
  exact ⟨s1, _, hb1, brk, hb2, Or.inl ⟨rfl, rfl⟩⟩

/-- **C12**, float arrays in brackets of the wrong length are an error. -/
theorem C12_float_wrong_length (xs : List Tok) (a : List Num) (h : xs.map numOf = a.map some) (r : List Tok)
    (s : LexSt) (hs : Rep s (.arrayBegin :: xs ++ .arrayEnd :: r))
    (hr : ∀ t ∈ r, t ≠ .eof ∧ t ≠ .ub) (n : Nat) (hn : n ≠ a.length) :
    ∃ s', getFloatArray n s = (.throw, s') := by
  obtain ⟨s0, h1, h2⟩ := peek_cons (l := xs ++ .arrayEnd :: r) hs (by simp)
  have hg := get_cons h2 (by simp)
  have hne : numElem = numOf := by funext t; cases t <;> rfl
  have hxs : PlainToks xs := by
    intro t ht
    have hm := List.mem_map_of_mem (f := numOf) ht
    rw [h] at hm
    obtain ⟨b, _, hb⟩ := List.mem_map.1 hm
    exact ⟨by intro e; rw [e] at hb; simp [numOf] at hb, by intro e; rw [e] at hb; simp [numOf] at hb⟩
  have hpl' : PlainToks (xs ++ .arrayEnd :: r) := by
    refine hxs.append ?_
    intro t ht
    rcases List.mem_cons.1 ht with rfl | ht
    · exact ⟨by simp, by simp⟩
    · exact hr t ht
  rcases arrayLoop_char numElem ⟨rfl, fun _ => rfl⟩ rfl _ hpl' [] ((xs ++ .arrayEnd :: r).length + 2)
    ⟨xs ++ .arrayEnd :: r, .arrayBegin, false⟩ (Or.inl ⟨rfl, rfl⟩) (by omega) with ⟨ys, b, q, h3, h4, h5⟩ | ⟨h3, _⟩
  · obtain ⟨rfl, rfl⟩ := split_unique (elem := numElem) rfl h3.symm h4 (by rw [hne]; exact h)
    refine ⟨⟨q, .arrayEnd, false⟩, ?_⟩
    simp only [getFloatArray, Lex.bind, peekTok, h1, if_true, getTok, hg, withBound, h5]
    rw [if_pos (by simp; omega)]; rfl
  · exact (h3 ⟨xs, a, r, rfl, by rw [hne]; exact h⟩).elim

example : getFloatArray 2 (.start [.int 1, .float (.bits32 0), .req [1]] .eof) =
    (.ok [.ofInt 1, .ofFloat (.bits32 0)], ⟨[.req [1]], .float (.bits32 0), false⟩) := by decide
example : getFloatArray 2 (.start [.arrayBegin, .int 1, .float (.bits32 0), .arrayEnd, .req [1]] .eof) =
    (.ok [.ofInt 1, .ofFloat (.bits32 0)], ⟨[.req [1]], .arrayEnd, false⟩) := by decide

/-- **C12**, parameters: a single number may stand for a one-element array. -/
theorem C12_single_param (t : Tok) (b : Num) (h : numOf t = some b) (r : List Tok) (s s' : LexSt)
    (hs : Rep s (t :: r)) (hs' : Rep s' (.arrayBegin :: t :: .arrayEnd :: r))
    (_hr : ∀ t ∈ r, t ≠ .eof ∧ t ≠ .ub) :
    ∃ s1 s2, getFloatParam s = (.ok [b], s1) ∧ getFloatParam s' = (.ok [b], s2) ∧ Rep s1 r ∧ Rep s2 r := by
  have hne : t ≠ .eof := by intro e; rw [e] at h; simp [numOf] at h
  obtain ⟨s0, h1, h2⟩ := peek_cons hs hne
  have hg := get_cons h2 hne
  have first : getFloatParam s = (.ok [b], ⟨r, t, false⟩) := by
    simp only [getFloatParam, Lex.bind, peekTok, h1]
    cases t <;> simp [numOf] at h <;> subst h <;> simp [Lex.bind, getTok, hg, Lex.pure]
  obtain ⟨s0', h1', h2'⟩ := peek_cons hs' (by simp)
  have hg' := get_cons h2' (by simp)
  have hs0 : s0'.peek = (.arrayBegin, s0') := by
    rcases s' with ⟨rest, nt, hn⟩
    cases hn
    · cases rest with
      | nil => rcases hs' with ⟨_, h⟩ | ⟨h, _⟩ | ⟨h, _⟩ <;> simp_all
      | cons x rest => cases h1'; rfl
    · cases h1'; rfl
  have hnt : numElem .arrayEnd = none := rfl
  have hel : numElem t = some b := by cases t <;> simp_all [numOf, numElem]
  have second : getFloatParam s' = (.ok [b], ⟨r, .arrayEnd, false⟩) := by
    simp only [getFloatParam, Lex.bind, peekTok, h1', getFloatArray, hs0, if_true, getTok, hg', withBound]
    simp [arrayLoop, Lex.bind, getTok, LexSt.get, LexSt.scanNext, hel, hnt, Lex.pure]
  exact ⟨_, _, first, second, Or.inl ⟨rfl, rfl⟩, Or.inl ⟨rfl, rfl⟩⟩

end Verif.Rib
