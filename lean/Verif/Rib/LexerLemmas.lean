import Verif.Rib.Lexer

/-! Helper lemmas for the lexer and parser: every lexer function works on the tokens up to the next
request (or the end of the stream) and never looks further. -/
namespace Verif.Rib

/-- A token that can occur inside a stream (end-of-file ends it; overflow is excluded). -/
def Tok.Plain (t : Tok) : Prop := t ≠ .eof ∧ t ≠ .ub

def Tok.isReq : Tok → Bool
  | .req _ => true
  | _ => false

def PlainToks (l : List Tok) : Prop := ∀ t ∈ l, t.Plain
/-- No request token among these. -/
def Args (l : List Tok) : Prop := ∀ t ∈ l, t.Plain ∧ t.isReq = false
/-- The list is empty or begins with a request token. -/
def Bdry (l : List Tok) : Prop := PlainToks l ∧ (l = [] ∨ ∃ n r, l = .req n :: r)

theorem Args.plain {l} (h : Args l) : PlainToks l := fun t ht => (h t ht).1
theorem Args.tail {t l} (h : Args (t :: l)) : Args l := fun x hx => h x (List.mem_cons_of_mem _ hx)
theorem Args.suffix {a b} (h : Args b) (hs : a <:+ b) : Args a := fun x hx => h x (hs.subset hx)
theorem PlainToks.append {a b} (h : PlainToks a) (h' : PlainToks b) : PlainToks (a ++ b) := by
  intro t ht; rcases List.mem_append.1 ht with h1 | h1
  · exact h t h1
  · exact h' t h1
theorem Bdry.append {a b} (h : Bdry a) (h' : Bdry b) : Bdry (a ++ b) := by
  refine ⟨h.1.append h'.1, ?_⟩
  rcases h.2 with rfl | ⟨n, r, rfl⟩
  · simpa using h'.2
  · exact Or.inr ⟨n, r ++ b, rfl⟩
theorem Bdry.nil : Bdry [] := ⟨by intro t ht; simp at ht, Or.inl rfl⟩

/-- The lexer state `s` stands for the remaining tokens `l`. -/
def Rep (s : LexSt) (l : List Tok) : Prop :=
  (s.haveNext = false ∧ s.rest = l) ∨
  (s.haveNext = true ∧ s.nextTok ≠ .eof ∧ s.nextTok :: s.rest = l) ∨
  (s.haveNext = true ∧ s.nextTok = .eof ∧ s.rest = [] ∧ l = [])

theorem Rep.start (l t) : Rep (.start l t) l := Or.inl ⟨rfl, rfl⟩

theorem Rep.length {s l} (h : Rep s l) : l.length ≤ s.rest.length + 1 := by
  rcases h with ⟨_, h⟩ | ⟨_, _, h⟩ | ⟨_, _, h, h'⟩
  · rw [h]; omega
  · rw [← h]; simp
  · rw [h']; simp

theorem get_cons {s t l} (h : Rep s (t :: l)) (_ht : t ≠ .eof) :
    s.get = (t, ⟨l, t, false⟩) := by
  rcases s with ⟨rest, nt, hn⟩
  rcases h with ⟨h1, h⟩ | ⟨h1, _, h⟩ | ⟨h1, _, h, h'⟩
  · dsimp only at h1 h; subst h1 h; rfl
  · dsimp only at h1 h; subst h1
    simp only [List.cons.injEq] at h
    obtain ⟨rfl, rfl⟩ := h
    rfl
  · cases h'

theorem get_nil {s} (h : Rep s []) : s.get = (.eof, ⟨[], .eof, false⟩) := by
  rcases s with ⟨rest, nt, hn⟩
  rcases h with ⟨h1, h⟩ | ⟨h1, _, h⟩ | ⟨h1, h2, h, h'⟩
  · dsimp only at h1 h; subst h1 h; rfl
  · cases h
  · dsimp only at h1 h2 h; subst h1 h2 h; rfl

theorem peek_cons {s t l} (h : Rep s (t :: l)) (ht : t ≠ .eof) :
    ∃ s', s.peek = (t, s') ∧ Rep s' (t :: l) := by
  rcases s with ⟨rest, nt, hn⟩
  rcases h with ⟨h1, h⟩ | ⟨h1, h2, h⟩ | ⟨h1, _, h, h'⟩
  · dsimp only at h1 h; subst h1 h
    exact ⟨⟨l, t, true⟩, rfl, Or.inr (Or.inl ⟨rfl, ht, rfl⟩)⟩
  · dsimp only at h1 h; subst h1
    simp only [List.cons.injEq] at h
    obtain ⟨rfl, rfl⟩ := h
    exact ⟨_, rfl, Or.inr (Or.inl ⟨rfl, ht, rfl⟩)⟩
  · cases h'

theorem peek_nil {s} (h : Rep s []) : ∃ s', s.peek = (.eof, s') ∧ Rep s' [] := by
  rcases s with ⟨rest, nt, hn⟩
  rcases h with ⟨h1, h⟩ | ⟨h1, _, h⟩ | ⟨h1, h2, h, h'⟩
  · dsimp only at h1 h; subst h1 h
    exact ⟨_, rfl, Or.inr (Or.inr ⟨rfl, rfl, rfl, rfl⟩)⟩
  · cases h
  · dsimp only at h1 h2 h; subst h1 h2 h
    exact ⟨_, rfl, Or.inr (Or.inr ⟨rfl, rfl, rfl, rfl⟩)⟩

/-- A result that is a value or an exception. -/
def Res.Normal {α} : Res α → Prop
  | .ok _ => True
  | .throw => True
  | _ => False

/-- With `a` the argument tokens up to the next request (or end), the call gives a result and
leaves a suffix of `a` that depend on `a` alone; `ok` is a side condition on the bound. -/
def LocF {α} (a : List Tok) (m : Nat → Lex α) : Prop :=
  ∃ (x : Res α) (a' : List Tok), x.Normal ∧ a' <:+ a ∧ ∀ r, Bdry r → ∀ s, Rep s (a ++ r) →
    ∀ f, a.length < f → ∃ s', m f s = (x, s') ∧ Rep s' (a' ++ r)

def LocAt {α} (a : List Tok) (m : Lex α) : Prop := LocF a (fun _ => m)
def Loc {α} (m : Lex α) : Prop := ∀ a, Args a → LocAt a m

theorem LocF.withBound {α} {a} {m : Nat → Lex α} (h : LocF a m) : LocAt a (withBound m) := by
  obtain ⟨x, a', hx, hs, h⟩ := h
  refine ⟨x, a', hx, hs, fun r hr s hrep f _ => h r hr s hrep _ ?_⟩
  have := hrep.length
  simp at this; omega

theorem loc_pure {α} {a} (v : α) : LocAt a (Lex.pure v) :=
  ⟨.ok v, a, trivial, List.suffix_refl a, fun _ _ s hs _ _ => ⟨s, rfl, hs⟩⟩

theorem loc_fail {α} {a} : LocAt a (Lex.fail : Lex α) :=
  ⟨.throw, a, trivial, List.suffix_refl a, fun _ _ s hs _ _ => ⟨s, rfl, hs⟩⟩

theorem locF_bind {α β} {a} {m : Lex α} {k : Nat → α → Lex β} (hm : LocAt a m)
    (hk : ∀ v a', a' <:+ a → LocF a' (fun f => k f v)) : LocF a (fun f => m.bind (k f)) := by
  obtain ⟨x, a', hx, hs, h⟩ := hm
  cases x with
  | ok v =>
    obtain ⟨y, a'', hy, hs', h'⟩ := hk v a' hs
    refine ⟨y, a'', hy, hs'.trans hs, fun r hr s hrep f hf => ?_⟩
    obtain ⟨s', h1, h2⟩ := h r hr s hrep f hf
    obtain ⟨s'', h3, h4⟩ := h' r hr s' h2 f (Nat.lt_of_le_of_lt hs.length_le hf)
    refine ⟨s'', ?_, h4⟩
    dsimp only [Lex.bind]; dsimp only at h1; rw [h1]; exact h3
  | throw =>
    refine ⟨.throw, a', trivial, hs, fun r hr s hrep f hf => ?_⟩
    obtain ⟨s', h1, h2⟩ := h r hr s hrep f hf
    refine ⟨s', ?_, h2⟩
    dsimp only [Lex.bind]; dsimp only at h1; rw [h1]
  | _ => exact hx.elim

theorem loc_bind {α β} {m : Lex α} {k : α → Lex β} (hm : Loc m) (hk : ∀ v, Loc (k v)) :
    Loc (m.bind k) := fun a ha =>
  locF_bind (k := fun _ => k) (hm a ha) (fun v _ hs => hk v _ (ha.suffix hs))

/-- Reading a token that is an argument. -/
theorem locF_get_cons {α} {t a} {k : Nat → Tok → Lex α} (ht : t.Plain)
    (hk : LocF a (fun f => k (f + 1) t)) : LocF (t :: a) (fun f => getTok.bind (k f)) := by
  obtain ⟨x, a', hx, hs, h⟩ := hk
  refine ⟨x, a', hx, hs.trans (List.suffix_cons t a), fun r hr s hrep f hf => ?_⟩
  have hg := get_cons (l := a ++ r) hrep ht.1
  obtain ⟨f, rfl⟩ : ∃ g, f = g + 1 := ⟨f - 1, by simp at hf; omega⟩
  obtain ⟨s', h1, h2⟩ := h r hr ⟨a ++ r, t, false⟩ (Or.inl ⟨rfl, rfl⟩) f (by simpa using hf)
  exact ⟨s', by simp only [Lex.bind, getTok, hg]; exact h1, h2⟩

/-- Reading where an argument was expected but the request has ended. -/
theorem locF_get_nil {α} {k : Nat → Tok → Lex α} (heof : ∀ f, 0 < f → k f .eof = tokenError .eof)
    (hreq : ∀ f, 0 < f → ∀ n, k f (.req n) = tokenError (.req n)) : LocF [] (fun f => getTok.bind (k f)) := by
  refine ⟨.throw, [], trivial, List.suffix_refl _, fun r hr s hrep f hf => ?_⟩
  rcases hr.2 with rfl | ⟨n, r, rfl⟩
  · have hg := get_nil hrep
    refine ⟨⟨[], .eof, true⟩, ?_, Or.inr (Or.inr ⟨rfl, rfl, rfl, rfl⟩)⟩
    simp only [Lex.bind, getTok, hg, heof f hf, tokenError, unget, Lex.fail]; rfl
  · have hg := get_cons (s := s) (t := .req n) (l := r) hrep (by simp)
    refine ⟨⟨r, .req n, true⟩, ?_, Or.inr (Or.inl ⟨rfl, by simp, rfl⟩)⟩
    simp only [Lex.bind, getTok, hg, hreq f hf, tokenError, unget, Lex.fail]; rfl

theorem loc_tokenError {α} {a t} (ht : t.Plain ∧ t.isReq = false) : LocAt a (tokenError t : Lex α) := by
  cases t <;> first | exact loc_fail | (exact absurd rfl ht.1.1) | (exact absurd rfl ht.1.2) | (exact absurd ht.2 (by simp [Tok.isReq]))

theorem loc_get {α} {k : Tok → Lex α} (hk : ∀ t, t.Plain → t.isReq = false → Loc (k t))
    (heof : k .eof = tokenError .eof) (hreq : ∀ n, k (.req n) = tokenError (.req n)) :
    Loc (getTok.bind k) := by
  intro a ha
  cases a with
  | nil => exact locF_get_nil (k := fun _ => k) (fun _ _ => heof) (fun _ _ => hreq)
  | cons t a =>
    have := ha t (List.mem_cons_self ..)
    exact locF_get_cons (k := fun _ => k) this.1 (hk t this.1 this.2 a ha.tail)

theorem locF_peek_cons {α} {t a} {k : Nat → Tok → Lex α} (ht : t.Plain)
    (hk : LocF (t :: a) (fun f => k f t)) : LocF (t :: a) (fun f => peekTok.bind (k f)) := by
  obtain ⟨x, a', hx, hs, h⟩ := hk
  refine ⟨x, a', hx, hs, fun r hr s hrep f hf => ?_⟩
  obtain ⟨s1, hp, hr1⟩ := peek_cons (l := a ++ r) hrep ht.1
  obtain ⟨s', h1, h2⟩ := h r hr s1 hr1 f hf
  exact ⟨s', by simp only [Lex.bind, peekTok, hp]; exact h1, h2⟩

theorem locF_peek_nil {α} {k : Nat → Tok → Lex α} (hk : LocF [] (fun f => k f .eof))
    (hreq : ∀ f n, k f (.req n) = k f .eof) : LocF [] (fun f => peekTok.bind (k f)) := by
  obtain ⟨x, a', hx, hs, h⟩ := hk
  refine ⟨x, a', hx, hs, fun r hr s hrep f hf => ?_⟩
  rcases hr.2 with rfl | ⟨n, r, rfl⟩
  · obtain ⟨s1, hp, hr1⟩ := peek_nil hrep
    obtain ⟨s', h1, h2⟩ := h [] hr s1 hr1 f hf
    exact ⟨s', by simp only [Lex.bind, peekTok, hp]; exact h1, h2⟩
  · obtain ⟨s1, hp, hr1⟩ := peek_cons (s := s) (t := .req n) (l := r) hrep (by simp)
    obtain ⟨s', h1, h2⟩ := h _ hr s1 hr1 f hf
    exact ⟨s', by simp only [Lex.bind, peekTok, hp, hreq]; exact h1, h2⟩

theorem loc_peek {α} {k : Tok → Lex α} (hk : ∀ t a, t.Plain → t.isReq = false → Args a → LocAt (t :: a) (k t))
    (heof : LocAt [] (k .eof)) (hreq : ∀ n, k (.req n) = k .eof) : Loc (peekTok.bind k) := by
  intro a ha
  cases a with
  | nil => exact locF_peek_nil (k := fun _ => k) heof (fun _ => hreq)
  | cons t a =>
    have := ha t (List.mem_cons_self ..)
    exact locF_peek_cons (k := fun _ => k) this.1 (hk t a this.1 this.2 ha.tail)

theorem loc_getInt : Loc getInt := by
  refine loc_get (fun t h1 h2 a _ => ?_) rfl (fun _ => rfl)
  cases t <;> first | exact loc_pure _ | exact loc_tokenError ⟨h1, h2⟩

theorem loc_getFloat : Loc getFloat := by
  refine loc_get (fun t h1 h2 a _ => ?_) rfl (fun _ => rfl)
  cases t <;> first | exact loc_pure _ | exact loc_tokenError ⟨h1, h2⟩

theorem loc_getString : Loc getString := by
  refine loc_get (fun t h1 h2 a _ => ?_) rfl (fun _ => rfl)
  cases t <;> first | exact loc_pure _ | exact loc_tokenError ⟨h1, h2⟩

/-- The element test rejects requests and end of file. -/
def ElemOk {α} (elem : Tok → Option α) : Prop := elem .eof = none ∧ ∀ n, elem (.req n) = none

theorem locF_arrayLoop {α} {elem : Tok → Option α} (he : ElemOk elem) (a : List Tok) (ha : Args a) :
    ∀ acc, LocF a (fun f => arrayLoop elem f acc) := by
  have key : ∀ acc, LocF a (fun f => arrayLoop elem ((f - 1) + 1) acc) := by
    induction a with
    | nil =>
      intro acc
      simp only [arrayLoop]
      refine locF_get_nil (fun f _ => ?_) (fun f _ n => ?_)
      · rw [he.1]; rfl
      · rw [he.2]; rfl
    | cons t a ih =>
      intro acc
      have ht := ha t (List.mem_cons_self ..)
      simp only [arrayLoop]
      refine locF_get_cons ht.1 ?_
      cases h : elem t with
      | some v =>
        dsimp only
        obtain ⟨x, a', hx, hs, h⟩ := ih ha.tail (v :: acc)
        refine ⟨x, a', hx, hs, fun r hr s hrep f hf => ?_⟩
        obtain ⟨s', h1, h2⟩ := h r hr s hrep f hf
        refine ⟨s', ?_, h2⟩
        show arrayLoop elem (f + 1 - 1) (v :: acc) s = (x, s')
        rw [Nat.add_sub_cancel]
        obtain ⟨g, rfl⟩ : ∃ g, f = g + 1 := ⟨f - 1, by omega⟩
        exact h1
      | none =>
        dsimp only
        by_cases hte : t = .arrayEnd
        · rw [if_pos hte]; exact loc_pure _
        · rw [if_neg hte]; exact loc_tokenError ht
  intro acc
  obtain ⟨x, a', hx, hs, h⟩ := key acc
  refine ⟨x, a', hx, hs, fun r hr s hrep f hf => ?_⟩
  obtain ⟨s', h1, h2⟩ := h r hr s hrep f hf
  obtain ⟨g, rfl⟩ : ∃ g, f = g + 1 := ⟨f - 1, by omega⟩
  exact ⟨s', h1, h2⟩

theorem loc_arrayLoop {α} {elem : Tok → Option α} (he : ElemOk elem) (acc) :
    Loc (withBound (arrayLoop elem · acc)) := fun a ha => (locF_arrayLoop he a ha acc).withBound

theorem loc_getIntArray : Loc getIntArray := by
  refine loc_get (fun t h1 h2 a ha => ?_) rfl (fun _ => rfl)
  split
  · exact loc_arrayLoop ⟨rfl, fun _ => rfl⟩ _ a ha
  · exact loc_tokenError ⟨h1, h2⟩

theorem loc_getStringArray : Loc getStringArray := by
  refine loc_get (fun t h1 h2 a ha => ?_) rfl (fun _ => rfl)
  split
  · exact loc_arrayLoop ⟨rfl, fun _ => rfl⟩ _ a ha
  · exact loc_tokenError ⟨h1, h2⟩

theorem loc_getFloats (n) : ∀ acc, Loc (getFloats n acc) := by
  induction n with
  | zero => intro acc a _; exact loc_pure _
  | succ n ih => intro acc; exact loc_bind loc_getFloat (fun _ => ih _)

theorem loc_getFloatArray (n) : Loc (getFloatArray n) := by
  refine loc_peek (fun t a h1 h2 ha => ?_) ?_ ?_
  · split
    · refine locF_get_cons (k := fun _ _ => _) h1 ?_
      refine loc_bind (loc_arrayLoop ⟨rfl, fun _ => rfl⟩ _) (fun v => ?_) a ha
      intro b _
      split
      · exact loc_fail
      · exact loc_pure _
    · have hta : Args (t :: a) := by
        intro x hx
        rcases List.mem_cons.1 hx with rfl | hx
        · exact ⟨h1, h2⟩
        · exact ha x hx
      split
      · exact loc_getFloats _ _ _ hta
      · exact locF_get_cons (k := fun _ t => tokenError t) h1 (loc_tokenError ⟨h1, h2⟩)
  · rw [if_neg (by simp)]
    split
    · exact loc_getFloats _ _ _ (by intro x hx; simp at hx)
    · exact locF_get_nil (k := fun _ t => tokenError t) (fun _ _ => rfl) (fun _ _ _ => rfl)
  · intro m
    rw [if_neg (c := Tok.req m = _) (by simp), if_neg (c := Tok.eof = _) (by simp)]

theorem loc_peekNextType : Loc peekNextType := by
  refine loc_peek (fun t a h1 h2 _ => ?_) (loc_pure _) (fun _ => rfl)
  cases t <;> first | exact loc_pure _ | (exact absurd rfl h1.2)

theorem loc_getIntParam : Loc getIntParam := by
  refine loc_peek (fun t a h1 h2 ha => ?_) ?_ ?_
  · have hta : Args (t :: a) := by
      intro x hx
      rcases List.mem_cons.1 hx with rfl | hx
      · exact ⟨h1, h2⟩
      · exact ha x hx
    cases t <;> first
      | exact locF_get_cons (k := fun _ t => _) h1 (loc_pure _)
      | exact loc_getIntArray _ hta
  · exact loc_getIntArray _ (by intro x hx; simp at hx)
  · intro n; rfl

theorem loc_getStringParam : Loc getStringParam := by
  refine loc_peek (fun t a h1 h2 ha => ?_) ?_ ?_
  · have hta : Args (t :: a) := by
      intro x hx
      rcases List.mem_cons.1 hx with rfl | hx
      · exact ⟨h1, h2⟩
      · exact ha x hx
    cases t <;> first
      | exact locF_get_cons (k := fun _ t => _) h1 (loc_pure _)
      | exact loc_getStringArray _ hta
  · exact loc_getStringArray _ (by intro x hx; simp at hx)
  · intro n; rfl

theorem loc_getFloatParam : Loc getFloatParam := by
  refine loc_peek (fun t a h1 h2 ha => ?_) ?_ ?_
  · have hta : Args (t :: a) := by
      intro x hx
      rcases List.mem_cons.1 hx with rfl | hx
      · exact ⟨h1, h2⟩
      · exact ha x hx
    cases t <;> first
      | exact locF_get_cons (k := fun _ t => _) h1 (loc_pure _)
      | exact loc_getFloatArray _ _ hta
  · exact loc_getFloatArray _ _ (by intro x hx; simp at hx)
  · intro n; rfl

theorem loc_getParam (st) : Loc (getParam st) := by
  cases st
  · exact loc_bind loc_getIntParam (fun _ _ _ => loc_pure _)
  · exact loc_bind loc_getFloatParam (fun _ _ _ => loc_pure _)
  · exact loc_bind loc_getStringParam (fun _ _ _ => loc_pure _)

theorem bind_assoc {α β γ} (m : Lex α) (k : α → Lex β) (g : β → Lex γ) :
    (m.bind k).bind g = m.bind fun a => (k a).bind g := by
  funext s
  simp only [Lex.bind]
  rcases h : m s with ⟨x, s'⟩
  cases x <;> rfl

theorem tokenError_bind {α β} (t : Tok) (g : α → Lex β) : (tokenError t).bind g = tokenError t := by
  funext s
  cases t <;> first | rfl | skip
  all_goals
    simp only [tokenError, Lex.bind, unget]
    rcases s with ⟨r, t, h⟩
    cases h <;> rfl

theorem locF_getString_bind {β} {g : Nat → List Nat → Lex β} (a : List Tok) (ha : Args a)
    (hk : ∀ n a1, a = .str n :: a1 → LocF a1 (fun f => g (f + 1) n)) :
    LocF a (fun f => getString.bind (g f)) := by
  simp only [getString, bind_assoc]
  cases a with
  | nil =>
    exact locF_get_nil (fun f _ => tokenError_bind _ _) (fun f _ n => tokenError_bind _ _)
  | cons t a =>
    have ht := ha t (List.mem_cons_self ..)
    refine locF_get_cons ht.1 ?_
    cases t <;> first
      | (simp only [tokenError_bind]; exact loc_tokenError ht)
      | exact hk _ _ rfl

theorem locF_succ {α} {a} {m : Nat → Lex α} (h : LocF a (fun f => m ((f - 1) + 1))) : LocF a m := by
  obtain ⟨x, a', hx, hs, h⟩ := h
  refine ⟨x, a', hx, hs, fun r hr s hrep f hf => ?_⟩
  obtain ⟨s', h1, h2⟩ := h r hr s hrep f hf
  obtain ⟨g, rfl⟩ : ∃ g, f = g + 1 := ⟨f - 1, by omega⟩
  exact ⟨s', h1, h2⟩

theorem locF_paramLoop (decl) (n : Nat) : ∀ (a : List Tok), a.length = n → Args a → ∀ acc,
    LocF a (fun f => paramLoop decl f acc) := by
  induction n using Nat.strongRecOn with
  | _ n ih =>
    intro a hn ha acc
    apply locF_succ
    simp only [paramLoop]
    refine locF_bind (loc_peekNextType _ ha) ?_
    intro v a' hs
    have ha' := ha.suffix hs
    by_cases hv : v = .requestEnd
    · simp only [if_pos hv]; exact loc_pure _
    · simp only [if_neg hv]
      refine locF_getString_bind a' ha' (fun nm a1 h1 => ?_)
      subst h1
      have ha1 := ha'.tail
      cases decl nm with
      | none => exact loc_fail
      | some st =>
        refine locF_bind (k := fun f v => paramLoop decl (f + 1 - 1) ((nm, v) :: acc)) (loc_getParam st _ ha1) ?_
        intro v a2 hs2
        have hl := hs.length_le
        have hl2 := hs2.length_le
        simp only [List.length_cons] at hl
        exact ih a2.length (by omega) a2 rfl (ha1.suffix hs2) _

theorem loc_readParamList (decl) : Loc (readParamList decl) := fun a ha =>
  (locF_paramLoop decl _ a rfl ha []).withBound

theorem loc_run {σ γ} (h : Handler σ γ) : Loc h.run := by
  induction h with
  | deliver c t n => intro a _; exact loc_pure _
  | fail => intro a _; exact loc_fail
  | getInt k ih => exact loc_bind loc_getInt ih
  | getFloat k ih => exact loc_bind loc_getFloat ih
  | getString k ih => exact loc_bind loc_getString ih
  | getIntArray k ih => exact loc_bind loc_getIntArray ih
  | getFloatArray n k ih => exact loc_bind (loc_getFloatArray n) ih
  | getStringArray k ih => exact loc_bind loc_getStringArray ih
  | peek k ih => exact loc_bind loc_peekNextType ih
  | params d k ih => exact loc_bind (loc_readParamList d) ih

/-- Skipping the rest of a request. -/
theorem discard {a r : List Tok} (ha : Args a) (hr : Bdry r) (s : LexSt) (hs : Rep s (a ++ r)) :
    ∃ s', discardUntilRequest s = (.ok (), s') ∧ Rep s' r := by
  have key : ∀ f s, a.length < f → Rep s (a ++ r) → ∃ s', discardLoop f s = (.ok (), s') ∧ Rep s' r := by
    clear hs s
    induction a with
    | nil =>
      intro f s hf hs
      obtain ⟨f, rfl⟩ : ∃ g, f = g + 1 := ⟨f - 1, by omega⟩
      rcases hr.2 with rfl | ⟨n, r, rfl⟩
      · obtain ⟨s1, hp, hr1⟩ := peek_nil hs
        exact ⟨s1, by simp only [discardLoop, Lex.bind, peekTok, hp]; rfl, hr1⟩
      · obtain ⟨s1, hp, hr1⟩ := peek_cons (s := s) (t := .req n) (l := r) hs (by simp)
        exact ⟨s1, by simp only [discardLoop, Lex.bind, peekTok, hp]; rfl, hr1⟩
    | cons t a ih =>
      intro f s hf hs
      obtain ⟨f, rfl⟩ : ∃ g, f = g + 1 := ⟨f - 1, by simp at hf; omega⟩
      have ht := ha t (List.mem_cons_self ..)
      obtain ⟨s1, hp, hr1⟩ := peek_cons (l := a ++ r) hs ht.1.1
      have hg := get_cons (l := a ++ r) hr1 ht.1.1
      obtain ⟨s', h1, h2⟩ := ih ha.tail f ⟨a ++ r, t, false⟩ (by simpa using hf) (Or.inl ⟨rfl, rfl⟩)
      refine ⟨s', ?_, h2⟩
      have hb : (getTok.bind fun _ => discardLoop f) s1 = (.ok (), s') := by
        simp only [Lex.bind, getTok, hg]; exact h1
      simp only [discardLoop, Lex.bind, peekTok, hp]
      cases t <;> first | exact hb | (exact absurd rfl ht.1.1) | (exact absurd rfl ht.1.2) | (exact absurd ht.2 (by simp [Tok.isReq]))
  have := hs.length
  exact key _ s (by simp at this; omega) hs

/-- Every plain list splits at its first request token. -/
theorem split_args (l : List Tok) (hl : PlainToks l) : ∃ a r, l = a ++ r ∧ Args a ∧ Bdry r := by
  induction l with
  | nil => exact ⟨[], [], rfl, by intro t ht; simp at ht, Bdry.nil⟩
  | cons t l ih =>
    have ht := hl t (List.mem_cons_self ..)
    cases hr : t.isReq with
    | true =>
      refine ⟨[], t :: l, rfl, by intro t ht; simp at ht, hl, Or.inr ?_⟩
      cases t <;> simp [Tok.isReq] at hr
      exact ⟨_, _, rfl⟩
    | false =>
      obtain ⟨a, r, h, ha, hb⟩ := ih (fun x hx => hl x (List.mem_cons_of_mem _ hx))
      refine ⟨t :: a, r, by rw [h]; rfl, ?_, hb⟩
      intro x hx
      rcases List.mem_cons.1 hx with rfl | hx
      · exact ⟨ht, hr⟩
      · exact ha x hx

theorem nextRequest_req {s n l} (h : Rep s (.req n :: l)) :
    nextRequest s = (.ok (some n), ⟨l, .req n, false⟩) := by
  have hg := get_cons h (by simp)
  simp only [nextRequest, Lex.bind, getTok, hg]; rfl

theorem nextRequest_nil {s} (h : Rep s []) : nextRequest s = (.ok none, ⟨[], .eof, false⟩) := by
  have hg := get_nil h
  simp only [nextRequest, Lex.bind, getTok, hg]; rfl

theorem nextRequest_other {s t l} (h : Rep s (t :: l)) (ht : t.Plain) (hr : t.isReq = false) :
    nextRequest s = (.throw, ⟨l, t, false⟩) := by
  have hg := get_cons h ht.1
  simp only [nextRequest, Lex.bind, getTok, hg]
  cases t <;> first | rfl | (exact absurd rfl ht.1) | (exact absurd rfl ht.2) | (exact absurd hr (by simp [Tok.isReq]))

/-- An event the outside world is meant to see. -/
def Event.Normal {γ} : Event γ → Prop
  | .call _ => True
  | .error => True
  | _ => False

section
variable {σ γ : Type} (H : σ → List Nat → Option (Handler σ γ))

theorem recover_eq {again : σ → LexSt → List (Event γ) × σ} {st a r s} (ha : Args a) (hr : Bdry r)
    (hs : Rep s (a ++ r)) : ∃ s', Rep s' r ∧
      recover again st s = (.error :: (again st s').1, (again st s').2) := by
  obtain ⟨s', h1, h2⟩ := discard ha hr s hs
  exact ⟨s', h2, by simp only [recover, h1]⟩

/-- Parsing `A ++ B`, with `B` starting at a request, is parsing `A` and then `B`. -/
theorem parse_split (n : Nat) : ∀ (A : List Tok), A.length = n → PlainToks A →
    ∀ (st : σ), ∃ (ev : List (Event γ)) (st' : σ), (∀ e ∈ ev, e.Normal) ∧
      ∀ B, Bdry B → ∀ s f, Rep s (A ++ B) → (A ++ B).length < f →
        ∃ s' f', Rep s' B ∧ B.length < f' ∧
          parseLoop H f st s = (ev ++ (parseLoop H f' st' s').1, (parseLoop H f' st' s').2) := by
  induction n using Nat.strongRecOn with
  | _ n ih =>
    intro A hn hA st
    cases A with
    | nil => exact ⟨[], st, by simp, fun B hB s f hs hf => ⟨s, f, hs, hf, by simp⟩⟩
    | cons t A1 =>
      simp only [List.length_cons] at hn
      have ht := hA t (List.mem_cons_self ..)
      obtain ⟨a, r, rfl, ha, hr⟩ := split_args A1 (fun x hx => hA x (List.mem_cons_of_mem _ hx))
      simp only [List.length_append] at hn
      obtain ⟨ev, st', hev, hp⟩ := ih r.length (by omega) r rfl hr.1 st
      -- the common case: an error followed by recovery, from a suffix of `a`
      have hrec : ∀ a', a' <:+ a → ∀ B, Bdry B → ∀ s f, Rep s (a' ++ (r ++ B)) → (r ++ B).length < f →
          ∃ s' f', Rep s' B ∧ B.length < f' ∧ recover (parseLoop H f) st s =
            (.error :: (ev ++ (parseLoop H f' st' s').1), (parseLoop H f' st' s').2) := by
        intro a' hs' B hB s f hs hf
        obtain ⟨s1, h1, h2⟩ := recover_eq (again := parseLoop H f) (st := st) (ha.suffix hs') (hr.append hB) hs
        obtain ⟨s2, f2, h3, h4, h5⟩ := hp B hB s1 f h1 hf
        exact ⟨s2, f2, h3, h4, by rw [h2, h5]⟩
      have hev' : ∀ e ∈ (Event.error :: ev : List (Event γ)), e.Normal := by
        intro e he
        rcases List.mem_cons.1 he with rfl | he
        · trivial
        · exact hev e he
      cases hreq : t.isReq with
      | false =>
        refine ⟨.error :: ev, st', hev', fun B hB s f hs hf => ?_⟩
        simp only [List.cons_append, List.length_cons, List.append_assoc, List.length_append] at hs hf
        obtain ⟨f, rfl⟩ : ∃ g, f = g + 1 := ⟨f - 1, by omega⟩
        obtain ⟨s', f', h1, h2, h3⟩ := hrec a (List.suffix_refl a) B hB ⟨a ++ (r ++ B), t, false⟩ f
          (Or.inl ⟨rfl, rfl⟩) (by simp only [List.length_append]; omega)
        refine ⟨s', f', h1, h2, ?_⟩
        rw [parseLoop, nextRequest_other hs ht hreq]
        exact h3
      | true =>
        obtain ⟨nm, rfl⟩ : ∃ nm, t = .req nm := by
          cases t <;> simp [Tok.isReq] at hreq
          exact ⟨_, rfl⟩
        cases hH : H st nm with
        | none =>
          refine ⟨.error :: ev, st', hev', fun B hB s f hs hf => ?_⟩
          simp only [List.cons_append, List.length_cons, List.append_assoc, List.length_append] at hs hf
          obtain ⟨f, rfl⟩ : ∃ g, f = g + 1 := ⟨f - 1, by omega⟩
          obtain ⟨s', f', h1, h2, h3⟩ := hrec a (List.suffix_refl a) B hB ⟨a ++ (r ++ B), .req nm, false⟩ f
            (Or.inl ⟨rfl, rfl⟩) (by simp only [List.length_append]; omega)
          refine ⟨s', f', h1, h2, ?_⟩
          rw [parseLoop, nextRequest_req hs]
          simp only [hH]
          exact h3
        | some h =>
          obtain ⟨x, a', hx, hs', hl⟩ := loc_run h a ha
          have step : ∀ B, Bdry B → ∀ (s : LexSt), Rep s (.req nm :: (a ++ r) ++ B) → ∃ s2, Rep s2 (a' ++ (r ++ B)) ∧
              h.run ⟨a ++ (r ++ B), .req nm, false⟩ = (x, s2) := by
            intro B hB s _
            obtain ⟨s2, h1, h2⟩ := hl (r ++ B) (hr.append hB) ⟨a ++ (r ++ B), .req nm, false⟩
              (Or.inl ⟨rfl, rfl⟩) (a.length + 1) (by omega)
            exact ⟨s2, h2, h1⟩
          have hle := hs'.length_le
          cases x with
          | throw =>
            refine ⟨.error :: ev, st', hev', fun B hB s f hs hf => ?_⟩
            obtain ⟨s2, h2, h3⟩ := step B hB s hs
            simp only [List.cons_append, List.length_cons, List.append_assoc, List.length_append] at hs hf
            obtain ⟨f, rfl⟩ : ∃ g, f = g + 1 := ⟨f - 1, by omega⟩
            obtain ⟨s', f', h4, h5, h6⟩ := hrec a' hs' B hB s2 f h2 (by simp only [List.length_append]; omega)
            refine ⟨s', f', h4, h5, ?_⟩
            rw [parseLoop, nextRequest_req hs]
            simp only [hH, h3]
            exact h6
          | ok d =>
            by_cases hd : d.throws = true
            · refine ⟨.call d.call :: .error :: ev, st', ?_, fun B hB s f hs hf => ?_⟩
              · intro e he
                rcases List.mem_cons.1 he with rfl | he
                · trivial
                · exact hev' e he
              obtain ⟨s2, h2, h3⟩ := step B hB s hs
              simp only [List.cons_append, List.length_cons, List.append_assoc, List.length_append] at hs hf
              obtain ⟨f, rfl⟩ : ∃ g, f = g + 1 := ⟨f - 1, by omega⟩
              obtain ⟨s', f', h4, h5, h6⟩ := hrec a' hs' B hB s2 f h2 (by simp only [List.length_append]; omega)
              refine ⟨s', f', h4, h5, ?_⟩
              rw [parseLoop, nextRequest_req hs]
              simp only [hH, h3, hd, if_true, h6]
              rfl
            · obtain ⟨ev2, st2, hev2, hp2⟩ := ih (a' ++ r).length (by simp only [List.length_append]; omega) (a' ++ r) rfl
                ((ha.suffix hs').plain.append hr.1) d.next
              refine ⟨.call d.call :: ev2, st2, ?_, fun B hB s f hs hf => ?_⟩
              · intro e he
                rcases List.mem_cons.1 he with rfl | he
                · trivial
                · exact hev2 e he
              obtain ⟨s2, h2, h3⟩ := step B hB s hs
              simp only [List.cons_append, List.length_cons, List.append_assoc, List.length_append] at hs hf
              obtain ⟨f, rfl⟩ : ∃ g, f = g + 1 := ⟨f - 1, by omega⟩
              obtain ⟨s', f', h4, h5, h6⟩ := hp2 B hB s2 f (by rw [List.append_assoc]; exact h2) (by simp only [List.length_append]; omega)
              refine ⟨s', f', h4, h5, ?_⟩
              rw [parseLoop, nextRequest_req hs]
              simp only [hH, h3]
              rw [if_neg hd, h6]
              rfl
          | _ => exact hx.elim

theorem parseLoop_nil {s : LexSt} {f : Nat} {st : σ}  (h : Rep s []) (hf : 0 < f) : parseLoop H f st s = ([], st) := by
  obtain ⟨f, rfl⟩ : ∃ g, f = g + 1 := ⟨f - 1, by omega⟩
  rw [parseLoop, nextRequest_nil h]

/-- The result of the parse loop depends only on the tokens. -/
theorem parseLoop_eq {l : List Tok} (hl : PlainToks l) (st : σ) {s : LexSt} {f : Nat} (hs : Rep s l) (hf : l.length < f) :
    parseLoop H f st s = parse H st l := by
  obtain ⟨ev, st', _, h⟩ := parse_split H l.length l rfl hl st
  obtain ⟨s1, f1, h1, h2, h3⟩ := h [] Bdry.nil s f (by simpa using hs) (by simpa using hf)
  obtain ⟨s2, f2, h4, h5, h6⟩ := h [] Bdry.nil (.start l .eof) (l.length + 1) (by simpa using Rep.start _ _) (by simp)
  rw [h3, parse, h6, parseLoop_nil H h1 h2, parseLoop_nil H h4 h5]

end

end Verif.Rib
