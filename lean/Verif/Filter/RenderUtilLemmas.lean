import Verif.Filter.RenderUtil
/-! Lemmas about the archive / object / conditional filter. -/
namespace Verif.Filter

/-! ## Structured streams

What a well-nested stream is, and what it should mean. -/

mutual
/-- A well-nested stream of requests. -/
inductive Prog where
  | nil
  | plain (r : Nat) (k : Prog)
  | comment (r : Nat) (k : Prog)
  | archive (n : Nat) (body k : Prog)
  | read (n : Nat) (k : Prog)
  | object (n : Nat) (body k : Prog)
  | inst (n : Nat) (k : Prog)
  | cond (c : Nat) (body : Prog) (alt : Alt) (k : Prog)
/-- The rest of a conditional after one of its clauses. -/
inductive Alt where
  | done
  | els (body : Prog)
  | elseIf (c : Nat) (body : Prog) (alt : Alt)
end

mutual
/-- The requests of a stream. -/
def Prog.reqs : Prog → List Req
  | .nil => []
  | .plain r k => .plain r :: k.reqs
  | .comment r k => .record r :: k.reqs
  | .archive n body k => .archiveBegin n :: (body.reqs ++ .archiveEnd :: k.reqs)
  | .read n k => .readArchive n :: k.reqs
  | .object n body k => .objectBegin n :: (body.reqs ++ .objectEnd :: k.reqs)
  | .inst n k => .objectInstance n :: k.reqs
  | .cond c body alt k => .ifBegin c :: (body.reqs ++ (alt.reqs ++ .ifEnd :: k.reqs))
def Alt.reqs : Alt → List Req
  | .done => []
  | .els body => .els :: body.reqs
  | .elseIf c body alt => .elseIf c :: (body.reqs ++ alt.reqs)
end

mutual
/-- The stream without its comments. -/
def Prog.strip : Prog → Prog
  | .nil => .nil
  | .plain r k => .plain r k.strip
  | .comment _ k => k.strip
  | .archive n body k => .archive n body.strip k.strip
  | .read n k => .read n k.strip
  | .object n body k => .object n body.strip k.strip
  | .inst n k => .inst n k.strip
  | .cond c body alt k => .cond c body.strip alt.strip k.strip
def Alt.strip : Alt → Alt
  | .done => .done
  | .els body => .els body.strip
  | .elseIf c body alt => .elseIf c body.strip alt.strip
end

/-- Recorded archives and objects, and those being replayed. -/
structure Env where
  arch : Nat → Option Prog
  obj : Nat → Option Prog
  active : List (Bool × Nat)

def set (f : Nat → Option Prog) (n : Nat) (p : Prog) : Nat → Option Prog :=
  fun m => if m = n then some p else f m

/-- Do one thing after another. -/
def seqE (x : Option (List Out × Env)) (k : Env → Option (List Out × Env)) :
    Option (List Out × Env) :=
  match x with
  | none => none
  | some (o, e) => match k e with
    | none => none
    | some (o', e') => some (o ++ o', e')

mutual
/-- Meaning of a stream: `none` where it has no meaning (an archive redefined while it is being
read, or reads nested deeper than allowed for). -/
def evalWith (test : Nat → Bool) (rep : Env → Prog → Option (List Out × Env)) (e : Env) :
    Prog → Option (List Out × Env)
  | .nil => some ([], e)
  | .plain r k => seqE (some ([.pass (.plain r)], e)) fun e => evalWith test rep e k
  | .comment r k => seqE (some ([.pass (.record r)], e)) fun e => evalWith test rep e k
  | .archive n body k =>
    if (false, n) ∈ e.active then none
    else evalWith test rep { e with arch := set e.arch n body.strip } k
  | .object n body k =>
    if (true, n) ∈ e.active then none
    else evalWith test rep { e with obj := set e.obj n body.strip } k
  | .read n k =>
    seqE (match e.arch n with
      | some b => seqE (rep { e with active := (false, n) :: e.active } b)
          fun e' => some ([], { e' with active := e.active })
      | none => some ([.pass (.readArchive n)], e)) fun e => evalWith test rep e k
  | .inst n k =>
    seqE (match e.obj n with
      | some b => seqE (rep { e with active := (true, n) :: e.active } b)
          fun e' => some ([], { e' with active := e.active })
      | none => some ([.badObject n], e)) fun e => evalWith test rep e k
  | .cond c body alt k =>
    seqE (if test c then evalWith test rep e body else evalAlt test rep e alt)
      fun e => evalWith test rep e k
def evalAlt (test : Nat → Bool) (rep : Env → Prog → Option (List Out × Env)) (e : Env) :
    Alt → Option (List Out × Env)
  | .done => some ([], e)
  | .els body => evalWith test rep e body
  | .elseIf c body alt => if test c then evalWith test rep e body else evalAlt test rep e alt
end

/-- Meaning of a stream, with replays nested at most `f` deep. -/
def eval (test : Nat → Bool) : Nat → Env → Prog → Option (List Out × Env)
  | 0 => evalWith test fun _ _ => none
  | f + 1 => evalWith test (eval test f)

/-! ## Well-formedness -/

/-- No object definitions (also not inside archives defined here). -/
def Prog.objFree : Prog → Prop
  | .nil => True
  | .plain _ k => k.objFree
  | .comment _ k => k.objFree
  | .archive _ body k => body.objFree ∧ k.objFree
  | .read _ k => k.objFree
  | .object _ _ _ => False
  | .inst _ k => k.objFree
  | .cond _ body alt k => body.objFree ∧ altFree alt ∧ k.objFree
where altFree : Alt → Prop
  | .done => True
  | .els body => body.objFree
  | .elseIf _ body alt => body.objFree ∧ altFree alt

/-- Nothing that could evaluate a conditional when executed. -/
def Prog.ifFree : Prog → Prop
  | .nil => True
  | .plain _ k => k.ifFree
  | .comment _ k => k.ifFree
  | .archive _ _ k => k.ifFree
  | .read _ _ => False
  | .object _ _ k => k.ifFree
  | .inst _ _ => False
  | .cond _ _ _ _ => False

mutual
/-- Object definitions contain no object definitions, and of the clauses of a conditional only the
last contains conditionals (or reads archives or objects, which may contain them). -/
def Prog.WF : Prog → Prop
  | .nil => True
  | .plain _ k => k.WF
  | .comment _ k => k.WF
  | .archive _ body k => body.WF ∧ k.WF
  | .read _ k => k.WF
  | .object _ body k => body.objFree ∧ body.WF ∧ k.WF
  | .inst _ k => k.WF
  | .cond _ body alt k => body.WF ∧ (alt = .done ∨ body.ifFree) ∧ alt.WF ∧ k.WF
def Alt.WF : Alt → Prop
  | .done => True
  | .els body => body.WF
  | .elseIf _ body alt => body.WF ∧ (alt = .done ∨ body.ifFree) ∧ alt.WF
end

/-! ## Running sequences -/

theorem andThen_ok (o : List Out) (s : St) (k : St → Res) (o' : List Out) (s' : St)
    (h : k s = .ok o' s') : (Res.ok o s).andThen k = .ok (o ++ o') s' := by
  simp [Res.andThen, h]

theorem andThen_nil (s : St) (k : St → Res) : (Res.ok [] s).andThen k = k s := by
  simp only [Res.andThen]
  cases k s <;> simp

theorem andThen_assoc (r : Res) (k l : St → Res) :
    (r.andThen k).andThen l = r.andThen fun s => (k s).andThen l := by
  cases r with
  | ok o s =>
    simp only [Res.andThen]
    cases k s with
    | ok o' s' =>
      simp only
      cases l s' <;> simp
    | ub => rfl
    | deep => rfl
  | ub => rfl
  | deep => rfl

variable (test : Nat → Bool) (replay : St → List Req → Res)

theorem runWith_append (xs ys : List Req) (s : St) :
    runWith test replay s (xs ++ ys) =
      (runWith test replay s xs).andThen fun s' => runWith test replay s' ys := by
  induction xs generalizing s with
  | nil => simp [runWith, andThen_nil]
  | cons x xs ih => simp only [List.cons_append, runWith, andThen_assoc, ih]

theorem runWith_cons_ok {s s1 : St} {o1 : List Out} {r : Req} (h : step test replay s r = .ok o1 s1)
    {rs : List Req} {o2 : List Out} {s2 : St} (h2 : runWith test replay s1 rs = .ok o2 s2) :
    runWith test replay s (r :: rs) = .ok (o1 ++ o2) s2 := by
  rw [runWith, h]; exact andThen_ok _ _ _ _ _ h2

theorem runWith_append_ok {s s1 : St} {o1 : List Out} {rs : List Req}
    (h : runWith test replay s rs = .ok o1 s1)
    {rs' : List Req} {o2 : List Out} {s2 : St} (h2 : runWith test replay s1 rs' = .ok o2 s2) :
    runWith test replay s (rs ++ rs') = .ok (o1 ++ o2) s2 := by
  rw [runWith_append, h]; exact andThen_ok _ _ _ _ _ h2

/-! ## Switched off -/

mutual
/-- Inside a branch not taken nothing happens. -/
theorem run_inactive (s : St) (hc : s.cur = none) (hi : s.inactive = true) :
    (p : Prog) → runWith test replay s p.reqs = .ok [] s
  | .nil => rfl
  | .plain r k => runWith_cons_ok test replay (o1 := []) (s1 := s) (by simp [step, hi])
      (run_inactive s hc hi k)
  | .comment r k => runWith_cons_ok test replay (o1 := []) (s1 := s) (by simp [step, hi])
      (run_inactive s hc hi k)
  | .archive n body k => runWith_cons_ok test replay (o1 := []) (s1 := s) (by simp [step, hi])
      (runWith_append_ok test replay (run_inactive s hc hi body)
        (runWith_cons_ok test replay (o1 := []) (s1 := s) (by simp [step, hi])
          (run_inactive s hc hi k)))
  | .object n body k => runWith_cons_ok test replay (o1 := []) (s1 := s) (by simp [step, hi])
      (runWith_append_ok test replay (run_inactive s hc hi body)
        (runWith_cons_ok test replay (o1 := []) (s1 := s) (by simp [step, hi])
          (run_inactive s hc hi k)))
  | .read n k => runWith_cons_ok test replay (o1 := []) (s1 := s) (by simp [step, hi])
      (run_inactive s hc hi k)
  | .inst n k => runWith_cons_ok test replay (o1 := []) (s1 := s) (by simp [step, hi])
      (run_inactive s hc hi k)
  | .cond c body alt k => by
      refine runWith_cons_ok test replay (o1 := [])
        (s1 := { s with ifStack := true :: s.ifStack }) (by simp [step, hi, hc]) ?_
      refine runWith_append_ok test replay (run_inactive _ (by exact hc) (by exact hi) body) ?_
      refine runWith_append_ok test replay
        (run_inactive_alt _ (by exact hc) (by exact hi) ⟨_, rfl⟩ alt) ?_
      refine runWith_cons_ok test replay (o1 := []) (s1 := s) ?_ (run_inactive s hc hi k)
      obtain ⟨⟩ := s
      simp only at hc hi
      subst hc hi
      rfl
theorem run_inactive_alt (s : St) (hc : s.cur = none) (hi : s.inactive = true)
    (ht : ∃ r, s.ifStack = true :: r) :
    (a : Alt) → runWith test replay s a.reqs = .ok [] s
  | .done => rfl
  | .els body => by
      obtain ⟨r, hr⟩ := ht
      exact runWith_cons_ok test replay (o1 := []) (s1 := s) (by simp [step, hc, hr])
        (run_inactive s hc hi body)
  | .elseIf c body alt => by
      have ht' := ht
      obtain ⟨r, hr⟩ := ht
      exact runWith_cons_ok test replay (o1 := []) (s1 := s) (by simp [step, hc, hr])
        (runWith_append_ok test replay (run_inactive s hc hi body)
          (run_inactive_alt s hc hi ht' alt))
end

/-- The clauses after the one taken are skipped. -/
theorem run_skip_alt (s : St) (hc : s.cur = none) (htf : s.trueFound = true)
    (hs : ∃ r, s.ifStack = false :: r) :
    (a : Alt) → ∃ b, runWith test replay s a.reqs = .ok [] { s with inactive := b }
  | .done => ⟨s.inactive, rfl⟩
  | .els body => by
      obtain ⟨r, hr⟩ := hs
      refine ⟨true, runWith_cons_ok test replay (o1 := []) (s1 := { s with inactive := true })
        (by simp [step, hc, hr, htf]) (run_inactive test replay _ ?_ ?_ body)⟩
      · exact hc
      · rfl
  | .elseIf c body alt => by
      have hs' := hs
      obtain ⟨r, hr⟩ := hs
      obtain ⟨b, hb⟩ := run_skip_alt { s with inactive := true } hc htf hs' alt
      refine ⟨b, runWith_cons_ok test replay (o1 := []) (s1 := { s with inactive := true })
        (by simp [step, hc, hr, htf])
        (runWith_append_ok test replay (o1 := []) (o2 := [])
          (run_inactive test replay _ (by exact hc) rfl body) hb)⟩

/-! ## Recording -/

/-- Append a whole list to the stream being recorded. -/
def St.cacheAll (s : St) (b : Bool) (n : Nat) (rs : List Req) : St :=
  rs.foldl (fun s r => s.cache b n r) s

theorem cacheAll_append (s : St) (b : Bool) (n : Nat) (xs ys : List Req) :
    s.cacheAll b n (xs ++ ys) = (s.cacheAll b n xs).cacheAll b n ys := by
  simp [St.cacheAll]

theorem cacheAll_cons (s : St) (b : Bool) (n : Nat) (x : Req) (ys : List Req) :
    s.cacheAll b n (x :: ys) = (s.cache b n x).cacheAll b n ys := rfl

@[simp] theorem cache_cur (s : St) (b : Bool) (n : Nat) (r : Req) : (s.cache b n r).cur = s.cur := by
  cases b <;> rfl
@[simp] theorem cache_inactive (s : St) (b : Bool) (n : Nat) (r : Req) :
    (s.cache b n r).inactive = s.inactive := by cases b <;> rfl
@[simp] theorem cache_inObject (s : St) (b : Bool) (n : Nat) (r : Req) :
    (s.cache b n r).inObject = s.inObject := by cases b <;> rfl
@[simp] theorem cache_nested (s : St) (b : Bool) (n : Nat) (r : Req) :
    (s.cache b n r).nested = s.nested := by cases b <;> rfl

theorem cacheAll_inv {α : Type} (f : St → α) (b : Bool) (n : Nat)
    (hf : ∀ s r, f (St.cache s b n r) = f s) (rs : List Req) (s : St) :
    f (s.cacheAll b n rs) = f s := by
  induction rs generalizing s with
  | nil => rfl
  | cons r rs ih => rw [cacheAll_cons, ih, hf]

@[simp] theorem cacheAll_cur (s : St) (b : Bool) (n : Nat) (rs : List Req) :
    (s.cacheAll b n rs).cur = s.cur := cacheAll_inv St.cur b n (fun s r => by simp) rs s
@[simp] theorem cacheAll_inactive (s : St) (b : Bool) (n : Nat) (rs : List Req) :
    (s.cacheAll b n rs).inactive = s.inactive :=
  cacheAll_inv St.inactive b n (fun s r => by simp) rs s
@[simp] theorem cacheAll_inObject (s : St) (b : Bool) (n : Nat) (rs : List Req) :
    (s.cacheAll b n rs).inObject = s.inObject :=
  cacheAll_inv St.inObject b n (fun s r => by simp) rs s
@[simp] theorem cacheAll_nested (s : St) (b : Bool) (n : Nat) (rs : List Req) :
    (s.cacheAll b n rs).nested = s.nested :=
  cacheAll_inv St.nested b n (fun s r => by simp) rs s
@[simp] theorem cacheAll_ifStack (s : St) (b : Bool) (n : Nat) (rs : List Req) :
    (s.cacheAll b n rs).ifStack = s.ifStack :=
  cacheAll_inv St.ifStack b n (fun s r => by cases b <;> rfl) rs s
@[simp] theorem cacheAll_trueFound (s : St) (b : Bool) (n : Nat) (rs : List Req) :
    (s.cacheAll b n rs).trueFound = s.trueFound :=
  cacheAll_inv St.trueFound b n (fun s r => by cases b <;> rfl) rs s
@[simp] theorem cacheAll_active (s : St) (b : Bool) (n : Nat) (rs : List Req) :
    (s.cacheAll b n rs).active = s.active :=
  cacheAll_inv St.active b n (fun s r => by cases b <;> rfl) rs s

theorem cacheAll_setNested (k : Nat) (s : St) (b : Bool) (n : Nat) (rs : List Req) :
    ({ s with nested := k }).cacheAll b n rs = { s.cacheAll b n rs with nested := k } := by
  induction rs generalizing s with
  | nil => rfl
  | cons r rs ih =>
    rw [cacheAll_cons, cacheAll_cons, ← ih]
    cases b <;> rfl

theorem step_archiveEnd_nested (b : Bool) (n : Nat) (s : St) (hc : s.cur = some (b, n))
    (hi : s.inactive = false) :
    step test replay { s with nested := s.nested + 1 } .archiveEnd =
      .ok [] (s.cache b n .archiveEnd) := by
  cases s
  simp only at hc hi
  subst hc hi
  cases b <;> simp [step, St.cache]

mutual
/-- While recording, everything but comments is recorded and nothing is passed on. -/
theorem run_recording (b : Bool) (n : Nat) (s : St) (hc : s.cur = some (b, n))
    (hi : s.inactive = false) :
    (p : Prog) → (s.inObject = true → p.objFree) →
      runWith test replay s p.reqs = .ok [] (s.cacheAll b n p.strip.reqs)
  | .nil, _ => rfl
  | .plain r k, ho => runWith_cons_ok test replay (o1 := []) (s1 := s.cache b n (.plain r))
      (by simp [step, hi, hc])
      (run_recording b n _ (by simp [hc]) (by simp [hi]) k
        (by simpa [Prog.objFree] using ho))
  | .comment r k, ho => runWith_cons_ok test replay (o1 := []) (s1 := s)
      (by simp [step, hi, hc])
      (run_recording b n s hc hi k
        (by simpa [Prog.objFree] using ho))
  | .read r k, ho => runWith_cons_ok test replay (o1 := []) (s1 := s.cache b n (.readArchive r))
      (by simp [step, hi, hc])
      (run_recording b n _ (by simp [hc]) (by simp [hi]) k
        (by simpa [Prog.objFree] using ho))
  | .inst r k, ho => runWith_cons_ok test replay (o1 := []) (s1 := s.cache b n (.objectInstance r))
      (by simp [step, hi, hc])
      (run_recording b n _ (by simp [hc]) (by simp [hi]) k
        (by simpa [Prog.objFree] using ho))
  | .archive m body k, ho => by
      have h1 := run_recording b n ({ s with nested := s.nested + 1 }.cache b n (.archiveBegin m))
        (by simp [hc]) (by simp [hi]) body (by
          intro h; exact (ho (by simpa using h)).1)
      let s2 := (s.cacheAll b n (.archiveBegin m :: body.strip.reqs)).cache b n .archiveEnd
      have h2 : step test replay
          (({ s with nested := s.nested + 1 }.cache b n (.archiveBegin m)).cacheAll b n
            body.strip.reqs) .archiveEnd = .ok [] s2 := by
        rw [← cacheAll_cons, cacheAll_setNested]
        have hn : s.nested + 1 =
            (s.cacheAll b n (.archiveBegin m :: body.strip.reqs)).nested + 1 := by simp
        rw [hn]
        exact step_archiveEnd_nested test replay b n _ (by simp [hc]) (by simp [hi])
      have h3 := run_recording b n s2 (by simp [s2, hc]) (by simp [s2, hi]) k (by
        intro h; exact (ho (by simpa [s2] using h)).2)
      have := runWith_cons_ok test replay (s := s) (r := .archiveBegin m) (o1 := [])
        (by simp only [step, hi, hc, Bool.false_eq_true, if_false])
        (runWith_append_ok test replay h1 (runWith_cons_ok test replay h2 h3))
      simp only [List.append_nil] at this
      simp only [Prog.reqs, Prog.strip]
      rw [this]
      simp only [s2, cacheAll_cons, cacheAll_append]
  | .object m body k, ho => by
      have hno : s.inObject = false := by
        cases h : s.inObject with
        | false => rfl
        | true => exact absurd (ho h) (by simp [Prog.objFree])
      have h1 := run_recording b n (s.cache b n (.objectBegin m))
        (by simp [hc]) (by simp [hi]) body (by simp [hno])
      let s2 := (s.cacheAll b n (.objectBegin m :: body.strip.reqs)).cache b n .objectEnd
      have h2 : step test replay
          ((s.cache b n (.objectBegin m)).cacheAll b n body.strip.reqs) .objectEnd = .ok [] s2 := by
        rw [← cacheAll_cons]
        simp only [step, cacheAll_inactive, hi, cacheAll_cur, hc, cacheAll_inObject, hno]
        simp [s2]
      have h3 := run_recording b n s2 (by simp [s2, hc]) (by simp [s2, hi]) k (by simp [s2, hno])
      have := runWith_cons_ok test replay (s := s) (r := .objectBegin m) (o1 := [])
        (by simp only [step, hi, hc, Bool.false_eq_true, if_false])
        (runWith_append_ok test replay h1 (runWith_cons_ok test replay h2 h3))
      simp only [List.append_nil] at this
      simp only [Prog.reqs, Prog.strip]
      rw [this]
      simp only [s2, cacheAll_cons, cacheAll_append]
  | .cond c body alt k, ho => by
      have h1 := run_recording b n (s.cache b n (.ifBegin c))
        (by simp [hc]) (by simp [hi]) body (by
          intro h; exact (ho (by simpa using h)).1)
      have h2 := run_recording_alt b n ((s.cache b n (.ifBegin c)).cacheAll b n body.strip.reqs)
        (by simp [hc]) (by simp [hi]) alt (by
          intro h; exact (ho (by simpa using h)).2.1)
      let s2 := ((s.cacheAll b n (.ifBegin c :: body.strip.reqs)).cacheAll b n
        alt.strip.reqs).cache b n .ifEnd
      have h3 : step test replay (((s.cache b n (.ifBegin c)).cacheAll b n
          body.strip.reqs).cacheAll b n alt.strip.reqs) .ifEnd = .ok [] s2 := by
        simp only [step, cacheAll_cur, cache_cur, hc]
        rfl
      have h4 := run_recording b n s2 (by simp [s2, hc]) (by simp [s2, hi]) k (by
        intro h; exact (ho (by simpa [s2] using h)).2.2)
      have := runWith_cons_ok test replay (s := s) (r := .ifBegin c) (o1 := [])
        (by simp only [step, hc])
        (runWith_append_ok test replay h1 (runWith_append_ok test replay h2
          (runWith_cons_ok test replay h3 h4)))
      simp only [List.append_nil] at this
      simp only [Prog.reqs, Prog.strip]
      rw [this]
      simp only [s2, cacheAll_cons, cacheAll_append]
theorem run_recording_alt (b : Bool) (n : Nat) (s : St) (hc : s.cur = some (b, n))
    (hi : s.inactive = false) :
    (a : Alt) → (s.inObject = true → Prog.objFree.altFree a) →
      runWith test replay s a.reqs = .ok [] (s.cacheAll b n a.strip.reqs)
  | .done, _ => rfl
  | .els body, ho => runWith_cons_ok test replay (o1 := []) (s1 := s.cache b n .els)
      (by simp [step, hc])
      (run_recording b n _ (by simp [hc]) (by simp [hi]) body
        (by simpa [Prog.objFree.altFree] using ho))
  | .elseIf c body alt, ho => by
      have h1 := run_recording b n (s.cache b n (.elseIf c))
        (by simp [hc]) (by simp [hi]) body (by
          intro h; exact (ho (by simpa using h)).1)
      have h2 := run_recording_alt b n ((s.cache b n (.elseIf c)).cacheAll b n body.strip.reqs)
        (by simp [hc]) (by simp [hi]) alt (by
          intro h; exact (ho (by simpa using h)).2)
      have := runWith_cons_ok test replay (s := s) (r := .elseIf c) (o1 := [])
        (by simp only [step, hc])
        (runWith_append_ok test replay h1 h2)
      simp only [List.append_nil] at this
      simp only [Alt.reqs, Alt.strip]
      rw [this]
      simp only [cacheAll_cons, cacheAll_append]
end

/-! ## The tables -/

theorem find_fresh (s : Store) (n m : Nat) :
    (s.fresh n).find m = if m = n then some [] else s.find m := by
  unfold Store.fresh
  by_cases h : (s.find n).isSome
  · rw [if_pos h]
    induction s with
    | nil => simp [Store.find] at h
    | cons p s ih =>
      simp only [Store.find, List.map_cons] at *
      by_cases hp : p.1 = n
      · rw [if_pos hp]
        by_cases hm : m = n
        · simp [List.lookup, hm]
        · have h1 : (m == n) = false := by simp [hm]
          have h2 : (m == p.1) = false := by simp [hp, hm]
          simp only [List.lookup, h1, h2, if_neg hm]
          clear ih h
          induction s with
          | nil => rfl
          | cons q s ih =>
            simp only [List.map_cons]
            by_cases hq : q.1 = n
            · have h3 : (m == q.1) = false := by simp [hq, hm]
              simp only [if_pos hq, List.lookup, h1, h3, ih]
            · simp only [if_neg hq, List.lookup, ih]
      · rw [if_neg hp]
        have hn : (n == p.1) = false := by simp; exact fun h => hp h.symm
        simp only [List.lookup, hn] at h ⊢
        rw [ih h]
        by_cases hm : m = n
        · subst hm; simp [hn]
        · simp [hm]
  · rw [if_neg h]
    have hnone : s.find n = none := by simpa using h
    simp only [Store.find] at *
    rw [List.lookup_append]
    by_cases hm : m = n
    · subst hm; simp [hnone]
    · simp [hm, List.lookup, show (m == n) = false by simp [hm]]

theorem find_push (s : Store) (n m : Nat) (r : Req) :
    (s.push n r).find m = if m = n then (s.find n).map (· ++ [r]) else s.find m := by
  induction s with
  | nil => simp [Store.push, Store.find]
  | cons p s ih =>
    simp only [Store.push, Store.find, List.map_cons] at *
    by_cases hp : p.1 = n
    · rw [if_pos hp]
      by_cases hm : m = n
      · subst hm; simp [List.lookup, hp]
      · have h1 : (m == n) = false := by simp [hm]
        have h2 : (m == p.1) = false := by simp [hp, hm]
        simp [List.lookup, h1, h2, ih, hm]
    · rw [if_neg hp]
      have hn : (n == p.1) = false := by simp; exact fun h => hp h.symm
      simp only [List.lookup, hn, ih]
      by_cases hm : m = n
      · subst hm; simp [hn]
      · simp [hm]

theorem cacheAll_archives (s : St) (n : Nat) (rs : List Req) (m : Nat) :
    (s.cacheAll false n rs).archives.find m =
      if m = n then (s.archives.find n).map (· ++ rs) else s.archives.find m := by
  induction rs generalizing s with
  | nil =>
    by_cases h : m = n
    · simp [St.cacheAll, h]
    · simp [St.cacheAll, h]
  | cons r rs ih =>
    rw [cacheAll_cons, ih]
    simp only [St.cache, Bool.false_eq_true, if_false, find_push]
    by_cases h : m = n
    · simp only [if_pos h, if_true, Option.map_map]
      congr 1
      funext x
      simp
    · simp [h]

theorem cacheAll_objects (s : St) (n : Nat) (rs : List Req) (m : Nat) :
    (s.cacheAll true n rs).objects.find m =
      if m = n then (s.objects.find n).map (· ++ rs) else s.objects.find m := by
  induction rs generalizing s with
  | nil =>
    by_cases h : m = n
    · simp [St.cacheAll, h]
    · simp [St.cacheAll, h]
  | cons r rs ih =>
    rw [cacheAll_cons, ih]
    simp only [St.cache, if_true, find_push]
    by_cases h : m = n
    · simp only [if_pos h, if_true, Option.map_map]
      congr 1
      funext x
      simp
    · simp [h]

@[simp] theorem cacheAll_objects' (s : St) (n : Nat) (rs : List Req) :
    (s.cacheAll false n rs).objects = s.objects :=
  cacheAll_inv St.objects false n (fun s r => rfl) rs s
@[simp] theorem cacheAll_archives' (s : St) (n : Nat) (rs : List Req) :
    (s.cacheAll true n rs).archives = s.archives :=
  cacheAll_inv St.archives true n (fun s r => rfl) rs s

/-! ## Stripping comments keeps streams well-formed -/

theorem strip_ifFree : (p : Prog) → p.ifFree → p.strip.ifFree
  | .nil, h => h
  | .plain _ k, h => strip_ifFree k h
  | .comment _ k, h => strip_ifFree k h
  | .archive _ _ k, h => strip_ifFree k h
  | .object _ _ k, h => strip_ifFree k h
  | .read _ _, h => h.elim
  | .inst _ _, h => h.elim
  | .cond _ _ _ _, h => h.elim

mutual
theorem strip_objFree : (p : Prog) → p.objFree → p.strip.objFree
  | .nil, h => h
  | .plain _ k, h => strip_objFree k h
  | .comment _ k, h => strip_objFree k h
  | .archive _ b k, h => ⟨strip_objFree b h.1, strip_objFree k h.2⟩
  | .object _ _ k, h => h.elim
  | .read _ k, h => strip_objFree k h
  | .inst _ k, h => strip_objFree k h
  | .cond _ b a k, h => ⟨strip_objFree b h.1, strip_altFree a h.2.1, strip_objFree k h.2.2⟩
theorem strip_altFree : (a : Alt) → Prog.objFree.altFree a → Prog.objFree.altFree a.strip
  | .done, h => h
  | .els b, h => strip_objFree b h
  | .elseIf _ b a, h => ⟨strip_objFree b h.1, strip_altFree a h.2⟩
end

mutual
theorem strip_WF : (p : Prog) → p.WF → p.strip.WF
  | .nil, h => h
  | .plain _ k, h => strip_WF k h
  | .comment _ k, h => strip_WF k h
  | .archive _ b k, h => ⟨strip_WF b h.1, strip_WF k h.2⟩
  | .object _ b k, h => ⟨strip_objFree b h.1, strip_WF b h.2.1, strip_WF k h.2.2⟩
  | .read _ k, h => strip_WF k h
  | .inst _ k, h => strip_WF k h
  | .cond _ b a k, h => ⟨strip_WF b h.1, by
      rcases h.2.1 with h | h
      · left; subst h; rfl
      · right; exact strip_ifFree b h, strip_WF_alt a h.2.2.1, strip_WF k h.2.2.2⟩
theorem strip_WF_alt : (a : Alt) → a.WF → a.strip.WF
  | .done, h => h
  | .els b, h => strip_WF b h
  | .elseIf _ b a, h => ⟨strip_WF b h.1, by
      rcases h.2.1 with h | h
      · left; subst h; rfl
      · right; exact strip_ifFree b h, strip_WF_alt a h.2.2⟩
end

/-! ## The simulation -/

/-- The filter's state agrees with the environment of the meaning. -/
structure Rel (e : Env) (s : St) : Prop where
  cur : s.cur = none
  nested : s.nested = 0
  inObject : s.inObject = false
  on : s.inactive = false
  arch : ∀ n, s.archives.find n = (e.arch n).map Prog.reqs
  obj : ∀ n, s.objects.find n = (e.obj n).map Prog.reqs
  active : s.active = e.active
  archWF : ∀ n b, e.arch n = some b → b.WF
  objWF : ∀ n b, e.obj n = some b → b.WF

/-- A replay does what the meaning says. -/
def Sim (replay : St → List Req → Res) (rep : Env → Prog → Option (List Out × Env)) : Prop :=
  ∀ e s p o e', Rel e s → p.WF → rep e p = some (o, e') →
    ∃ s', replay s p.reqs = .ok o s' ∧ Rel e' s' ∧ s'.ifStack = s.ifStack

theorem seqE_some {x : Option (List Out × Env)} {k : Env → Option (List Out × Env)}
    {o : List Out} {e' : Env} (h : seqE x k = some (o, e')) :
    ∃ o1 e1 o2, x = some (o1, e1) ∧ k e1 = some (o2, e') ∧ o = o1 ++ o2 := by
  unfold seqE at h
  split at h
  · simp at h
  · rename_i o1 e1
    split at h
    · simp at h
    · rename_i o2 e2 hk
      simp only [Option.some.injEq, Prod.mk.injEq] at h
      exact ⟨o1, e1, o2, rfl, by rw [hk, h.2], h.1.symm⟩

theorem step_archiveEnd_top (s : St) (x : Bool × Nat) (hc : s.cur = some x)
    (hi : s.inactive = false) (hn : s.nested = 0) :
    step test replay s .archiveEnd = .ok [] { s with cur := none } := by
  cases s
  simp only at hc hi hn
  subst hc hi hn
  simp [step]

theorem step_objectEnd_top (s : St) (x : Bool × Nat) (hc : s.cur = some x)
    (hi : s.inactive = false) (hn : s.inObject = true) :
    step test replay s .objectEnd = .ok [] { s with inObject := false, cur := none } := by
  cases s
  simp only at hc hi hn
  subst hc hi hn
  simp [step]

/-- Recording an archive. -/
theorem run_archive (n : Nat) (body : Prog) (e : Env) (s : St) (hr : Rel e s) (hw : body.WF)
    (ha : (false, n) ∉ e.active) :
    ∃ s', runWith test replay s (.archiveBegin n :: (body.reqs ++ [.archiveEnd])) = .ok [] s' ∧
      Rel { e with arch := set e.arch n body.strip } s' ∧ s'.ifStack = s.ifStack ∧
      s'.trueFound = s.trueFound := by
  let s1 : St := { s with archives := s.archives.fresh n, cur := some (false, n) }
  have h1 : step test replay s (.archiveBegin n) = .ok [] s1 := by
    simp only [step, hr.on, hr.cur, St.begin, hr.active, if_neg ha]
    simp [s1, hr.active, hr.on]
  have h2 := run_recording test replay false n s1 rfl hr.on body
    (fun h => by simp [s1, hr.inObject] at h)
  let s2 : St := { s1.cacheAll false n body.strip.reqs with cur := none }
  have h3 : step test replay (s1.cacheAll false n body.strip.reqs) .archiveEnd = .ok [] s2 := by
    have hn : (s1.cacheAll false n body.strip.reqs).nested = 0 := by simp [s1, hr.nested]
    have hi : (s1.cacheAll false n body.strip.reqs).inactive = false := by simp [s1, hr.on]
    have hc : (s1.cacheAll false n body.strip.reqs).cur = some (false, n) := by simp [s1]
    exact step_archiveEnd_top test replay _ _ hc hi hn
  refine ⟨s2, ?_, ?_, by simp [s2, s1], by simp [s2, s1]⟩
  · exact runWith_cons_ok test replay h1 (runWith_append_ok test replay h2
      (runWith_cons_ok test replay h3 rfl))
  · refine ⟨rfl, by simp [s2, s1, hr.nested], by simp [s2, s1, hr.inObject], by simp [s2, s1, hr.on],
      ?_, by simp [s2, s1, hr.obj], by simp [s2, s1, hr.active], ?_, hr.objWF⟩
    · intro m
      simp only [s2, cacheAll_archives, s1, find_fresh, set]
      by_cases hm : m = n
      · simp [hm]
      · simp [hm, hr.arch]
    · intro m b hb
      simp only [set] at hb
      split at hb
      · simp only [Option.some.injEq] at hb
        subst hb
        exact strip_WF body hw
      · exact hr.archWF m b hb

/-- Recording an object. -/
theorem run_object (n : Nat) (body : Prog) (e : Env) (s : St) (hr : Rel e s) (hw : body.WF)
    (hof : body.objFree) (ha : (true, n) ∉ e.active) :
    ∃ s', runWith test replay s (.objectBegin n :: (body.reqs ++ [.objectEnd])) = .ok [] s' ∧
      Rel { e with obj := set e.obj n body.strip } s' ∧ s'.ifStack = s.ifStack ∧
      s'.trueFound = s.trueFound := by
  let s1 : St := { s with objects := s.objects.fresh n, cur := some (true, n), inObject := true }
  have h1 : step test replay s (.objectBegin n) = .ok [] s1 := by
    simp only [step, hr.on, hr.cur, St.begin, hr.active, if_neg ha]
    simp [s1, hr.active, hr.on]
  have h2 := run_recording test replay true n s1 rfl hr.on body (fun _ => hof)
  let s2 : St := { s1.cacheAll true n body.strip.reqs with inObject := false, cur := none }
  have h3 : step test replay (s1.cacheAll true n body.strip.reqs) .objectEnd = .ok [] s2 := by
    have hn : (s1.cacheAll true n body.strip.reqs).inObject = true := by simp [s1]
    have hi : (s1.cacheAll true n body.strip.reqs).inactive = false := by simp [s1, hr.on]
    have hc : (s1.cacheAll true n body.strip.reqs).cur = some (true, n) := by simp [s1]
    exact step_objectEnd_top test replay _ _ hc hi hn
  refine ⟨s2, ?_, ?_, by simp [s2, s1], by simp [s2, s1]⟩
  · exact runWith_cons_ok test replay h1 (runWith_append_ok test replay h2
      (runWith_cons_ok test replay h3 rfl))
  · refine ⟨rfl, by simp [s2, s1, hr.nested], by simp [s2], by simp [s2, s1, hr.on],
      by simp [s2, s1, hr.arch], ?_, by simp [s2, s1, hr.active], hr.archWF, ?_⟩
    · intro m
      simp only [s2, cacheAll_objects, s1, find_fresh, set]
      by_cases hm : m = n
      · simp [hm]
      · simp [hm, hr.obj]
    · intro m b hb
      simp only [set] at hb
      split at hb
      · simp only [Option.some.injEq] at hb
        subst hb
        exact strip_WF body hw
      · exact hr.objWF m b hb

theorem Rel.upd {e : Env} {s : St} (h : Rel e s) (st : List Bool) (tf : Bool) :
    Rel e { s with ifStack := st, trueFound := tf } :=
  ⟨h.cur, h.nested, h.inObject, h.on, h.arch, h.obj, h.active, h.archWF, h.objWF⟩

theorem Rel.setActive {e : Env} {s : St} (h : Rel e s) (a : List (Bool × Nat)) :
    Rel { e with active := a } { s with active := a } :=
  ⟨h.cur, h.nested, h.inObject, h.on, h.arch, h.obj, rfl, h.archWF, h.objWF⟩

variable (rep : Env → Prog → Option (List Out × Env))

variable {test replay rep}

mutual
theorem run_sim (hsim : Sim replay rep) (e : Env) (s : St) (hr : Rel e s) :
    (p : Prog) → p.WF → (o : List Out) → (e' : Env) → evalWith test rep e p = some (o, e') →
      ∃ s', runWith test replay s p.reqs = .ok o s' ∧ Rel e' s' ∧ s'.ifStack = s.ifStack ∧
        (p.ifFree → s'.trueFound = s.trueFound)
  | .nil, _, o, e', h => by
      simp only [evalWith, Option.some.injEq, Prod.mk.injEq] at h
      obtain ⟨rfl, rfl⟩ := h
      exact ⟨s, rfl, hr, rfl, fun _ => rfl⟩
  | .plain r k, hw, o, e', h => by
      obtain ⟨o1, e1, o2, h1, h2, rfl⟩ := seqE_some (by simpa only [evalWith] using h)
      simp only [Option.some.injEq, Prod.mk.injEq] at h1
      obtain ⟨rfl, rfl⟩ := h1
      obtain ⟨s', a, b, c, d⟩ := run_sim hsim e s hr k hw o2 e' h2
      exact ⟨s', runWith_cons_ok test replay (by simp [step, hr.on, hr.cur]) a, b, c, d⟩
  | .comment r k, hw, o, e', h => by
      obtain ⟨o1, e1, o2, h1, h2, rfl⟩ := seqE_some (by simpa only [evalWith] using h)
      simp only [Option.some.injEq, Prod.mk.injEq] at h1
      obtain ⟨rfl, rfl⟩ := h1
      obtain ⟨s', a, b, c, d⟩ := run_sim hsim e s hr k hw o2 e' h2
      exact ⟨s', runWith_cons_ok test replay (by simp [step, hr.on, hr.cur]) a, b, c, d⟩
  | .archive n body k, hw, o, e', h => by
      simp only [evalWith] at h
      by_cases ha : (false, n) ∈ e.active
      · rw [if_pos ha] at h; simp at h
      rw [if_neg ha] at h
      obtain ⟨s1, a1, b1, c1, d1⟩ := run_archive test replay n body e s hr hw.1 ha
      obtain ⟨s', a, b, c, d⟩ := run_sim hsim _ s1 b1 k hw.2 o e' h
      refine ⟨s', ?_, b, c.trans c1, fun hf => (d hf).trans d1⟩
      have := runWith_append_ok test replay a1 a
      simpa [Prog.reqs] using this
  | .object n body k, hw, o, e', h => by
      simp only [evalWith] at h
      by_cases ha : (true, n) ∈ e.active
      · rw [if_pos ha] at h; simp at h
      rw [if_neg ha] at h
      obtain ⟨s1, a1, b1, c1, d1⟩ := run_object test replay n body e s hr hw.2.1 hw.1 ha
      obtain ⟨s', a, b, c, d⟩ := run_sim hsim _ s1 b1 k hw.2.2 o e' h
      refine ⟨s', ?_, b, c.trans c1, fun hf => (d hf).trans d1⟩
      have := runWith_append_ok test replay a1 a
      simpa [Prog.reqs] using this
  | .read n k, hw, o, e', h => by
      obtain ⟨o1, e1, o2, h1, h2, rfl⟩ := seqE_some (by simpa only [evalWith] using h)
      have hf := hr.arch n
      cases hn : e.arch n with
      | none =>
        rw [hn] at h1 hf
        simp only [Option.some.injEq, Prod.mk.injEq] at h1
        obtain ⟨rfl, rfl⟩ := h1
        obtain ⟨s', a, b, c, d⟩ := run_sim hsim e s hr k hw o2 e' h2
        refine ⟨s', runWith_cons_ok test replay ?_ a, b, c, fun hf => hf.elim⟩
        simp only [Option.map_none] at hf
        simp [step, hr.on, hr.cur, hf]
      | some b =>
        rw [hn] at h1 hf
        simp only [Option.map_some] at hf
        obtain ⟨o3, e3, o4, h3, h4, rfl⟩ := seqE_some h1
        simp only [Option.some.injEq, Prod.mk.injEq] at h4
        obtain ⟨rfl, rfl⟩ := h4
        obtain ⟨s3, a3, b3, c3⟩ := hsim _ { s with active := (false, n) :: s.active } b o3 e3
          (by rw [← hr.active]; exact hr.setActive _) (hr.archWF n b hn) h3
        obtain ⟨s', a, b', c, d⟩ := run_sim hsim _ { s3 with active := s.active }
          (by rw [← hr.active]; exact b3.setActive _) k hw o2 e' h2
        refine ⟨s', ?_, b', c.trans c3, fun hf => hf.elim⟩
        refine runWith_cons_ok test replay ?_ a
        simp only [step, hr.on, hr.cur, hf]
        simp only [hr.cur, hr.on] at a3
        simp [a3, Res.andThen]
  | .inst n k, hw, o, e', h => by
      obtain ⟨o1, e1, o2, h1, h2, rfl⟩ := seqE_some (by simpa only [evalWith] using h)
      have hf := hr.obj n
      cases hn : e.obj n with
      | none =>
        rw [hn] at h1 hf
        simp only [Option.some.injEq, Prod.mk.injEq] at h1
        obtain ⟨rfl, rfl⟩ := h1
        obtain ⟨s', a, b, c, d⟩ := run_sim hsim e s hr k hw o2 e' h2
        refine ⟨s', runWith_cons_ok test replay ?_ a, b, c, fun hf => hf.elim⟩
        simp only [Option.map_none] at hf
        simp [step, hr.on, hr.cur, hf]
      | some b =>
        rw [hn] at h1 hf
        simp only [Option.map_some] at hf
        obtain ⟨o3, e3, o4, h3, h4, rfl⟩ := seqE_some h1
        simp only [Option.some.injEq, Prod.mk.injEq] at h4
        obtain ⟨rfl, rfl⟩ := h4
        obtain ⟨s3, a3, b3, c3⟩ := hsim _ { s with active := (true, n) :: s.active } b o3 e3
          (by rw [← hr.active]; exact hr.setActive _) (hr.objWF n b hn) h3
        obtain ⟨s', a, b', c, d⟩ := run_sim hsim _ { s3 with active := s.active }
          (by rw [← hr.active]; exact b3.setActive _) k hw o2 e' h2
        refine ⟨s', ?_, b', c.trans c3, fun hf => hf.elim⟩
        refine runWith_cons_ok test replay ?_ a
        simp only [step, hr.on, hr.cur, hf]
        simp only [hr.cur, hr.on] at a3
        simp [a3, Res.andThen]
  | .cond c body alt k, hw, o, e', h => by
      obtain ⟨o1, e1, o2, h1, h2, rfl⟩ := seqE_some (by simpa only [evalWith] using h)
      obtain ⟨hwb, hdone, hwa, hwk⟩ := hw
      -- the conditional itself, up to before IfEnd
      have key : ∃ s1 b, runWith test replay s (.ifBegin c :: (body.reqs ++ alt.reqs)) =
          .ok o1 { s1 with inactive := b } ∧ Rel e1 s1 ∧ s1.ifStack = false :: s.ifStack := by
        have hst : step test replay s (.ifBegin c) = .ok [] { s with
            ifStack := false :: s.ifStack, trueFound := test c, inactive := !test c } := by
          simp only [step, hr.cur, hr.on]
          simp
        cases ht : test c with
        | true =>
          rw [ht] at h1 hst
          simp only [if_true, Bool.not_true] at h1 hst
          have hr' : Rel e { s with
              ifStack := false :: s.ifStack, trueFound := true, inactive := false } :=
            ⟨hr.cur, hr.nested, hr.inObject, rfl, hr.arch, hr.obj, hr.active, hr.archWF, hr.objWF⟩
          obtain ⟨s1, a, b, c', d⟩ := run_sim hsim e _ hr' body hwb o1 e1 h1
          rcases hdone with rfl | hfree
          · refine ⟨s1, s1.inactive, ?_, b, c'⟩
            have := runWith_cons_ok test replay hst a
            simpa [Alt.reqs] using this
          · obtain ⟨bb, hb⟩ := run_skip_alt test replay s1 b.cur (d hfree) ⟨_, c'⟩ alt
            refine ⟨s1, bb, ?_, b, c'⟩
            have := runWith_cons_ok test replay hst (runWith_append_ok test replay a hb)
            simpa using this
        | false =>
          rw [ht] at h1 hst
          simp only [Bool.false_eq_true, if_false, Bool.not_false] at h1 hst
          have h5 := run_inactive test replay { s with
            ifStack := false :: s.ifStack, trueFound := false, inactive := true } hr.cur rfl body
          obtain ⟨s1, b, a, b', c'⟩ := alt_sim hsim e
            { s with ifStack := false :: s.ifStack, trueFound := false } (hr.upd _ _) true
            ⟨_, rfl⟩ rfl alt hwa o1 e1 h1
          refine ⟨s1, b, ?_, b', c'⟩
          exact runWith_cons_ok test replay hst (runWith_append_ok test replay h5 a)
      obtain ⟨s1, b, a1, r1, st1⟩ := key
      have hend : step test replay { s1 with inactive := b } .ifEnd =
          .ok [] { s1 with ifStack := s.ifStack } := by
        have h1 := r1.cur
        have h2 := r1.on
        obtain ⟨⟩ := s1
        simp only at h1 h2 st1
        subst h1 h2 st1
        rfl
      obtain ⟨s', a, b', c', d⟩ := run_sim hsim e1 { s1 with ifStack := s.ifStack }
        (r1.upd s.ifStack s1.trueFound) k hwk o2 e' h2
      refine ⟨s', ?_, b', c', fun hf => hf.elim⟩
      have := runWith_append_ok test replay a1 (runWith_cons_ok test replay hend a)
      simpa [Prog.reqs] using this
theorem alt_sim (hsim : Sim replay rep) (e : Env) (s : St) (hr : Rel e s) (i : Bool)
    (hs : ∃ r, s.ifStack = false :: r) (htf : s.trueFound = false) :
    (a : Alt) → a.WF → (o : List Out) → (e' : Env) → evalAlt test rep e a = some (o, e') →
      ∃ s1 b, runWith test replay { s with inactive := i } a.reqs = .ok o { s1 with inactive := b } ∧
        Rel e' s1 ∧ s1.ifStack = s.ifStack
  | .done, _, o, e', h => by
      simp only [evalAlt, Option.some.injEq, Prod.mk.injEq] at h
      obtain ⟨rfl, rfl⟩ := h
      exact ⟨s, i, rfl, hr, rfl⟩
  | .els body, hw, o, e', h => by
      obtain ⟨r, hr'⟩ := hs
      obtain ⟨s1, a, b, c, d⟩ := run_sim hsim e s hr body hw o e' (by simpa only [evalAlt] using h)
      refine ⟨s1, s1.inactive, ?_, b, c⟩
      refine runWith_cons_ok test replay (s1 := s) (o1 := []) ?_ a
      simp only [step, hr.cur, hr', htf]
      have h1 := hr.cur
      have h2 := hr.on
      obtain ⟨⟩ := s
      simp only at h1 h2 hr' htf
      subst h1 h2 hr' htf
      rfl
  | .elseIf c body alt, hw, o, e', h => by
      have hs' := hs
      obtain ⟨r, hr'⟩ := hs
      obtain ⟨hwb, hdone, hwa⟩ := hw
      simp only [evalAlt] at h
      have hst : step test replay { s with inactive := i } (.elseIf c) =
          .ok [] { s with trueFound := test c, inactive := !test c } := by
        simp only [step, hr.cur, hr', htf]
        simp
      cases ht : test c with
      | true =>
        rw [ht] at h hst
        simp only [if_true, Bool.not_true] at h hst
        have hr2 : Rel e { s with trueFound := true, inactive := false } :=
          ⟨hr.cur, hr.nested, hr.inObject, rfl, hr.arch, hr.obj, hr.active, hr.archWF, hr.objWF⟩
        obtain ⟨s1, a, b, c', d⟩ := run_sim hsim e _ hr2 body hwb o e' h
        rcases hdone with rfl | hfree
        · refine ⟨s1, s1.inactive, ?_, b, c'⟩
          have := runWith_cons_ok test replay hst a
          simpa [Alt.reqs] using this
        · obtain ⟨bb, hb⟩ := run_skip_alt test replay s1 b.cur (d hfree)
            ⟨r, by rw [c']; exact hr'⟩ alt
          refine ⟨s1, bb, ?_, b, c'⟩
          have := runWith_cons_ok test replay hst (runWith_append_ok test replay a hb)
          simpa [Alt.reqs] using this
      | false =>
        rw [ht] at h hst
        simp only [Bool.false_eq_true, if_false, Bool.not_false] at h hst
        have h5 := run_inactive test replay { s with trueFound := false, inactive := true }
          hr.cur rfl body
        have hr3 : Rel e { s with trueFound := false } := hr.upd s.ifStack false
        obtain ⟨s1, b, a, b', c'⟩ := alt_sim hsim e { s with trueFound := false } hr3 true
          hs' rfl alt hwa o e' h
        refine ⟨s1, b, ?_, b', c'⟩
        exact runWith_cons_ok test replay hst (runWith_append_ok test replay h5 a)
end

/-- The filter does what the meaning says. -/
theorem run_eval (test : Nat → Bool) (f : Nat) : Sim (run test f) (eval test f) := by
  induction f with
  | zero =>
    intro e s p o e' hr hw h
    obtain ⟨s', a, b, c, _⟩ := run_sim (test := test) (replay := fun _ _ => .deep) (rep := fun _ _ => none)
      (fun _ _ _ _ _ _ _ h => by simp at h) e s hr p hw o e' h
    exact ⟨s', a, b, c⟩
  | succ f ih =>
    intro e s p o e' hr hw h
    obtain ⟨s', a, b, c, _⟩ := run_sim ih e s hr p hw o e' h
    exact ⟨s', a, b, c⟩

end Verif.Filter
