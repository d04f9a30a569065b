import Verif.Filter.RenderUtilLemmas
/-!
# C15, C16, C17: conditionals, inline archives and object instances

Streams are structured (`Prog`); `Prog.reqs` are their requests, and the specification is either
`chosen` below or `eval` (`RenderUtilLemmas`), which never mentions the filter's state.
-/
namespace Verif.Filter

/-- The empty environment: nothing recorded, nothing being replayed. -/
def Env.empty : Env := ⟨fun _ => none, fun _ => none, []⟩

theorem Rel_init : Rel Env.empty St.init :=
  ⟨rfl, rfl, rfl, rfl, fun _ => rfl, fun _ => rfl, rfl, fun _ _ h => by simp [Env.empty] at h,
    fun _ _ h => by simp [Env.empty] at h⟩

/-! ## C15 -/

mutual
/-- Specification of conditionals: the requests of the first branch whose condition holds. -/
def Prog.chosen (test : Nat → Bool) : Prog → List Req
  | .nil => []
  | .plain r k => .plain r :: k.chosen test
  | .comment r k => .record r :: k.chosen test
  | .archive _ _ k => k.chosen test
  | .read _ k => k.chosen test
  | .object _ _ k => k.chosen test
  | .inst _ k => k.chosen test
  | .cond c body alt k =>
    (if test c then body.chosen test else alt.chosen test) ++ k.chosen test
def Alt.chosen (test : Nat → Bool) : Alt → List Req
  | .done => []
  | .els body => body.chosen test
  | .elseIf c body alt => if test c then body.chosen test else alt.chosen test
end

mutual
/-- Only requests, comments and conditionals. -/
def Prog.simple : Prog → Prop
  | .nil => True
  | .plain _ k => k.simple
  | .comment _ k => k.simple
  | .cond _ body alt k => body.simple ∧ alt.simple ∧ k.simple
  | _ => False
def Alt.simple : Alt → Prop
  | .done => True
  | .els body => body.simple
  | .elseIf _ body alt => body.simple ∧ alt.simple
end

mutual
theorem eval_simple (test : Nat → Bool) (rep : Env → Prog → Option (List Out × Env)) (e : Env) :
    (p : Prog) → p.simple → evalWith test rep e p = some ((p.chosen test).map .pass, e)
  | .nil, _ => rfl
  | .plain r k, h => by simp [evalWith, seqE, eval_simple test rep e k h, Prog.chosen]
  | .comment r k, h => by simp [evalWith, seqE, eval_simple test rep e k h, Prog.chosen]
  | .cond c body alt k, h => by
      simp only [evalWith, Prog.chosen]
      by_cases hc : test c = true
      · simp [hc, eval_simple test rep e body h.1, eval_simple test rep e k h.2.2, seqE]
      · simp [hc, eval_alt_simple test rep e alt h.2.1, eval_simple test rep e k h.2.2, seqE]
theorem eval_alt_simple (test : Nat → Bool) (rep : Env → Prog → Option (List Out × Env)) (e : Env) :
    (a : Alt) → a.simple → evalAlt test rep e a = some ((a.chosen test).map .pass, e)
  | .done, _ => rfl
  | .els body, h => by simp [evalAlt, eval_simple test rep e body h, Alt.chosen]
  | .elseIf c body alt, h => by
      simp only [evalAlt, Alt.chosen]
      by_cases hc : test c = true
      · simp [hc, eval_simple test rep e body h.1]
      · simp [hc, eval_alt_simple test rep e alt h.2]
end

/-- **C15 (partial).**  Of every conditional exactly the first branch whose condition holds (or the
`Else` branch) is passed on, at any nesting depth.  Missing: conditionals nested in a branch that
is followed by another branch (`WF`), where the property fails (`C15_nested_violated`). -/
theorem C15_conditionals_partial (test : Nat → Bool) (p : Prog) (hs : p.simple) (hw : p.WF) :
    ∃ s, run test 0 St.init p.reqs = .ok ((p.chosen test).map .pass) s ∧
      s.ifStack = [] ∧ s.inactive = false := by
  obtain ⟨s', a, b, c⟩ := run_eval test 0 Env.empty St.init p _ _ Rel_init hw
    (eval_simple test _ Env.empty p hs)
  exact ⟨s', a, c, b.on⟩

/-- Nested three deep, in the last branches. -/
example : ∃ p : Prog, p.simple ∧ p.WF ∧
    p.reqs = [.ifBegin 0, .plain 1, .elseIf 1, .plain 2, .els, .ifBegin 2, .plain 3, .els,
      .plain 4, .ifEnd, .plain 5, .ifEnd, .plain 6] ∧
    p.chosen (fun _ => false) = [.plain 4, .plain 5, .plain 6] :=
  ⟨.cond 0 (.plain 1 .nil) (.elseIf 1 (.plain 2 .nil) (.els
    (.cond 2 (.plain 3 .nil) (.els (.plain 4 .nil)) (.plain 5 .nil)))) (.plain 6 .nil),
    by simp [Prog.simple, Alt.simple], by simp [Prog.WF, Alt.WF, Prog.ifFree],
    by simp [Prog.reqs, Alt.reqs], by simp [Prog.chosen, Alt.chosen]⟩

/-- **C15 fails for nested conditionals**: `If true (If false IfEnd) Else r IfEnd` passes `r` on
although the first branch was taken, because the inner `IfBegin` overwrites `m_trueClauseFound`. -/
theorem C15_nested_violated :
    ∃ (test : Nat → Bool) (p : Prog), p.simple ∧ p.chosen test = [] ∧
      ∃ s, run test 0 St.init p.reqs = .ok [.pass (.plain 7)] s := by
  refine ⟨fun c => c == 0, .cond 0 (.cond 1 .nil .done .nil) (.els (.plain 7 .nil)) .nil,
    by simp [Prog.simple, Alt.simple], by simp [Prog.chosen, Alt.chosen], ?_⟩
  exact ⟨_, rfl⟩

/-- A branch not taken leaves the state alone, whatever it contains and however deeply nested. -/
theorem C15_skipped_clause_keeps_state (test : Nat → Bool) (f : Nat) (s : St) (hc : s.cur = none)
    (hi : s.inactive = true) (p : Prog) : run test f s p.reqs = .ok [] s := by
  cases f <;> exact run_inactive test _ s hc hi p

/-- `ElseIf` and `Else` outside any conditional read the top of an empty stack. -/
theorem C15_stray_else_violated (test : Nat → Bool) :
    run test 0 St.init [.els] = .ub ∧ run test 0 St.init [.elseIf 0] = .ub := ⟨rfl, rfl⟩

/-! ## C16 -/

mutual
theorem eval_active (test : Nat → Bool) (rep : Env → Prog → Option (List Out × Env)) (e : Env) :
    (p : Prog) → ∀ o e', evalWith test rep e p = some (o, e') → e'.active = e.active
  | .nil, o, e', h => by
      simp only [evalWith, Option.some.injEq, Prod.mk.injEq] at h
      rw [h.2]
  | .plain r k, o, e', h => by
      obtain ⟨o1, e1, o2, h1, h2, rfl⟩ := seqE_some (by simpa only [evalWith] using h)
      simp only [Option.some.injEq, Prod.mk.injEq] at h1
      rw [← h1.2] at h2
      exact eval_active test rep e k _ _ h2
  | .comment r k, o, e', h => by
      obtain ⟨o1, e1, o2, h1, h2, rfl⟩ := seqE_some (by simpa only [evalWith] using h)
      simp only [Option.some.injEq, Prod.mk.injEq] at h1
      rw [← h1.2] at h2
      exact eval_active test rep e k _ _ h2
  | .archive n b k, o, e', h => by
      simp only [evalWith] at h
      by_cases ha : (false, n) ∈ e.active
      · rw [if_pos ha] at h; simp at h
      rw [if_neg ha] at h
      have := eval_active test rep { e with arch := set e.arch n b.strip } k _ _ h
      exact this
  | .object n b k, o, e', h => by
      simp only [evalWith] at h
      by_cases ha : (true, n) ∈ e.active
      · rw [if_pos ha] at h; simp at h
      rw [if_neg ha] at h
      have := eval_active test rep { e with obj := set e.obj n b.strip } k _ _ h
      exact this
  | .read n k, o, e', h => by
      obtain ⟨o1, e1, o2, h1, h2, rfl⟩ := seqE_some (by simpa only [evalWith] using h)
      rw [eval_active test rep e1 k _ _ h2]
      cases hn : e.arch n with
      | none =>
        rw [hn] at h1
        simp only [Option.some.injEq, Prod.mk.injEq] at h1
        rw [h1.2]
      | some b =>
        rw [hn] at h1
        obtain ⟨o3, e3, o4, h3, h4, rfl⟩ := seqE_some h1
        simp only [Option.some.injEq, Prod.mk.injEq] at h4
        rw [← h4.2]
  | .inst n k, o, e', h => by
      obtain ⟨o1, e1, o2, h1, h2, rfl⟩ := seqE_some (by simpa only [evalWith] using h)
      rw [eval_active test rep e1 k _ _ h2]
      cases hn : e.obj n with
      | none =>
        rw [hn] at h1
        simp only [Option.some.injEq, Prod.mk.injEq] at h1
        rw [h1.2]
      | some b =>
        rw [hn] at h1
        obtain ⟨o3, e3, o4, h3, h4, rfl⟩ := seqE_some h1
        simp only [Option.some.injEq, Prod.mk.injEq] at h4
        rw [← h4.2]
  | .cond c b a k, o, e', h => by
      obtain ⟨o1, e1, o2, h1, h2, rfl⟩ := seqE_some (by simpa only [evalWith] using h)
      rw [eval_active test rep e1 k _ _ h2]
      by_cases hc : test c = true
      · rw [if_pos hc] at h1
        exact eval_active test rep e b _ _ h1
      · rw [if_neg hc] at h1
        exact eval_alt_active test rep e a _ _ h1
theorem eval_alt_active (test : Nat → Bool) (rep : Env → Prog → Option (List Out × Env)) (e : Env) :
    (a : Alt) → ∀ o e', evalAlt test rep e a = some (o, e') → e'.active = e.active
  | .done, o, e', h => by
      simp only [evalAlt, Option.some.injEq, Prod.mk.injEq] at h
      rw [h.2]
  | .els b, o, e', h => eval_active test rep e b o e' (by simpa only [evalAlt] using h)
  | .elseIf c b a, o, e', h => by
      simp only [evalAlt] at h
      by_cases hc : test c = true
      · rw [if_pos hc] at h
        exact eval_active test rep e b _ _ h
      · rw [if_neg hc] at h
        exact eval_alt_active test rep e a _ _ h
end

/-- **C16 and C17, all well-formed streams.**  If a well-nested stream of requests, comments,
archive and object definitions, reads, instances and conditionals has a meaning, the filter passes
on exactly that meaning. -/
theorem C16_filter_meets_spec_partial (test : Nat → Bool) (f : Nat) (p : Prog) (hw : p.WF)
    (o : List Out) (e : Env) (h : eval test f Env.empty p = some (o, e)) :
    ∃ s, run test f St.init p.reqs = .ok o s ∧ s.cur = none ∧ s.ifStack = [] ∧
      ∀ n, s.archives.find n = (e.arch n).map Prog.reqs := by
  obtain ⟨s', a, b, c⟩ := run_eval test f Env.empty St.init p o e Rel_init hw h
  exact ⟨s', a, b.cur, c, b.arch⟩

/-- Run one stream after another. -/
def Prog.append : Prog → Prog → Prog
  | .nil, q => q
  | .plain r k, q => .plain r (k.append q)
  | .comment r k, q => .comment r (k.append q)
  | .archive n b k, q => .archive n b (k.append q)
  | .read n k, q => .read n (k.append q)
  | .object n b k, q => .object n b (k.append q)
  | .inst n k, q => .inst n (k.append q)
  | .cond c b a k, q => .cond c b a (k.append q)

theorem reqs_append : (p q : Prog) → (p.append q).reqs = p.reqs ++ q.reqs
  | .nil, q => rfl
  | .plain r k, q => by simp [Prog.append, Prog.reqs, reqs_append k q]
  | .comment r k, q => by simp [Prog.append, Prog.reqs, reqs_append k q]
  | .archive n b k, q => by simp [Prog.append, Prog.reqs, reqs_append k q]
  | .read n k, q => by simp [Prog.append, Prog.reqs, reqs_append k q]
  | .object n b k, q => by simp [Prog.append, Prog.reqs, reqs_append k q]
  | .inst n k, q => by simp [Prog.append, Prog.reqs, reqs_append k q]
  | .cond c b a k, q => by simp [Prog.append, Prog.reqs, reqs_append k q]

/-- A stream of ordinary requests. -/
def plains : List Nat → Prog
  | [] => .nil
  | r :: rs => .plain r (plains rs)

theorem plains_reqs (rs : List Nat) : (plains rs).reqs = rs.map .plain := by
  induction rs with
  | nil => rfl
  | cons r rs ih => simp [plains, Prog.reqs, ih]
theorem plains_strip (rs : List Nat) : (plains rs).strip = plains rs := by
  induction rs with
  | nil => rfl
  | cons r rs ih => simp [plains, Prog.strip, ih]
theorem plains_simple (rs : List Nat) : (plains rs).simple := by
  induction rs with
  | nil => trivial
  | cons r rs ih => simpa [plains, Prog.simple] using ih
theorem plains_WF (rs : List Nat) : (plains rs).WF := by
  induction rs with
  | nil => trivial
  | cons r rs ih => simpa [plains, Prog.WF] using ih
theorem plains_objFree (rs : List Nat) : (plains rs).objFree := by
  induction rs with
  | nil => trivial
  | cons r rs ih => simpa [plains, Prog.objFree] using ih
theorem plains_chosen (test : Nat → Bool) (rs : List Nat) :
    (plains rs).chosen test = rs.map .plain := by
  induction rs with
  | nil => rfl
  | cons r rs ih => simp [plains, Prog.chosen, ih]

theorem run_append_ok (test : Nat → Bool) (f : Nat) {s s1 s2 : St} {o1 o2 : List Out}
    {xs ys : List Req} (h1 : run test f s xs = .ok o1 s1) (h2 : run test f s1 ys = .ok o2 s2) :
    run test f s (xs ++ ys) = .ok (o1 ++ o2) s2 := by
  cases f <;> exact runWith_append_ok test _ h1 h2

/-- **C16.**  After any history, `ArchiveBegin n`, ordinary requests, `ArchiveEnd` pass nothing on,
and after any number of further requests `ReadArchive n` passes on exactly those requests, in order.
In particular an earlier archive of the same name is replaced. -/
theorem C16_archive_replays (test : Nat → Bool) (f : Nat) (hist : Prog) (hw : hist.WF)
    (o : List Out) (e : Env) (h : eval test (f + 1) Env.empty hist = some (o, e))
    (n : Nat) (body between : List Nat) :
    ∃ s, run test (f + 1) St.init
        (hist.reqs ++ (.archiveBegin n :: (body.map .plain ++ .archiveEnd ::
          (between.map .plain ++ [.readArchive n])))) =
      .ok (o ++ (between.map (.pass ∘ .plain) ++ body.map (.pass ∘ .plain))) s := by
  obtain ⟨s1, a, b, c⟩ := run_eval test (f + 1) Env.empty St.init hist o e Rel_init hw h
  have hact : e.active = [] := eval_active test _ Env.empty hist o e h
  let q : Prog := .archive n (plains body) ((plains between).append (.read n .nil))
  have hq : q.reqs = .archiveBegin n :: (body.map .plain ++ .archiveEnd ::
      (between.map .plain ++ [.readArchive n])) := by
    simp [q, Prog.reqs, plains_reqs, reqs_append]
  have hqw : q.WF := by
    refine ⟨plains_WF _, ?_⟩
    induction between with
    | nil => trivial
    | cons r rs ih => simpa [plains, Prog.append, Prog.WF] using ih (by
        simp [Prog.reqs, plains_reqs, reqs_append])
  have hev : ∃ e', eval test (f + 1) e q = some
      (between.map (.pass ∘ .plain) ++ body.map (.pass ∘ .plain), e') := by
    simp only [eval, q, evalWith, hact, List.not_mem_nil, if_false, plains_strip]
    have hb : ∀ e1, eval test f e1 (plains body) = some (body.map (.pass ∘ .plain), e1) := by
      intro e1
      have := fun rep => eval_simple test rep e1 (plains body) (plains_simple body)
      cases f <;> simp [eval, this, plains_chosen]
    clear hqw hq q
    induction between with
    | nil =>
      simp [plains, Prog.append, evalWith, set, hb, seqE]
    | cons r rs ih =>
      obtain ⟨e', ih⟩ := ih
      refine ⟨e', ?_⟩
      simp [plains, Prog.append, evalWith, seqE, ih]
  obtain ⟨e', hev⟩ := hev
  obtain ⟨s2, a2, _, _⟩ := run_eval test (f + 1) e s1 q _ e' b hqw hev
  rw [hq] at a2
  exact ⟨s2, run_append_ok test (f + 1) a a2⟩

example : ∃ s, run (fun _ => true) 1 St.init
    [.archiveBegin 3, .plain 9, .archiveEnd, .archiveBegin 3, .plain 1, .plain 2, .archiveEnd,
      .plain 5, .readArchive 3] = .ok [.pass (.plain 5), .pass (.plain 1), .pass (.plain 2)] s :=
  C16_archive_replays (fun _ => true) 0 (.archive 3 (.plain 9 .nil) .nil)
    (by simp [Prog.WF]) [] _ rfl 3 [1, 2] [5]

/-- Comments inside an archive are not recorded: they are not passed on when it is read. -/
theorem C16_comments_dropped :
    ∃ s, run (fun _ => true) 1 St.init
      [.archiveBegin 0, .record 4, .archiveEnd, .readArchive 0] = .ok [] s := ⟨_, rfl⟩

/-- Reading an archive that reads itself recurses for ever (in the code: until the stack
overflows), whatever depth is allowed for. -/
theorem C16_self_read_violated (test : Nat → Bool) (f : Nat) :
    run test f St.init [.archiveBegin 0, .readArchive 0, .archiveEnd, .readArchive 0] = .deep := by
  have h : ∀ f s, s.cur = none → s.inactive = false →
      s.archives.find 0 = some [.readArchive 0] → run test f s [.readArchive 0] = .deep := by
    intro f
    induction f with
    | zero =>
      intro s h1 h2 h3
      simp [run, runWith, step, h1, h2, h3, Res.andThen]
    | succ f ih =>
      intro s h1 h2 h3
      simp only [run, runWith, step, h2, h1, h3, Bool.false_eq_true, if_false]
      rw [ih _ (by rfl) (by rfl) (by exact h3)]
      rfl
  have h2 : run test f St.init [.archiveBegin 0, .readArchive 0, .archiveEnd] =
      .ok [] { St.init with archives := [(0, [.readArchive 0])] } := by cases f <;> rfl
  have h3 := h f { St.init with archives := [(0, [.readArchive 0])] } rfl rfl rfl
  have h4 : ∀ s xs ys, run test f s (xs ++ ys) =
      (run test f s xs).andThen fun s' => run test f s' ys := by
    cases f <;> exact fun s xs ys => runWith_append test _ xs ys s
  have := h4 St.init [.archiveBegin 0, .readArchive 0, .archiveEnd] [.readArchive 0]
  rw [h2, andThen_nil, h3] at this
  exact this

/-- An archive that redefines itself while being read is deleted while its requests are being
replayed: undefined behaviour. -/
theorem C16_redefine_while_read_violated :
    run (fun _ => true) 1 St.init
      [.archiveBegin 0, .archiveBegin 0, .archiveEnd, .archiveEnd, .readArchive 0] = .ub := rfl

/-! ## C17 -/

/-- **C17.**  After any history, `ObjectBegin n`, ordinary requests, `ObjectEnd` pass nothing on,
and after any further requests each `ObjectInstance n` passes on exactly those requests. -/
theorem C17_object_replays (test : Nat → Bool) (f : Nat) (hist : Prog) (hw : hist.WF)
    (o : List Out) (e : Env) (h : eval test (f + 1) Env.empty hist = some (o, e))
    (n : Nat) (body between : List Nat) :
    ∃ s, run test (f + 1) St.init
        (hist.reqs ++ (.objectBegin n :: (body.map .plain ++ .objectEnd ::
          (between.map .plain ++ [.objectInstance n])))) =
      .ok (o ++ (between.map (.pass ∘ .plain) ++ body.map (.pass ∘ .plain))) s := by
  obtain ⟨s1, a, b, c⟩ := run_eval test (f + 1) Env.empty St.init hist o e Rel_init hw h
  have hact : e.active = [] := eval_active test _ Env.empty hist o e h
  let q : Prog := .object n (plains body) ((plains between).append (.inst n .nil))
  have hq : q.reqs = .objectBegin n :: (body.map .plain ++ .objectEnd ::
      (between.map .plain ++ [.objectInstance n])) := by
    simp [q, Prog.reqs, plains_reqs, reqs_append]
  have hqw : q.WF := by
    refine ⟨plains_objFree _, plains_WF _, ?_⟩
    induction between with
    | nil => trivial
    | cons r rs ih => simpa [plains, Prog.append, Prog.WF] using ih (by
        simp [Prog.reqs, plains_reqs, reqs_append])
  have hev : ∃ e', eval test (f + 1) e q = some
      (between.map (.pass ∘ .plain) ++ body.map (.pass ∘ .plain), e') := by
    simp only [eval, q, evalWith, hact, List.not_mem_nil, if_false, plains_strip]
    have hb : ∀ e1, eval test f e1 (plains body) = some (body.map (.pass ∘ .plain), e1) := by
      intro e1
      have := fun rep => eval_simple test rep e1 (plains body) (plains_simple body)
      cases f <;> simp [eval, this, plains_chosen]
    clear hqw hq q
    induction between with
    | nil =>
      simp [plains, Prog.append, evalWith, set, hb, seqE]
    | cons r rs ih =>
      obtain ⟨e', ih⟩ := ih
      refine ⟨e', ?_⟩
      simp [plains, Prog.append, evalWith, seqE, ih]
  obtain ⟨e', hev⟩ := hev
  obtain ⟨s2, a2, _, _⟩ := run_eval test (f + 1) e s1 q _ e' b hqw hev
  rw [hq] at a2
  exact ⟨s2, run_append_ok test (f + 1) a a2⟩

example : ∃ s, run (fun _ => true) 1 St.init
    [.plain 9, .objectBegin 3, .plain 1, .plain 2, .objectEnd, .plain 5, .objectInstance 3] =
      .ok [.pass (.plain 9), .pass (.plain 5), .pass (.plain 1), .pass (.plain 2)] s :=
  C17_object_replays (fun _ => true) 0 (.plain 9 .nil) (by simp [Prog.WF]) [.pass (.plain 9)] _
    rfl 3 [1, 2] [5]

/-- An unknown object is reported, and nothing passed on. -/
theorem C17_unknown_object (test : Nat → Bool) (f : Nat) (s : St) (hc : s.cur = none)
    (hi : s.inactive = false) (n : Nat) (hn : s.objects.find n = none) :
    run test f s [.objectInstance n] = .ok [.badObject n] s := by
  cases f <;> simp [run, runWith, step, hc, hi, hn, Res.andThen]

example : run (fun _ => true) 0 St.init [.objectInstance 4] = .ok [.badObject 4] St.init :=
  C17_unknown_object _ _ _ rfl rfl 4 rfl

/-- Objects inside objects (not legal RIB, but not rejected here) end at the inner `ObjectEnd`:
the rest of the outer object is passed on at once instead of being recorded. -/
theorem C17_nested_object_violated :
    ∃ s, run (fun _ => true) 0 St.init
      [.objectBegin 0, .objectBegin 1, .plain 5, .objectEnd, .plain 6, .objectEnd] =
        .ok [.pass (.plain 6)] s := ⟨_, rfl⟩

/-- A stray `ArchiveEnd` ends the recording of an object. -/
theorem C17_stray_archive_end_violated :
    ∃ s, run (fun _ => true) 0 St.init
      [.objectBegin 0, .plain 5, .archiveEnd, .plain 6, .objectEnd] =
        .ok [.pass (.plain 6)] s := ⟨_, rfl⟩

end Verif.Filter
