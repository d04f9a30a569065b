import Verif.Filter.Validate
/-!
# C21: scope validation
-/
namespace Verif.Filter.Validate

/-! ## Specification -/

/-- Inside the world, in a block that may hold geometry. -/
def Scope.inScene : Scope → Bool
  | .world | .attrib | .transform | .solid | .object => true
  | _ => false

/-- Where a block may begin. -/
def mayBegin (s : Scope) : Blk → Bool
  | .frame => s == .beginEnd
  | .world => s == .beginEnd || s == .frame
  | .attrib => s.inScene
  | .solid => s.inScene
  | .transform => s != .motion
  | .motion => s != .motion
  | .object => s != .motion && s != .object
  | .archive => true

/-- Where other requests may be used. -/
def mayUse (s : Scope) : Group → Bool
  | .attr => true
  | .option => s == .beginEnd || s == .frame
  | .light => s != .object
  | .coordSystem => s != .motion
  | .geometry => s.inScene || s == .motion
  | .procedural => s.inScene
  | .unchecked => true

/-- A request that is no block, with good arguments, used where it may be. -/
def mayDo (s : Scope) : VReq → Bool
  | .begins _ => false
  | .ends _ => false
  | .plain g ok => mayUse s g && ok
  | .basis u v => decide (0 < u) && decide (0 < v)
  | .resourceBegin => true
  | .resourceEnd => true

/-- Arguments are good. -/
def argsOk : VReq → Bool
  | .plain _ ok => ok
  | .basis u v => decide (0 < u) && decide (0 < v)
  | _ => true

/-- Well-nested streams of legal requests inside a block of the given kind.  Inside an archive,
anything goes except that archives must be nested. -/
inductive Valid : Scope → List VReq → Prop where
  | nil (s) : Valid s []
  | one {s r rest} (hs : s ≠ .archive) (hr : mayDo s r = true) (h : Valid s rest) :
      Valid s (r :: rest)
  | block {s b body rest} (hs : s ≠ .archive) (hb : mayBegin s b = true) (h : Valid b.scope body)
      (h' : Valid s rest) : Valid s (.begins b :: (body ++ .ends b :: rest))
  | recorded {r rest} (h1 : r ≠ .begins .archive) (h2 : r ≠ .ends .archive) (hr : argsOk r = true)
      (h : Valid .archive rest) : Valid .archive (r :: rest)
  | nested {body rest} (h : Valid .archive body) (h' : Valid .archive rest) :
      Valid .archive (.begins .archive :: (body ++ .ends .archive :: rest))

theorem Valid.append {s : Scope} {xs ys : List VReq} (h : Valid s xs) (h' : Valid s ys) :
    Valid s (xs ++ ys) := by
  induction h with
  | nil => exact h'
  | one hs hr _ ih => exact .one hs hr (ih h')
  | block hs hb h1 _ _ ih =>
    have := Valid.block hs hb h1 (ih h')
    simpa using this
  | recorded h1 h2 hr _ ih => exact .recorded h1 h2 hr (ih h')
  | nested h1 _ _ ih =>
    have := Valid.nested h1 (ih h')
    simpa using this

/-! ## Scopes alone -/

/-- Effect on the scope stack of a request that is passed on. -/
def sstep (σ : List Scope) (r : VReq) : Option (List Scope) :=
  match step ⟨σ, []⟩ r with
  | (.passed, s') => some s'.scopes
  | _ => none

theorem checkScope_attrs (σ : List Scope) (a a' : List (Int × Int)) (r : VReq) :
    checkScope ⟨σ, a⟩ r = checkScope ⟨σ, a'⟩ r := rfl

theorem step_scopes (s : VSt) (r : VReq) :
    ((step s r).1 = .passed ↔ (sstep s.scopes r).isSome) ∧
    ((step s r).1 = .passed → sstep s.scopes r = some (step s r).2.scopes) := by
  obtain ⟨σ, a⟩ := s
  simp only [sstep, step]
  rw [checkScope_attrs σ [] a]
  by_cases hc : checkScope ⟨σ, a⟩ r = false
  · simp [hc]
  · rw [if_neg hc, if_neg hc]
    cases r with
    | begins b =>
      simp only [Option.isSome_some, true_and]
      intro _
      by_cases hb : b = .transform <;> simp [hb, pushScope, pushAttrs] <;> split <;> rfl
    | ends b =>
      have : ∀ s1 s2 : VSt, s1.scopes = s2.scopes →
          (popScope s1 b).map VSt.scopes = (popScope s2 b).map VSt.scopes := by
        intro s1 s2 h
        simp only [popScope, h]
        split
        · simpa using h
        · split
          · simpa using h
          · split <;> rfl
      have key : ∀ p1 p2 : Option VSt, p1.map VSt.scopes = p2.map VSt.scopes → ∀ q1 q2 : VSt,
          ((match p2 with | some s2 => (Verdict.passed, s2) | none => (.assertFails, q2)).1 =
              .passed ↔
            (match (match p1 with | some s2 => (Verdict.passed, s2) | none => (.assertFails, q1))
              with | (.passed, s') => some s'.scopes | _ => none).isSome = true) ∧
          ((match p2 with | some s2 => (Verdict.passed, s2) | none => (.assertFails, q2)).1 =
              .passed →
            (match (match p1 with | some s2 => (Verdict.passed, s2) | none => (.assertFails, q1))
              with | (.passed, s') => some s'.scopes | _ => none) =
            some (match p2 with | some s2 => (Verdict.passed, s2) | none => (.assertFails, q2)).2.scopes) := by
        intro p1 p2 h q1 q2
        cases p1 <;> cases p2 <;> simp at h ⊢
        exact h
      exact key _ _ (this _ _ (by split <;> rfl)) _ _
    | plain g ok => cases ok <;> simp
    | basis u v =>
      by_cases h : 0 < u ∧ 0 < v
      · simp [h]
      · simp only [if_neg h]
        simp
    | resourceBegin => simp [pushAttrs]
    | resourceEnd => simp [popAttrs]

def saccepts (σ : List Scope) : List VReq → Option (List Scope)
  | [] => some σ
  | r :: rs => (sstep σ r).bind fun σ' => saccepts σ' rs

theorem accepts_scopes (s : VSt) (rs : List VReq) :
    (accepts s rs).map VSt.scopes = saccepts s.scopes rs := by
  induction rs generalizing s with
  | nil => rfl
  | cons r rs ih =>
    simp only [accepts, saccepts]
    obtain ⟨h1, h2⟩ := step_scopes s r
    cases hs : step s r with
    | mk v s' =>
      rw [hs] at h1 h2
      cases v with
      | passed =>
        have := h2 rfl
        simp only [this, Option.bind_some]
        exact ih s'
      | rejected =>
        have : sstep s.scopes r = none := by
          cases h : sstep s.scopes r with
          | none => rfl
          | some x => rw [h] at h1; simp at h1
        simp [this]
      | assertFails =>
        have : sstep s.scopes r = none := by
          cases h : sstep s.scopes r with
          | none => rfl
          | some x => rw [h] at h1; simp at h1
        simp [this]

theorem saccepts_append (σ : List Scope) (xs ys : List VReq) :
    saccepts σ (xs ++ ys) = (saccepts σ xs).bind fun σ' => saccepts σ' ys := by
  induction xs generalizing σ with
  | nil => rfl
  | cons x xs ih =>
    simp only [List.cons_append, saccepts]
    cases sstep σ x with
    | none => rfl
    | some σ' => simpa using ih σ'

/-- `Scope_Any` is never on the stack in strict mode. -/
theorem sstep_one {s : Scope} {σ : List Scope} (hs : s ≠ .archive) (ha : s ≠ .any) {r : VReq}
    (hr : mayDo s r = true) : sstep (s :: σ) r = some (s :: σ) := by
  cases r with
  | begins b => simp [mayDo] at hr
  | ends b => simp [mayDo] at hr
  | plain g ok =>
    simp only [mayDo, Bool.and_eq_true] at hr
    obtain ⟨hg, rfl⟩ := hr
    cases g <;> cases s <;> simp_all [mayUse, sstep, step, checkScope, allowed, Scope.inScene]
  | basis u v =>
    simp only [mayDo, Bool.and_eq_true, decide_eq_true_eq] at hr
    cases s <;> simp_all [sstep, step, checkScope, allowed]
  | resourceBegin => rfl
  | resourceEnd => rfl

theorem sstep_begin {s : Scope} {σ : List Scope} (hs : s ≠ .archive) (ha : s ≠ .any) {b : Blk}
    (hb : mayBegin s b = true) : sstep (s :: σ) (.begins b) = some (b.scope :: s :: σ) := by
  cases b <;> cases s <;>
    simp_all [mayBegin, sstep, step, checkScope, allowed, Scope.inScene, pushScope, pushAttrs]

theorem sstep_end {s : Scope} {σ : List Scope} (b : Blk) :
    sstep (b.scope :: s :: σ) (.ends b) = some (s :: σ) := by
  cases b <;> simp [sstep, step, checkScope, allowed, Blk.scope, popScope, popAttrs]

theorem sstep_recorded {σ : List Scope} (r : VReq) (h1 : r ≠ .begins .archive)
    (h2 : r ≠ .ends .archive) (hr : argsOk r = true) :
    sstep (.archive :: σ) r = some (.archive :: σ) := by
  cases r with
  | begins b =>
    cases b <;> simp_all [sstep, step, checkScope, allowed, pushScope, pushAttrs]
  | ends b =>
    cases σ <;> cases b <;> simp_all [sstep, step, checkScope, allowed, popScope, popAttrs]
  | plain g ok =>
    simp only [argsOk] at hr
    subst hr
    cases g <;> rfl
  | basis u v =>
    simp only [argsOk, Bool.and_eq_true, decide_eq_true_eq] at hr
    simp [sstep, step, checkScope, allowed, hr]
  | resourceBegin => rfl
  | resourceEnd => rfl

theorem Blk.scope_ne_any (b : Blk) : b.scope ≠ .any := by cases b <;> simp [Blk.scope]

theorem saccepts_valid {s : Scope} {rs : List VReq} (h : Valid s rs) (ha : s ≠ .any)
    (σ : List Scope) : saccepts (s :: σ) rs = some (s :: σ) := by
  induction h generalizing σ with
  | nil => rfl
  | one hs hr _ ih => simp [saccepts, sstep_one hs ha hr, ih ha]
  | @block s b body rest hs hb _ _ ih1 ih2 =>
    simp only [saccepts, sstep_begin hs ha hb, Option.bind_some, saccepts_append,
      ih1 b.scope_ne_any, sstep_end, ih2 ha]
  | recorded h1 h2 hr _ ih => simp [saccepts, sstep_recorded _ h1 h2 hr, ih ha]
  | nested _ _ ih1 ih2 =>
    have hb : ∀ σ, sstep (.archive :: σ) (.begins .archive) = some (.archive :: .archive :: σ) :=
      fun σ => by simp [sstep, step, checkScope, allowed, pushScope, pushAttrs, Blk.scope]
    simp only [saccepts, hb, Option.bind_some, saccepts_append, ih1 (by simp), ih2 (by simp)]
    rw [show sstep (.archive :: .archive :: σ) (.ends .archive) = some (.archive :: σ) from
      sstep_end .archive]
    simp [ih2]

/-! ## Converse -/

/-- The stream read so far leaves the given blocks open. -/
inductive Ctx : List Scope → List VReq → Prop where
  | outer {v} (h : Valid .beginEnd v) : Ctx [.beginEnd] v
  | inner {s σ p b v} (h : Ctx (s :: σ) p) (hb : s ≠ .archive → mayBegin s b = true)
      (ha : s = .archive → b = .archive) (hv : Valid b.scope v) :
      Ctx (b.scope :: s :: σ) (p ++ .begins b :: v)

theorem Ctx.snoc {s : Scope} {σ : List Scope} {p v : List VReq} (h : Ctx (s :: σ) p)
    (hv : Valid s v) : Ctx (s :: σ) (p ++ v) := by
  cases h with
  | outer h => exact .outer (h.append hv)
  | inner h hb ha hv' =>
    rw [List.append_assoc]
    exact .inner h hb ha (by simpa using hv'.append hv)

theorem Ctx.close {s : Scope} {σ : List Scope} {b : Blk} {p : List VReq}
    (h : Ctx (b.scope :: s :: σ) p) : Ctx (s :: σ) (p ++ [.ends b]) := by
  generalize hτ : b.scope :: s :: σ = τ at h
  cases h with
  | outer h => simp at hτ
  | @inner s' σ' p' b' v h hb ha hv =>
    simp only [List.cons.injEq] at hτ
    obtain ⟨h1, rfl, rfl⟩ := hτ
    have hbb : b = b' := by
      cases b <;> cases b' <;> simp_all [Blk.scope]
    subst hbb
    have hval : Valid s (.begins b :: (v ++ .ends b :: [])) := by
      by_cases hs : s = .archive
      · have := ha hs
        subst this hs
        exact .nested hv (.nil _)
      · exact .block hs (hb hs) hv (.nil _)
    have := h.snoc hval
    simpa using this

/-- Archives are ended only when open. -/
def archivesNested (rs : List VReq) : Prop :=
  ∀ pre suf, rs = pre ++ .ends .archive :: suf →
    pre.count (.ends .archive) < pre.count (.begins .archive)

/-- The stack: open archives on top of other blocks. -/
def archStack (k : Nat) (σ : List Scope) : Prop :=
  ∃ rest, σ = List.replicate k .archive ++ rest ∧ rest ≠ [] ∧ .archive ∉ rest ∧ .any ∉ rest

theorem mayDo_of_sstep {s : Scope} {σ σ' : List Scope} (hs : s ≠ .archive) (ha : s ≠ .any)
    {r : VReq} (h1 : ∀ b, r ≠ .begins b) (h2 : ∀ b, r ≠ .ends b)
    (h : sstep (s :: σ) r = some σ') : mayDo s r = true ∧ σ' = s :: σ := by
  cases r with
  | begins b => exact absurd rfl (h1 b)
  | ends b => exact absurd rfl (h2 b)
  | plain g ok =>
    cases ok <;> cases g <;> cases s <;>
      simp_all [mayDo, mayUse, sstep, step, checkScope, allowed, Scope.inScene]
  | basis u v =>
    by_cases huv : 0 < u ∧ 0 < v
    · simp only [sstep, step, huv] at h
      refine ⟨by simp [mayDo, huv], ?_⟩
      cases s <;> simp_all [checkScope, allowed]
    · have : sstep (s :: σ) (.basis u v) = none := by
        simp only [sstep, step, if_neg huv]
        split <;> rename_i hx
        · split at hx <;> simp at hx
        · rfl
      rw [this] at h
      simp at h
  | resourceBegin =>
    simp only [sstep, step, checkScope, allowed, pushAttrs] at h
    exact ⟨rfl, by simpa using h.symm⟩
  | resourceEnd =>
    simp only [sstep, step, checkScope, allowed, popAttrs] at h
    exact ⟨rfl, by simpa using h.symm⟩

theorem begin_of_sstep {s : Scope} {σ σ' : List Scope} (hs : s ≠ .archive) (ha : s ≠ .any) {b : Blk}
    (h : sstep (s :: σ) (.begins b) = some σ') : mayBegin s b = true ∧ σ' = b.scope :: s :: σ := by
  cases b <;> cases s <;>
    simp_all [mayBegin, sstep, step, checkScope, allowed, Scope.inScene, pushScope, pushAttrs]

theorem end_of_sstep {s : Scope} {σ σ' : List Scope} (hs : s ≠ .archive) (ha : s ≠ .any)
    {b : Blk} (hb : b ≠ .archive)
    (h : sstep (s :: σ) (.ends b) = some σ') : s = b.scope := by
  cases b <;> cases s <;> simp_all [sstep, step, checkScope, allowed, Blk.scope]

/-- In strict mode every prefix passed on leaves exactly the blocks on the stack open. -/
theorem ctx_of_accepts (pre : List VReq) (hn : archivesNested pre) (σ : List Scope)
    (h : saccepts [.beginEnd] pre = some σ) :
    Ctx σ pre ∧ ∃ k, archStack k σ ∧
      k + pre.count (.ends .archive) = pre.count (.begins .archive) := by
  induction hl : pre.length generalizing pre σ with
  | zero =>
    have : pre = [] := List.length_eq_zero_iff.1 hl
    subst this
    simp only [saccepts, Option.some.injEq] at h
    subst h
    exact ⟨.outer (.nil _), 0, ⟨[.beginEnd], rfl, by simp, by simp, by simp⟩, rfl⟩
  | succ n ih =>
    obtain ⟨p, r, rfl⟩ : ∃ p r, pre = p ++ [r] := by
      rcases List.eq_nil_or_concat pre with h | ⟨p, r, h⟩
      · subst h; simp at hl
      · exact ⟨p, r, by simpa using h⟩
    rw [saccepts_append] at h
    cases hp : saccepts [.beginEnd] p with
    | none => rw [hp] at h; simp at h
    | some τ =>
      rw [hp] at h
      simp only [Option.bind_some, saccepts] at h
      have hst : sstep τ r = some σ := by
        cases hs : sstep τ r with
        | none => rw [hs] at h; simp at h
        | some x => rw [hs] at h; simpa using h
      have hn' : archivesNested p := by
        intro a b hab
        exact hn a (b ++ [r]) (by rw [hab]; simp)
      obtain ⟨hctx, k, ⟨rest, hτ, hne, hna, hany⟩, hk⟩ := ih p hn' τ hp (by simpa using hl)
      obtain ⟨t, rest, rfl⟩ := List.exists_cons_of_ne_nil hne
      have htarch : t ≠ .archive := fun h => hna (by simp [h])
      have htany : t ≠ .any := fun h => hany (by simp [h])
      cases k with
      | succ k =>
        -- inside an archive
        simp only [List.replicate_succ, List.cons_append] at hτ
        subst hτ
        by_cases h1 : r = .begins .archive
        · subst h1
          have : sstep (.archive :: (List.replicate k .archive ++ t :: rest)) (.begins .archive) =
              some (.archive :: .archive :: (List.replicate k .archive ++ t :: rest)) := by
            simp [sstep, step, checkScope, allowed, pushScope, pushAttrs, Blk.scope]
          rw [this] at hst
          simp only [Option.some.injEq] at hst
          subst hst
          refine ⟨.inner (b := .archive) hctx (fun _ => rfl) (fun _ => rfl) (.nil _), k + 2,
            ⟨t :: rest, rfl, by simp, hna, hany⟩, ?_⟩
          simp only [List.count_append, List.count_cons, List.count_nil]
          simp
          omega
        · by_cases h2 : r = .ends .archive
          · subst h2
            obtain ⟨u, tl, hu⟩ : ∃ u tl, List.replicate k Scope.archive ++ t :: rest = u :: tl := by
              cases k with
              | zero => exact ⟨t, rest, rfl⟩
              | succ k => exact ⟨.archive, _, rfl⟩
            have : sstep (.archive :: (List.replicate k .archive ++ t :: rest)) (.ends .archive) =
                some (List.replicate k .archive ++ t :: rest) := by
              rw [hu]
              exact sstep_end .archive
            rw [this] at hst
            simp only [Option.some.injEq] at hst
            subst hst
            refine ⟨?_, k, ⟨t :: rest, rfl, by simp, hna, hany⟩, ?_⟩
            · rw [hu] at hctx ⊢
              exact Ctx.close (b := .archive) hctx
            · simp only [List.count_append, List.count_cons, List.count_nil]
              simp
              omega
          · have hargs : argsOk r = true := by
              cases r with
              | plain g ok =>
                cases ok with
                | true => rfl
                | false => cases g <;> simp [sstep, step, checkScope, allowed] at hst
              | basis u v =>
                by_cases huv : 0 < u ∧ 0 < v
                · simp [argsOk, huv]
                · simp [sstep, step, checkScope, allowed, huv] at hst
              | _ => rfl
            rw [sstep_recorded r h1 h2 hargs] at hst
            simp only [Option.some.injEq] at hst
            subst hst
            refine ⟨hctx.snoc (.recorded h1 h2 hargs (.nil _)), k + 1,
              ⟨t :: rest, rfl, by simp, hna, hany⟩, ?_⟩
            simp only [List.count_append, List.count_cons, List.count_nil]
            simp [h1, h2]
            omega
      | zero =>
        simp only [List.replicate_zero, List.nil_append] at hτ
        subst hτ
        cases r with
        | begins b =>
          obtain ⟨h1, rfl⟩ := begin_of_sstep htarch htany hst
          refine ⟨.inner hctx (fun _ => h1) (fun h => absurd h htarch) (.nil _), ?_⟩
          by_cases hb : b = .archive
          · subst hb
            refine ⟨1, ⟨t :: rest, rfl, by simp, hna, hany⟩, ?_⟩
            simp only [List.count_append, List.count_cons, List.count_nil]
            simp
            omega
          · refine ⟨0, ⟨b.scope :: t :: rest, rfl, by simp, ?_, ?_⟩, ?_⟩
            · intro hm
              simp only [List.mem_cons] at hm
              rcases hm with hm | hm
              · apply hb
                revert hm
                cases b <;> simp [Blk.scope]
              · exact hna (by simpa using hm)
            · intro hm
              simp only [List.mem_cons] at hm
              rcases hm with hm | hm
              · exact b.scope_ne_any hm.symm
              · exact hany (by simpa using hm)
            · simp only [List.count_append, List.count_cons, List.count_nil]
              simp [hb]
              omega
        | ends b =>
          by_cases hb : b = .archive
          · subst hb
            have := hn p [] rfl
            omega
          · have hts := end_of_sstep htarch htany hb hst
            subst hts
            cases rest with
            | nil =>
              exfalso
              generalize hτ : [b.scope] = τ at hctx
              cases hctx with
              | outer h => cases b <;> simp [Blk.scope] at hτ
              | inner h _ _ _ => simp at hτ
            | cons u rest =>
              rw [sstep_end] at hst
              simp only [Option.some.injEq] at hst
              subst hst
              refine ⟨hctx.close, 0, ⟨u :: rest, rfl, by simp, ?_, ?_⟩, ?_⟩
              · exact fun hm => hna (List.mem_cons_of_mem _ hm)
              · exact fun hm => hany (List.mem_cons_of_mem _ hm)
              · simp only [List.count_append, List.count_cons, List.count_nil]
                simp [hb]
                omega
        | plain g ok =>
          obtain ⟨h1, rfl⟩ := mayDo_of_sstep htarch htany (by simp) (by simp) hst
          refine ⟨hctx.snoc (.one htarch h1 (.nil _)), 0, ⟨t :: rest, rfl, by simp, hna, hany⟩, ?_⟩
          simp only [List.count_append, List.count_cons, List.count_nil]
          simp
          omega
        | basis u v =>
          obtain ⟨h1, rfl⟩ := mayDo_of_sstep htarch htany (by simp) (by simp) hst
          refine ⟨hctx.snoc (.one htarch h1 (.nil _)), 0, ⟨t :: rest, rfl, by simp, hna, hany⟩, ?_⟩
          simp only [List.count_append, List.count_cons, List.count_nil]
          simp
          omega
        | resourceBegin =>
          obtain ⟨h1, rfl⟩ := mayDo_of_sstep htarch htany (by simp) (by simp) hst
          refine ⟨hctx.snoc (.one htarch h1 (.nil _)), 0, ⟨t :: rest, rfl, by simp, hna, hany⟩, ?_⟩
          simp only [List.count_append, List.count_cons, List.count_nil]
          simp
          omega
        | resourceEnd =>
          obtain ⟨h1, rfl⟩ := mayDo_of_sstep htarch htany (by simp) (by simp) hst
          refine ⟨hctx.snoc (.one htarch h1 (.nil _)), 0, ⟨t :: rest, rfl, by simp, hna, hany⟩, ?_⟩
          simp only [List.count_append, List.count_cons, List.count_nil]
          simp
          omega

/-! ## The property -/

/-- **C21 (partial).**  A stream is passed on completely and leaves no block open exactly when it is
a well-nested stream of requests used where they may be.  Missing: streams with an `ArchiveEnd`
outside any archive, which has no scope check (`C21_stray_archive_end_violated`). -/
theorem C21_accepts_iff_partial (rs : List VReq) (hn : archivesNested rs) :
    (∃ s, accepts (VSt.init false) rs = some s ∧ s.scopes = [.beginEnd]) ↔ Valid .beginEnd rs := by
  have hmap := accepts_scopes (VSt.init false) rs
  constructor
  · rintro ⟨s, h1, h2⟩
    rw [h1] at hmap
    simp only [Option.map_some, h2] at hmap
    obtain ⟨hc, _⟩ := ctx_of_accepts rs hn [.beginEnd] hmap.symm
    generalize hτ : [Scope.beginEnd] = τ at hc
    cases hc with
    | outer h => exact h
    | inner _ _ _ _ => simp at hτ
  · intro h
    have := saccepts_valid h (by simp) []
    rw [show (VSt.init false).scopes = [.beginEnd] from rfl, this] at hmap
    cases ha : accepts (VSt.init false) rs with
    | none => rw [ha] at hmap; simp at hmap
    | some s => rw [ha] at hmap; exact ⟨s, rfl, by simpa using hmap⟩

/-- World { attribute block { geometry }, archive { stray AttributeEnd } }. -/
example : Valid .beginEnd [.begins .world, .begins .attrib, .plain .geometry true, .ends .attrib,
    .begins .archive, .ends .attrib, .ends .archive, .ends .world] :=
  .block (b := .world) (body := [.begins .attrib, .plain .geometry true, .ends .attrib,
      .begins .archive, .ends .attrib, .ends .archive]) (by simp) rfl
    (.block (b := .attrib) (body := [.plain .geometry true]) (by simp [Blk.scope]) rfl
      (.one (by simp [Blk.scope]) rfl (.nil _))
      (.block (b := .archive) (body := [.ends .attrib]) (by simp [Blk.scope]) rfl
        (.recorded (by simp) (by simp) rfl (.nil _)) (.nil _))) (.nil _)
/-- Geometry outside the world, and blocks that cross, are not valid. -/
example : accepts (VSt.init false) [.plain .geometry true] = none ∧
    accepts (VSt.init false) [.begins .world, .begins .attrib, .ends .world] = none := by decide

/-- **C21, prefixes.**  After any stream passed on, the scope stack is exactly the list of blocks
begun and not yet ended. -/
theorem C21_open_blocks_partial (rs : List VReq) (hn : archivesNested rs) (s : VSt)
    (h : accepts (VSt.init false) rs = some s) : Ctx s.scopes rs := by
  have hmap := accepts_scopes (VSt.init false) rs
  rw [h] at hmap
  exact (ctx_of_accepts rs hn s.scopes hmap.symm).1

example : Ctx [.world, .beginEnd] [.plain .option true, .begins .world, .plain .geometry true] :=
  C21_open_blocks_partial _ (by
      intro pre suf h
      have : VReq.ends .archive ∈ [VReq.plain .option true, .begins .world, .plain .geometry true] := by
        rw [h]; simp
      simp at this) _
    (show accepts (VSt.init false) _ = some ⟨[.world, .beginEnd], [(3, 3), (3, 3)]⟩ by decide)

/-- **C21.**  A rejected request changes nothing. -/
theorem C21_rejected_unchanged (s : VSt) (r : VReq) (h : (step s r).1 = .rejected) :
    (step s r).2 = s := by
  simp only [step] at h ⊢
  split
  · rfl
  · rename_i hc
    rw [if_neg hc] at h
    cases r with
    | begins b => simp at h
    | ends b =>
      simp only at h
      split at h <;> simp at h
    | plain g ok => cases ok <;> simp_all
    | basis u v =>
      simp only at h ⊢
      split
      · rename_i huv; rw [if_pos huv] at h; simp at h
      · rfl
    | resourceBegin => simp at h
    | resourceEnd => simp at h

example : (step (VSt.init false) (.ends .world)).1 = .rejected := by decide

/-- **C21, fragments.**  In relaxed mode nothing is rejected for its scope at the outer level. -/
theorem C21_relaxed_outer (r : VReq) (h : argsOk r = true) :
    (step (VSt.init true) r).1 = .passed := by
  cases r with
  | begins b => cases b <;> rfl
  | ends b => cases b <;> rfl
  | plain g ok =>
    simp only [argsOk] at h
    subst h
    cases g <;> rfl
  | basis u v =>
    simp only [argsOk, Bool.and_eq_true, decide_eq_true_eq] at h
    simp [step, checkScope, allowed, VSt.init, h]
  | resourceBegin => rfl
  | resourceEnd => rfl

example : (step (VSt.init true) (.ends .attrib)).1 = .passed := C21_relaxed_outer _ rfl

/-! ### Attribute state -/

/-- Nothing recorded, no resource blocks. -/
def simpleReq : VReq → Bool
  | .begins .archive => false
  | .ends .archive => false
  | .resourceBegin => false
  | .resourceEnd => false
  | _ => true

theorem attrs_valid {sc : Scope} {rs : List VReq} (h : Valid sc rs) (hsc : sc ≠ .archive)
    (hany : sc ≠ .any) (hs : ∀ r ∈ rs, simpleReq r = true) (σ : List Scope) (a : Int × Int)
    (as : List (Int × Int)) :
    ∃ a', accepts ⟨sc :: σ, a :: as⟩ rs = some ⟨sc :: σ, a' :: as⟩ := by
  have happ : ∀ (s : VSt) (xs ys : List VReq), accepts s (xs ++ ys) =
      (accepts s xs).bind fun s' => accepts s' ys := by
    intro s xs ys
    induction xs generalizing s with
    | nil => rfl
    | cons x xs ih =>
      simp only [List.cons_append, accepts]
      split
      · exact ih _
      · rfl
  induction h generalizing σ a as with
  | nil => exact ⟨a, rfl⟩
  | @one s r rest h1 hr _ ih =>
    have hrs : simpleReq r = true := hs r (by simp)
    obtain ⟨hp, hq⟩ := step_scopes ⟨s :: σ, a :: as⟩ r
    have hss := sstep_one (σ := σ) h1 hany hr
    have hpass : (step ⟨s :: σ, a :: as⟩ r).1 = .passed := hp.2 (by rw [hss]; rfl)
    have hscopes := hq hpass
    simp only [hss, Option.some.injEq] at hscopes
    have hattrs : ∃ a1, (step ⟨s :: σ, a :: as⟩ r).2.attrs = a1 :: as := by
      simp only [step] at hpass ⊢
      split
      · exact ⟨a, rfl⟩
      · cases r with
        | begins b => simp [mayDo] at hr
        | ends b => simp [mayDo] at hr
        | plain g ok => cases ok <;> exact ⟨a, rfl⟩
        | basis u v =>
          simp only
          split
          · exact ⟨(u, v), rfl⟩
          · exact ⟨a, rfl⟩
        | resourceBegin => simp [simpleReq] at hrs
        | resourceEnd => simp [simpleReq] at hrs
    obtain ⟨a1, ha1⟩ := hattrs
    obtain ⟨a', ha'⟩ := ih h1 hany (fun x hx => hs x (by simp [hx])) σ a1 as
    refine ⟨a', ?_⟩
    simp only [accepts]
    cases hst : step ⟨s :: σ, a :: as⟩ r with
    | mk v s' =>
      rw [hst] at hpass hscopes ha1
      simp only at hpass hscopes ha1
      subst hpass
      obtain ⟨σ', a2⟩ := s'
      simp only at hscopes ha1
      subst hscopes ha1
      exact ha'
  | @block s b body rest h1 hb _ _ ih1 ih2 =>
    have hbs : simpleReq (.begins b) = true := hs _ (by simp)
    have hba : b ≠ .archive := by rintro rfl; simp [simpleReq] at hbs
    have hsc' : b.scope ≠ .archive := by cases b <;> simp_all [Blk.scope]
    have hbegin : step ⟨s :: σ, a :: as⟩ (.begins b) = (.passed, ⟨b.scope :: s :: σ,
        if b = .transform then a :: as else a :: a :: as⟩) := by
      cases b <;> cases s <;>
        simp_all [mayBegin, step, checkScope, allowed, Scope.inScene, pushScope, pushAttrs, Blk.scope]
    have hend : ∀ as', 1 < as'.length ∨ b = .transform →
        step ⟨b.scope :: s :: σ, as'⟩ (.ends b) = (.passed, ⟨s :: σ,
          if b = .transform then as' else as'.drop 1⟩) := by
      intro as' hlen
      cases b <;> simp_all [step, checkScope, allowed, Blk.scope, popScope, popAttrs]
    have hsb : ∀ r ∈ body, simpleReq r = true := fun r hr => hs r (by simp [hr])
    have hsr : ∀ r ∈ rest, simpleReq r = true := fun r hr => hs r (by simp [hr])
    by_cases ht : b = .transform
    · rw [if_pos ht] at hbegin
      obtain ⟨a1, h3⟩ := ih1 hsc' b.scope_ne_any hsb (s :: σ) a as
      obtain ⟨a2, h4⟩ := ih2 h1 hany hsr σ a1 as
      refine ⟨a2, ?_⟩
      have h5 := hend (a1 :: as) (.inr ht)
      rw [if_pos ht] at h5
      simp only [accepts, hbegin, happ, h3, Option.bind_some, h5, h4]
    · rw [if_neg ht] at hbegin
      obtain ⟨a1, h3⟩ := ih1 hsc' b.scope_ne_any hsb (s :: σ) a (a :: as)
      obtain ⟨a2, h4⟩ := ih2 h1 hany hsr σ a as
      refine ⟨a2, ?_⟩
      have h5 := hend (a1 :: a :: as) (.inl (by simp))
      rw [if_neg ht] at h5
      simp only [accepts, hbegin, happ, h3, Option.bind_some, h5, h4, List.drop_succ_cons,
        List.drop_zero]
  | recorded h1 h2 hr _ ih => exact absurd rfl hsc
  | nested _ _ ih1 ih2 => exact absurd rfl hsc

/-- **C21, attribute state (partial).**  A block other than a transform block restores the basis
steps that were in force before it, whatever `Basis` requests and blocks it contains.  Missing:
archives and resource blocks (`C21_archive_attributes_violated`). -/
theorem C21_block_restores_attributes_partial (sc : Scope) (σ : List Scope) (as : List (Int × Int))
    (has : as ≠ []) (b : Blk) (hb : b ≠ .transform) (hba : b ≠ .archive) (hsc : sc ≠ .archive)
    (hany : sc ≠ .any) (hmay : mayBegin sc b = true) (body : List VReq) (hv : Valid b.scope body)
    (hs : ∀ r ∈ body, simpleReq r = true) :
    accepts ⟨sc :: σ, as⟩ (.begins b :: (body ++ [.ends b])) = some ⟨sc :: σ, as⟩ := by
  obtain ⟨a, as, rfl⟩ := List.exists_cons_of_ne_nil has
  have hval : Valid sc (.begins b :: (body ++ .ends b :: [])) := .block hsc hmay hv (.nil _)
  have hsc' : b.scope ≠ .archive := by cases b <;> simp_all [Blk.scope]
  have happ : ∀ (s : VSt) (xs ys : List VReq), accepts s (xs ++ ys) =
      (accepts s xs).bind fun s' => accepts s' ys := by
    intro s xs ys
    induction xs generalizing s with
    | nil => rfl
    | cons x xs ih =>
      simp only [List.cons_append, accepts]
      split
      · exact ih _
      · rfl
  have hbegin : step ⟨sc :: σ, a :: as⟩ (.begins b) = (.passed, ⟨b.scope :: sc :: σ,
      a :: a :: as⟩) := by
    cases b <;> cases sc <;>
      simp_all [mayBegin, step, checkScope, allowed, Scope.inScene, pushScope, pushAttrs, Blk.scope]
  obtain ⟨a1, h3⟩ := attrs_valid hv hsc' b.scope_ne_any hs (sc :: σ) a (a :: as)
  have hend : step ⟨b.scope :: sc :: σ, a1 :: a :: as⟩ (.ends b) = (.passed, ⟨sc :: σ, a :: as⟩) := by
    cases b <;> simp_all [step, checkScope, allowed, Blk.scope, popScope, popAttrs]
  simp only [accepts, hbegin, happ, h3, Option.bind_some, hend]

example : accepts ⟨[.beginEnd], [(3, 3)]⟩ [.begins .world, .basis 1 2, .ends .world] =
    some ⟨[.beginEnd], [(3, 3)]⟩ :=
  C21_block_restores_attributes_partial .beginEnd [] [(3, 3)] (by simp) .world (by simp) (by simp)
    (by simp) (by simp) rfl [.basis 1 2] (.one (by simp [Blk.scope]) (by decide) (.nil _))
    (by simp [simpleReq])

/-- **C21, stacks.**  Whatever requests arrive, in or out of order, neither stack is ever emptied,
so the top of each can always be examined. -/
theorem C21_stacks_never_empty (s : VSt) (r : VReq) (h1 : s.scopes ≠ []) (h2 : s.attrs ≠ []) :
    (step s r).2.scopes ≠ [] ∧ (step s r).2.attrs ≠ [] := by
  have hpop : ∀ s : VSt, s.attrs ≠ [] → (popAttrs s).attrs ≠ [] := by
    rintro ⟨_, as⟩ h
    simp only [popAttrs] at h ⊢
    split
    · intro he
      have := congrArg List.length he
      simp only [List.length_drop, List.length_nil] at this
      omega
    · exact h
  have hpush : ∀ s : VSt, s.attrs ≠ [] → (pushAttrs s).attrs ≠ [] := by
    rintro ⟨_, as⟩ h
    simp only [pushAttrs] at h ⊢
    simp [h]
  have hsp : ∀ (s : VSt) b, s.scopes ≠ [] →
      (pushScope s b).scopes ≠ [] ∧ (pushScope s b).attrs = s.attrs := by
    intro s b h
    simp only [pushScope]
    split
    · exact ⟨h, rfl⟩
    · exact ⟨by simp, rfl⟩
  have hso : ∀ (s s' : VSt) b, s.scopes ≠ [] → popScope s b = some s' →
      s'.scopes ≠ [] ∧ s'.attrs = s.attrs := by
    intro s s' b h he
    simp only [popScope] at he
    split at he
    · simp only [Option.some.injEq] at he; subst he; exact ⟨h, rfl⟩
    · rename_i hl
      split at he
      · simp only [Option.some.injEq] at he; subst he; exact ⟨h, rfl⟩
      · split at he
        · simp only [Option.some.injEq] at he
          subst he
          refine ⟨fun hd => ?_, rfl⟩
          have := congrArg List.length hd
          simp only [List.length_drop, List.length_nil] at this
          have : 0 < s.scopes.length := List.length_pos_iff.2 h
          omega
        · simp at he
  simp only [step]
  split
  · exact ⟨h1, h2⟩
  · cases r with
    | begins b =>
      simp only
      have ha : ((if b = .transform then s else pushAttrs s)).attrs ≠ [] ∧
          ((if b = .transform then s else pushAttrs s)).scopes = s.scopes := by
        split
        · exact ⟨h2, rfl⟩
        · exact ⟨hpush s h2, rfl⟩
      obtain ⟨e1, e2⟩ := hsp _ b (by rw [ha.2]; exact h1)
      exact ⟨e1, by rw [e2]; exact ha.1⟩
    | ends b =>
      simp only
      have ha : ((if b = .transform then s else popAttrs s)).attrs ≠ [] ∧
          ((if b = .transform then s else popAttrs s)).scopes = s.scopes := by
        split
        · exact ⟨h2, rfl⟩
        · exact ⟨hpop s h2, rfl⟩
      generalize (if b = .transform then s else popAttrs s) = s1 at ha
      cases hp : popScope s1 b with
      | none => exact ⟨by rw [ha.2]; exact h1, ha.1⟩
      | some s2 =>
        obtain ⟨e1, e2⟩ := hso s1 s2 b (by rw [ha.2]; exact h1) hp
        exact ⟨e1, by rw [e2]; exact ha.1⟩
    | plain g ok => simp only; split <;> exact ⟨h1, h2⟩
    | basis u v =>
      simp only
      split
      · exact ⟨h1, by simp⟩
      · exact ⟨h1, h2⟩
    | resourceBegin => exact ⟨h1, hpush s h2⟩
    | resourceEnd => exact ⟨h1, hpop s h2⟩

example : (step (VSt.init true) .resourceEnd).2.attrs = [(3, 3)] := by decide

/-! ### Disagreements -/

/-- **C21 fails**: `ArchiveEnd` is not scope checked, so outside an archive it is passed on, and the
assertion in `popScope` fails (without assertions, the world block would be closed). -/
theorem C21_stray_archive_end_violated :
    ¬ Valid .world [.ends .archive] ∧
    (step ⟨[.world, .beginEnd], [(3, 3), (3, 3)]⟩ (.ends .archive)).1 = .assertFails := by
  refine ⟨?_, by decide⟩
  intro h
  generalize hl : [VReq.ends .archive] = l at h
  generalize hs : Scope.world = s at h
  cases h with
  | nil => simp at hl
  | one _ hr _ =>
    simp only [List.cons.injEq] at hl
    obtain ⟨rfl, _⟩ := hl
    simp [mayDo] at hr
  | block => simp at hl
  | recorded => simp at hs
  | nested => simp at hl

/-- **C21 fails**: a transform or motion block outside the world hides that one is outside it, so
geometry is passed on. -/
theorem C21_geometry_outside_world_violated :
    (accepts (VSt.init false) [.begins .transform, .plain .geometry true, .ends .transform]).isSome ∧
    (accepts (VSt.init false) [.begins .motion, .plain .geometry true, .ends .motion]).isSome := by
  decide

/-- **C21 fails**: block ends recorded in an archive pop attribute state that is in force outside it:
after `Basis 1 1` and an archive containing only `AttributeEnd`, the steps in force are 3, 3 again. -/
theorem C21_archive_attributes_violated :
    accepts (VSt.init false) [.begins .world, .begins .attrib, .basis 1 1, .begins .archive,
      .ends .attrib, .ends .archive] =
        some ⟨[.attrib, .world, .beginEnd], [(3, 3), (3, 3)]⟩ := by decide

end Verif.Filter.Validate
