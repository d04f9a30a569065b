import Verif.Shader.ScopeStep
/-!
# Scopes: all actions of a file
-/

namespace Verif.Shader.Scope

section
variable {h : Str → Nat} {W : Str → Prop} {std stdF : List Str} {E : Env} {p : Path} {vs : Vars}
  {fs : List (Path × Str)} {s : St}

theorem decl_sim (R : Rel W std E p vs fs s) (H : Hyp h W std stdF) {x : Str}
    (hx : Ident x) (hN : NewName E x) (hW : Words W p x) :
    ∃ s' vs', step h std stdF s (.decl x) = some (s', .var (some (.loc E.nvars))) ∧
      Rel W std (E.bind x (.loc E.nvars)) p vs' fs s' ∧ s'.id = s.id := by
  have hsym := R.sym H hx hW hN.1 hN.2.1
  have hWp : W (full p ++ x) := hW.1 p [] rfl
  have R' := R.bind hx hWp hN.1 hN.2.2 none (by simp) (by simp)
  have hs : addVar s (full p ++ x) = { s with vars := conc (vs ++ [(p, x, none)]) } := by
    unfold addVar
    rw [conc_append, R.vars]
  have hr : newRef vs none = .loc E.nvars := by simp [newRef, R.nvars]
  rw [hr] at R'
  refine ⟨_, _, ?_, R', rfl⟩
  show some (addVar s (ns s ++ symName h std stdF s x), _) = _
  rw [hsym, R.ns, hs, R'.find H R.path.name hx hWp, first_append,
    newFirst R hN.1 hN.2.2]
  simp only [Option.none_or, and_self, if_true, Option.map_some, Option.some_or]
  rw [tgt_last R.back p x none (by simp), R.nvars]

theorem fileVar_bind (hE : E.frames ≠ []) (x : Str) (r : Ref) (y : Str) :
    fileVar std (E.bind x r) y = fileVar std E y := by
  rw [fileVar_or, fileVar_or]
  unfold Env.bind
  rcases hf : E.frames with _ | ⟨f, fr⟩
  · exact absurd hf hE
  · rfl

theorem ext_sim (R : Rel W std E p vs fs s) (H : Hyp h W std stdF) {x : Str}
    (hx : Ident x) (hN : NewName E x) (hW : Words W p x) :
    match outerVar std E x with
    | none => step h std stdF s (.ext x) = none
    | some r => ∃ s' vs', step h std stdF s (.ext x) = some (s', .done) ∧
        Rel W std (E.bind x r) p vs' fs s' ∧ s'.id = s.id := by
  have hsym := R.sym H hx hW hN.1 hN.2.1
  have hWp : W (full p ++ x) := hW.1 p [] rfl
  have R' := R.bind hx hWp hN.1 hN.2.2 none (by simp) (by simp)
  obtain ⟨s1, hs1⟩ : ∃ s1 : St, s1 = { s with vars := conc (vs ++ [(p, x, none)]) } := ⟨_, rfl⟩
  rw [← hs1] at R'
  have hs : addVar s (full p ++ x) = s1 := by
    unfold addVar
    rw [hs1, conc_append, R.vars]
  have hvars : s1.vars = conc (vs ++ [(p, x, none)]) := by rw [hs1]
  have hfirst := newFirst R hN.1 hN.2.2
  have hfind : ∀ u, (∃ v, v ++ u = p) → findVar h std s1.vars (full u ++ x) =
      ((first (vs ++ [(p, x, none)]) u x).map Ref.loc).or
        (if u = [] then (std.findIdx? (· == x)).map .std else none) := by
    rintro u ⟨v, hv⟩
    rw [hvars]
    exact findVar_full H.inj H.std
      (fun v hv => ⟨(R'.vsOk v hv).1.name, (R'.vsOk v hv).2⟩)
      (good_tail (v := v) (by rw [hv]; exact R.path)).name hx (hW.1 u v hv)
  have hl : findVar h std s1.vars (full p ++ x) = some (.loc vs.length) := by
    rw [hfind p ⟨[], rfl⟩, first_append, hfirst]
    simp
  have hptr : ptr s1 (.loc vs.length) = .loc vs.length := by
    have := tgt_last R.back p x none (by simp)
    simp only at this
    unfold ptr
    rw [hvars, conc_length]
    exact this
  -- the search
  have hsearch : (findExt h std s1.vars x s.stack.tail).map (ptr s1) = outerVar std E x ∧
      (∀ j, findExt h std s1.vars x s.stack.tail = some (.loc j) → j < vs.length) ∧
      (p = [] → ∀ r, findExt h std s1.vars x s.stack.tail = some r →
        ∃ i, r = .std i ∧ std[i]? = some x) := by
    rcases hE : E.frames with _ | ⟨f, fr⟩
    · have hp := R.frames_nil.1 hE
      have hst := R.stack
      rw [hE, hp] at hst
      have hst : s.stack = [(false, [])] := hst
      have h1 : findStd h std x = (std.findIdx? (· == x)).map .std := by
        have h0 := findVar_full H.inj H.std (vs := []) (u := []) (x := x) (by simp) (by simp) hx
          (by simpa [full] using hW.1 [] p (by simp))
        simpa [findVar, conc, first, full] using h0
      rw [hst]
      show (findStd h std x).map (ptr s1) = _ ∧ (∀ j, findStd h std x = _ → _) ∧
        (p = [] → ∀ r, findStd h std x = some r → _)
      rw [h1]
      unfold outerVar
      rw [hE]
      simp only
      cases hi : List.findIdx? (· == x) std with
      | none => simp
      | some i =>
        refine ⟨by simp [ptr, target_std], by simp, ?_⟩
        rintro - r hr
        simp only [Option.map_some, Option.some.injEq] at hr
        refine ⟨i, hr.symm, ?_⟩
        rw [List.findIdx?_eq_some_iff_getElem] at hi
        obtain ⟨hlt, h2, -⟩ := hi
        simp only [beq_iff_eq] at h2
        simp [hlt, h2]
    · rcases hq : p with _ | ⟨c, q⟩
      · rw [R.frames_nil.2 hq] at hE; cases hE
      · have hst := R.stack
        rw [hE, hq] at hst
        rcases hss : s.stack with _ | ⟨t, st⟩
        · rw [hss] at hst; exact absurd hst (by simp [Stk])
        rw [hss] at hst
        have hfr := R'.frV
        have hEb : (E.bind x (newRef vs none)).frames =
            { f with vars := (x, newRef vs none) :: f.vars } :: fr := by
          unfold Env.bind
          rw [hE]
        rw [hEb, hq] at hfr
        have hne : E.frames ≠ [] := by rw [hE]; simp
        have hfile := R'.file H hx (hW.1 [] p (by simp))
        rw [fileVar_bind hne] at hfile
        have hf2 : ∀ (u : Path), (∃ v, v ++ u = q) → u ≠ [] →
            (findVar h std s1.vars (full u ++ x)).map (ptr s1) =
              (first (vs ++ [(c :: q, x, none)]) u x).map (tgt (vs ++ [(c :: q, x, none)])) := by
          rintro u ⟨v, hv⟩ hu
          have hv2 : (c :: v) ++ u = p := by rw [hq]; simp [hv]
          have := R'.find H (u := u)
            (good_tail (v := c :: v) (by rw [hv2]; exact R.path)).name hx (hW.1 u _ hv2)
          rw [if_neg hu, Option.or_none, hq] at this
          exact this
        have h1 := findExt_far (p := q) _ hfile hf2 fr q st hst.2 hfr.2 ⟨[], rfl⟩
        refine ⟨?_, ?_, by simp⟩
        · show (findExt h std s1.vars x st).map (ptr s1) = _
          rw [h1]
          unfold outerVar
          rw [hE]
          simp only
          cases far x fr <;> rfl
        · intro j hj
          obtain ⟨u, v, h2, h3⟩ := findExt_loc (p := q) (vs := vs ++ [(p, x, none)]) (by
            rintro u ⟨v, hv⟩ hj2
            rw [hfind u ⟨c :: v, by rw [hq]; simp [hv]⟩] at hj2
            cases hk : first (vs ++ [(p, x, none)]) u x with
            | some k =>
              rw [hk] at hj2
              simp only [Option.map_some, Option.some_or, Option.some.injEq, Ref.loc.injEq] at hj2
              rw [hj2]
            | none =>
              rw [hk] at hj2
              simp only [Option.map_none, Option.none_or] at hj2
              split at hj2
              · cases hi : List.findIdx? (· == x) std with
                | none => rw [hi] at hj2; cases hj2
                | some i => rw [hi] at hj2; cases hj2
              · cases hj2) fr q st hst.2 ⟨[], rfl⟩ hj
          rw [first_append, if_neg, Option.or_none] at h3
          · exact first_lt h3
          · rintro ⟨e, -⟩
            have := congrArg List.length h2
            rw [← e, hq] at this
            simp at this
            omega
  obtain ⟨hm, hlt, hfile⟩ := hsearch
  have hstep : step h std stdF s (.ext x) =
      match findVar h std s1.vars (full p ++ x), findExt h std s1.vars x s.stack.tail with
      | some l, some e => some ({ s1 with vars := setExt s1.vars e (ptr s1 l) }, .done)
      | _, _ => none := by
    show (match findVar h std (addVar s (ns s ++ symName h std stdF s x)).vars
        (ns s ++ symName h std stdF s x),
      findExt h std (addVar s (ns s ++ symName h std stdF s x)).vars (symName h std stdF s x)
        s.stack.tail with
      | some l, some e => some ({ addVar s (ns s ++ symName h std stdF s x) with
          vars := setExt (addVar s (ns s ++ symName h std stdF s x)).vars e
            (ptr (addVar s (ns s ++ symName h std stdF s x)) l) }, Out.done)
      | _, _ => none) = _
    rw [hsym, R.ns, hs]
  rw [hstep, hl]
  cases he : findExt h std s1.vars x s.stack.tail with
  | none =>
    rw [he] at hm
    rw [← hm]
    rfl
  | some e =>
    rw [he] at hm hlt hfile
    simp only [Option.map_some] at hm
    rw [← hm]
    simp only
    have hlt' : ∀ j, some e = some (Ref.loc j) → j < vs.length := hlt
    have R2 := R.bind hx hWp hN.1 hN.2.2 (some e) hlt' hfile
    have hr : newRef vs (some e) = ptr s1 e := by
      show target (conc vs) (vs.length + 1) e = target s1.vars (s1.vars.length + 1) e
      rw [hvars, conc_length, target_last R.back _ (fun j hj => hlt j (by rw [hj]))]
    rw [hr] at R2
    refine ⟨_, vs ++ [(p, x, some e)], rfl, ?_, by rw [hs1]⟩
    rw [hptr, hvars, set_last, hs1]
    rw [hs1] at R2
    exact R2

theorem block_sim (R : Rel W std E p vs fs s) :
    ∃ s', step h std stdF s .block = some (s', .done) ∧
      Rel W std { E with frames := ⟨none, [], []⟩ :: E.frames } ((['b'], s.id) :: p) vs fs s' ∧
      s'.id = s.id + 1 := by
  have hb : ScopeName ['b'] := ⟨by decide, by simp⟩
  have R' := R.push hb none (by simp)
  refine ⟨_, rfl, ?_, rfl⟩
  have : pushScope s ['b'] false =
      { s with stack := ((none : Option Str).isSome, full ((['b'], s.id) :: p)) :: s.stack,
               id := s.id + 1,
               decls := pend (⟨none, [], []⟩ :: E.frames) ((['b'], s.id) :: p) } := by
    unfold pushScope
    rw [R.ns]
    simp [full, pend, R.decls]
  rw [this]
  exact R'

theorem func_sim (R : Rel W std E p vs fs s) (H : Hyp h W std stdF) {f : Str}
    (hf : ScopeName f)
    (hN : E.frames ≠ [] → meaning std E f = none ∧ meaningF stdF E f = [])
    (hW : Words W p f) :
    ∃ s', step h std stdF s (.func f) = some (s', .done) ∧
      Rel W std { E with frames := ⟨some f, [], []⟩ :: E.frames } ((f, s.id) :: p) vs fs s' ∧
      s'.id = s.id + 1 := by
  have hx : Ident f := hf.1
  have R' := R.push hf (some f) (by rintro g hg; cases hg; exact hf)
  have key : pushScope { s with decls := (ns s ++ f) :: s.decls } f true =
      { s with stack := ((some f : Option Str).isSome, full ((f, s.id) :: p)) :: s.stack,
               id := s.id + 1,
               decls := pend (⟨some f, [], []⟩ :: E.frames) ((f, s.id) :: p) } := by
    have h1 : Scope.ns { s with decls := (ns s ++ f) :: s.decls } = full p := R.ns
    unfold pushScope
    rw [h1, R.ns]
    simp [full, pend, R.decls]
  have hcase : step h std stdF s (.func f) =
      some (pushScope { s with decls := (ns s ++ f) :: s.decls } f true, .done) := by
    by_cases hE : E.frames = []
    · have hp := R.frames_nil.1 hE
      have hns : Scope.ns s = [] := by rw [R.ns, hp]; rfl
      have hsym := R.sym H hx hW (by rw [hE]; rfl) (by rw [hE]; rfl)
      show (match checkVar h std s f, checkFunc stdF s f with
        | none, [] =>
          some (pushScope { s with decls := (ns s ++ f) :: s.decls } f true, Out.done)
        | _, _ =>
          some (pushScope { s with decls := (ns s ++ symName h std stdF s f) :: s.decls }
            (ns s ++ symName h std stdF s f) true, .done)) = _
      rw [hsym, hns, List.nil_append]
      cases checkVar h std s f <;> cases checkFunc stdF s f <;> rfl
    · obtain ⟨h1, h2⟩ := hN hE
      have h3 := R.check H hx hW
      rw [h1] at h3
      have h4 : checkVar h std s f = none := by
        cases hc : checkVar h std s f with
        | none => rfl
        | some r => rw [hc] at h3; cases h3
      have h5 := R.checkF H hx
      rw [h2] at h5
      show (match checkVar h std s f, checkFunc stdF s f with
        | none, [] =>
          some (pushScope { s with decls := (ns s ++ f) :: s.decls } f true, Out.done)
        | _, _ =>
          some (pushScope { s with decls := (ns s ++ symName h std stdF s f) :: s.decls }
            (ns s ++ symName h std stdF s f) true, .done)) = _
      rw [h4, h5]
  rw [hcase]
  refine ⟨_, rfl, ?_, rfl⟩
  rw [key]
  exact R'

theorem leave_sim (R : Rel W std E p vs fs s) :
    match means std stdF E .leave with
    | none => step h std stdF s .leave = none
    | some (E', o) => ∃ s' fs', step h std stdF s .leave = some (s', o) ∧
        Rel W std E' p.tail vs fs' s' ∧ s'.id = s.id := by
  have hst := R.stack
  have hde := R.decls
  have hpi := R.pids
  unfold means
  rcases hE : E.frames with _ | ⟨f, fr⟩
  · have hp := R.frames_nil.1 hE
    rw [hE, hp] at hst
    have hst : s.stack = [(false, [])] := hst
    simp only
    unfold step
    rw [hst]
  · rcases hq : p with _ | ⟨c, q⟩
    · rw [R.frames_nil.2 hq] at hE; cases hE
    · rw [hE, hq] at hst hde
      rw [hE] at hpi
      rcases hss : s.stack with _ | ⟨t, st⟩
      · rw [hss] at hst; exact absurd hst (by simp [Stk])
      rw [hss] at hst
      have ht := hst.1
      rcases hst2 : st with _ | ⟨t2, st2⟩
      · exfalso
        have := hst.2
        rw [hst2] at this
        cases fr <;> cases q <;> simp [Stk] at this
      · simp only
        rcases hfn : f.fn with _ | g
        · simp only
          have h1 : s.decls = pend fr q := by
            rw [hde]; simp [pend, hfn]
          have R' := R.pop hE hq (t := t) (st := st) hss h1
          refine ⟨_, fs, ?_, R', rfl⟩
          unfold step
          rw [hss, ht, hst2, hfn]
          simp
        · simp only
          have h1 : s.decls = (full q ++ g) :: pend fr q := by
            rw [hde]; simp [pend, hfn]
          have R' := R.pop hE hq (t := t) (st := st) hss (de := pend fr q) rfl
          have R2 := R'.addF (hpi.1 g hfn)
          refine ⟨_, _, ?_, R2, rfl⟩
          unfold step
          rw [hss, ht, h1, hfn]
          simp

end

/-! ## The whole file -/

theorem run_sim {h : Str → Nat} {W : Str → Prop} {std stdF : List Str} (H : Hyp h W std stdF)
    (U : Path → Prop) (es : List Ev) : ∀ (E : Env) (p : Path) (vs : Vars) (fs : List (Path × Str))
      (s : St), Rel W std E p vs fs s → AllFine std stdF E es →
      (∀ u v, v ++ u = p → U u) → (∀ q ∈ paths p s.id es, U q) →
      (∀ u x, U u → x ∈ idents es → W (full u ++ x) ∧ W (full u ++ full u ++ x)) →
      run h std stdF s es = meansAll std stdF E es := by
  induction es with
  | nil => intros; rfl
  | cons e es ih =>
    intro E p vs fs s R hF hU hP hW
    have words : ∀ x, x ∈ idents (e :: es) → Words W p x := by
      intro x hx
      refine ⟨fun u v hv => (hW u x (hU u v hv) hx).1, ?_⟩
      rw [full_append]
      exact (hW p x (hU p [] rfl) hx).2
    have sub : ∀ x, x ∈ idents es → x ∈ idents (e :: es) := by
      intro x hx
      cases e <;> simp [idents, hx]
    have hW' : ∀ u x, U u → x ∈ idents es → W (full u ++ x) ∧ W (full u ++ full u ++ x) :=
      fun u x hu hx => hW u x hu (sub x hx)
    have push : ∀ (c : Str × Nat), (∀ q, q = c :: p → U q) →
        ∀ u v, v ++ u = c :: p → U u := by
      intro c hc u v hv
      cases v with
      | nil => exact hc u hv
      | cons d v =>
        simp at hv
        exact hU u v hv.2
    unfold run meansAll
    cases e with
    | decl x =>
      have hf : Ident x ∧ NewName E x := hF.1
      obtain ⟨s', vs', h1, h2, h3⟩ := decl_sim R H hf.1 hf.2 (words x (by simp [idents]))
      rw [h1]
      simp only [means]
      rw [ih _ p _ _ s' h2 (hF.2 _ _ rfl) hU (by rw [h3]; exact hP) hW']
    | ext x =>
      have hf : Ident x ∧ NewName E x := hF.1
      have key := ext_sim R H hf.1 hf.2 (words x (by simp [idents]))
      have hm : means std stdF E (.ext x) =
        (outerVar std E x).map (fun r => (E.bind x r, .done)) := rfl
      cases ho : outerVar std E x with
      | none =>
        rw [ho] at key hm
        simp only at key
        rw [key, hm]
        simp
      | some r =>
        rw [ho] at key hm
        obtain ⟨s', vs', h1, h2, h3⟩ := key
        rw [h1, hm]
        simp only [Option.map_some]
        rw [ih _ p _ _ s' h2 (hF.2 _ _ (by rw [hm]; rfl)) hU (by rw [h3]; exact hP) hW']
    | use x =>
      have hf : Ident x := hF.1
      have h1 : step h std stdF s (.use x) = some (s, .var (meaning std E x)) := by
        unfold step
        simp only
        rw [R.check H hf (words x (by simp [idents]))]
      rw [h1]
      simp only [means]
      rw [ih _ p _ _ s R (hF.2 _ _ rfl) hU hP hW']
    | call f =>
      have hf : Ident f := hF.1
      have h1 : step h std stdF s (.call f) = some (s, .funcs (meaningF stdF E f)) := by
        have h2 := R.checkF H hf
        unfold step
        simp only
        cases hc : checkFunc stdF s f with
        | nil => rw [← h2, hc]
        | cons r rs =>
          simp only
          obtain ⟨m, hm⟩ := funcLoop_find stdF s.funcs f ((ns s).length + 1) (ns s)
          have hm : checkFunc stdF s f = findFuncs stdF s.funcs m := hm
          rw [← h2, hm]
          rw [findFuncs_name (n := m)]
          rw [← hm, hc]
          simp
      rw [h1]
      simp only [means]
      rw [ih _ p _ _ s R (hF.2 _ _ rfl) hU hP hW']
    | block =>
      obtain ⟨s', h1, h2, h3⟩ := block_sim (h := h) (stdF := stdF) R
      rw [h1]
      simp only [means]
      rw [ih _ _ _ _ s' h2 (hF.2 _ _ rfl) (push _ (fun q hq => hP q (by rw [hq]; simp [paths])))
        (by rw [h3]; exact fun q hq => hP q (by simp [paths, hq])) hW']
    | func f =>
      obtain ⟨hf1, hf2⟩ : ScopeName f ∧
        (E.frames ≠ [] → meaning std E f = none ∧ meaningF stdF E f = []) := hF.1
      obtain ⟨s', h1, h2, h3⟩ := func_sim R H hf1 hf2 (words f (by simp [idents]))
      rw [h1]
      simp only [means]
      rw [ih _ _ _ _ s' h2 (hF.2 _ _ rfl) (push _ (fun q hq => hP q (by rw [hq]; simp [paths])))
        (by rw [h3]; exact fun q hq => hP q (by simp [paths, hq])) hW']
    | leave =>
      have key := leave_sim (h := h) (stdF := stdF) R
      cases hm : means std stdF E .leave with
      | none =>
        rw [hm] at key
        simp only at key
        rw [key]
      | some a =>
        obtain ⟨E', o⟩ := a
        rw [hm] at key
        obtain ⟨s', fs', h1, h2, h3⟩ := key
        rw [h1]
        simp only
        rw [ih _ _ _ _ s' h2 (hF.2 _ _ hm) (by
          intro u v hv
          rcases hp : p with _ | ⟨c, q⟩
          · rw [hp] at hv
            exact hU u v (by rw [hp]; exact hv)
          · rw [hp] at hv
            exact hU u (c :: v) (by rw [hp]; simpa using hv))
          (by rw [h3]; exact hP) hW']

theorem start_rel (W : Str → Prop) (std : List Str) : Rel W std Env.empty [] [] [] St.start where
  stack := rfl
  vars := rfl
  funcs := rfl
  decls := rfl
  pids := trivial
  nvars := rfl
  nfuncs := rfl
  path := trivial
  vsOk := by simp
  fsOk := by simp
  back := by intro k n j hk; simp [conc] at hk
  frV := trivial
  fileV x := rfl
  frF := trivial
  fileF x := rfl
  fileX := by simp

end Verif.Shader.Scope
