import Verif.Shader.ScopeSim
/-!
# Scopes: one action, all actions
-/

namespace Verif.Shader.Scope

section
variable {h : Str → Nat} {W : Str → Prop} {std stdF : List Str} {E : Env} {p : Path} {vs : Vars}
  {fs : List (Path × Str)} {s : St}

theorem frV_append (hb : Back (conc vs)) (v : Path × Str × Option Ref) :
    ∀ (fr : List Frame) (q : Path), FrV vs fr q → q.length < v.1.length →
      FrV (vs ++ [v]) fr q
  | [], [], _, _ => trivial
  | f :: fr, c :: q, h1, h2 => by
    refine ⟨fun x => ?_, frV_append hb v fr q h1.2 (by simp at h2; omega)⟩
    rw [h1.1 x, first_append, if_neg (by rintro ⟨e, -⟩; rw [e] at h2; omega), Option.or_none,
      first_map_append hb]
  | [], _ :: _, h1, _ => absurd h1 (by simp [FrV])
  | _ :: _, [], h1, _ => absurd h1 (by simp [FrV])

theorem back_append (hb : Back (conc vs)) {x : Str} {e : Option Ref}
    (he : ∀ j, e = some (.loc j) → j < vs.length) : Back (conc (vs ++ [(p, x, e)])) := by
  intro k n j hk
  rw [conc_append] at hk
  by_cases hlt : k < vs.length
  · rw [List.getElem?_append_left (by rw [conc_length]; exact hlt)] at hk
    exact hb k n j hk
  · have hk2 := (List.getElem?_eq_some_iff.1 hk).1
    simp [conc_length] at hk2
    have : k = vs.length := by omega
    subst this
    rw [List.getElem?_append_right (by rw [conc_length]; exact Nat.le_refl _)] at hk
    simp [conc_length] at hk
    exact he j hk.2

/-- What a new variable stands for. -/
def newRef (vs : Vars) (e : Option Ref) : Ref :=
  match e with
  | none => .loc vs.length
  | some r => target (conc vs) (vs.length + 1) r

/-- Declare a variable. -/
theorem Rel.bind (R : Rel W std E p vs fs s) {x : Str} (hx : Ident x) (hW : W (full p ++ x))
    (hN : near x E.frames = none) (hN2 : E.frames = [] → E.file.vars.lookup x = none)
    (e : Option Ref) (he : ∀ j, e = some (.loc j) → j < vs.length)
    (hfile : p = [] → ∀ r, e = some r → ∃ i, r = .std i ∧ std[i]? = some x) :
    Rel W std (E.bind x (newRef vs e)) p (vs ++ [(p, x, e)]) fs
      { s with vars := conc (vs ++ [(p, x, e)]) } := by
  have hb := R.back
  have hlast : tgt (vs ++ [(p, x, e)]) vs.length = newRef vs e := by
    rw [tgt_last hb p x e he]
    cases e <;> rfl
  have hst := R.stack
  have hfr := R.frV
  have hde := R.decls
  have hpi := R.pids
  have hff := R.frF
  have hvs : ∀ v ∈ vs ++ [(p, x, e)], Good v.1 s.id ∧ Ident v.2.1 ∧ W (full v.1 ++ v.2.1) := by
    intro v hv
    rcases List.mem_append.1 hv with hv | hv
    · exact R.vsOk v hv
    · rw [List.mem_singleton] at hv
      subst hv
      exact ⟨R.path, hx, hW⟩
  have hX : ∀ v ∈ vs ++ [(p, x, e)], v.1 = [] → ∀ r, v.2.2 = some r →
      ∃ i, r = .std i ∧ std[i]? = some v.2.1 := by
    intro v hv h1 r hr
    rcases List.mem_append.1 hv with hv | hv
    · exact R.fileX v hv h1 r hr
    · rw [List.mem_singleton] at hv
      subst hv
      exact hfile h1 r hr
  rcases hE : E.frames with _ | ⟨f, fr⟩
  · have hp := R.frames_nil.1 hE
    subst hp
    have hn := hN2 hE
    have hn2 : first vs [] x = none := by
      have := R.fileV x
      rw [hn] at this
      cases hk : first vs [] x with
      | none => rfl
      | some k => rw [hk] at this; cases this
    rw [hE] at hst hfr hde hpi hff
    have hEb : E.bind x (newRef vs e) = { E with
        file := { E.file with vars := (x, newRef vs e) :: E.file.vars }, nvars := E.nvars + 1 } := by
      unfold Env.bind
      rw [hE]
    rw [hEb]
    refine ⟨by simpa [hE] using hst, rfl, R.funcs, by simpa [hE] using hde, by simpa [hE] using hpi,
      by simp [R.nvars], R.nfuncs, R.path, hvs, R.fsOk, back_append hb he, by simp [hE, FrV], ?_,
      by simpa [hE] using hff, R.fileF, hX⟩
    intro y
    rw [first_append]
    by_cases hy : y = x
    · subst hy
      rw [hn2]
      simp [List.lookup, hlast]
    · rw [if_neg (by rintro ⟨-, e⟩; exact hy e.symm), Option.or_none, first_map_append hb,
        ← R.fileV y]
      have : (y == x) = false := by simp [hy]
      simp [List.lookup, this]
  · rcases hq : p with _ | ⟨c, q⟩
    · rw [R.frames_nil.2 hq] at hE; cases hE
    · rw [← hq]
      rw [hE] at hst hfr hde hpi hff hN
      rw [hq] at hst hfr hde hff
      have hn : f.vars.lookup x = none := by
        rw [near_or] at hN
        cases hl : f.vars.lookup x with
        | none => rfl
        | some r => rw [hl] at hN; cases hN
      have hn2 : first vs p x = none := by
        have := hfr.1 x
        rw [hn, ← hq] at this
        cases hk : first vs p x with
        | none => rfl
        | some k => rw [hk] at this; cases this
      have hEb : E.bind x (newRef vs e) = { E with
          frames := { f with vars := (x, newRef vs e) :: f.vars } :: fr, nvars := E.nvars + 1 } := by
        unfold Env.bind
        rw [hE]
      rw [hEb]
      refine ⟨?_, rfl, R.funcs, ?_, hpi, by simp [R.nvars], R.nfuncs, R.path, hvs, R.fsOk,
        back_append hb he, ?_, ?_, ?_, R.fileF, hX⟩
      · rw [hq]
        rcases hs : s.stack with _ | ⟨t, st⟩
        · rw [hs] at hst; exact absurd hst (by simp [Stk])
        · rw [hs] at hst; exact hst
      · rw [hq]; exact hde
      · rw [hq]
        refine ⟨fun y => ?_, frV_append hb _ fr q hfr.2 (by simp)⟩
        rw [first_append]
        by_cases hy : y = x
        · subst hy
          rw [hq] at hn2 hlast
          rw [hn2]
          simp [List.lookup, hlast]
        · rw [if_neg (by rintro ⟨-, e⟩; exact hy e.symm), Option.or_none, first_map_append hb,
            ← hfr.1 y]
          have : (y == x) = false := by simp [hy]
          simp [List.lookup, this]
      · intro y
        show E.file.vars.lookup y = _
        rw [first_append, if_neg (by rintro ⟨e, -⟩; rw [hq] at e; cases e), Option.or_none,
          first_map_append hb, R.fileV y]
      · rw [hq]; exact ⟨hff.1, hff.2⟩

theorem newFirst (R : Rel W std E p vs fs s) {x : Str}
    (hN : near x E.frames = none) (hN2 : E.frames = [] → E.file.vars.lookup x = none) :
    first vs p x = none := by
  rcases hE : E.frames with _ | ⟨f, fr⟩
  · have hp := R.frames_nil.1 hE
    have := R.fileV x
    rw [hN2 hE] at this
    rw [hp]
    cases hk : first vs [] x with
    | none => rfl
    | some k => rw [hk] at this; cases this
  · rcases hq : p with _ | ⟨c, q⟩
    · rw [R.frames_nil.2 hq] at hE; cases hE
    · have hfr := R.frV
      rw [hE, hq] at hfr
      rw [hE, near_or] at hN
      have := hfr.1 x
      cases hk : first vs (c :: q) x with
      | none => rfl
      | some k => rw [hk] at this; rw [this] at hN; cases hN

/-- Open a scope. -/
theorem Rel.push (R : Rel W std E p vs fs s) {g : Str} (hg : ScopeName g) (fn : Option Str)
    (hfn : ∀ f, fn = some f → ScopeName f) :
    Rel W std { E with frames := ⟨fn, [], []⟩ :: E.frames } ((g, s.id) :: p) vs fs
      { s with stack := (fn.isSome, full ((g, s.id) :: p)) :: s.stack, id := s.id + 1,
               decls := pend (⟨fn, [], []⟩ :: E.frames) ((g, s.id) :: p) } where
  stack := ⟨rfl, R.stack⟩
  vars := R.vars
  funcs := R.funcs
  decls := rfl
  pids := ⟨hfn, R.pids⟩
  nvars := R.nvars
  nfuncs := R.nfuncs
  path := ⟨hg, Nat.lt_succ_self _, R.path⟩
  vsOk v hv := ⟨(R.vsOk v hv).1.mono (Nat.le_succ _), (R.vsOk v hv).2⟩
  fsOk f hf := ⟨(R.fsOk f hf).1.mono (Nat.le_succ _), (R.fsOk f hf).2⟩
  back := R.back
  frV := by
    refine ⟨fun x => ?_, R.frV⟩
    have : first vs ((g, s.id) :: p) x = none := by
      unfold first
      apply findIdx_none
      intro v hv
      simp only [decide_eq_false_iff_not]
      rintro ⟨e, -⟩
      have h1 := (R.vsOk v hv).1
      rw [e] at h1
      exact absurd h1.2.1 (Nat.lt_irrefl _)
    rw [this]
    rfl
  fileV := R.fileV
  frF := by
    refine ⟨fun x => ?_, R.frF⟩
    rw [idxs_nil]
    · rfl
    · rintro f hf ⟨e, -⟩
      have h1 := (R.fsOk f hf).1
      rw [e] at h1
      exact absurd h1.2.1 (Nat.lt_irrefl _)
  fileF := R.fileF
  fileX := R.fileX

/-- Close a block. -/
theorem Rel.pop (R : Rel W std E p vs fs s) {f : Frame} {fr : List Frame} {c : Str × Nat} {q : Path}
    {t : Bool × Str} {st : List (Bool × Str)} {de : List Str}
    (hE : E.frames = f :: fr) (hp : p = c :: q) (hs : s.stack = t :: st) (hd : de = pend fr q) :
    Rel W std { E with frames := fr } q vs fs { s with stack := st, decls := de } := by
  have hst := R.stack
  have hpi := R.pids
  have hfr := R.frV
  have hff := R.frF
  have hpa := R.path
  rw [hE] at hst hpi hfr hff
  rw [hp] at hst hfr hff hpa
  rw [hs] at hst
  exact ⟨hst.2, R.vars, R.funcs, hd, hpi.2, R.nvars, R.nfuncs, hpa.2.2.mono (Nat.le_of_lt hpa.2.1),
    R.vsOk, R.fsOk, R.back, hfr.2, R.fileV, hff.2, R.fileF, R.fileX⟩

theorem named_append (f : Frame) (x y : Str) (n : Nat) :
    ({ f with funcs := f.funcs ++ [(x, n)] } : Frame).named y =
      f.named y ++ if x = y then [n] else [] := by
  unfold Frame.named
  rw [List.filterMap_append]
  congr 1
  by_cases e : x = y <;> simp [e]

theorem frF_append (g : Path × Str) : ∀ (fr : List Frame) (q : Path), FrF fs fr q →
    q.length < g.1.length → FrF (fs ++ [g]) fr q
  | [], [], _, _ => trivial
  | f :: fr, c :: q, h1, h2 => by
    refine ⟨fun x => ?_, frF_append g fr q h1.2 (by simp at h2; omega)⟩
    rw [h1.1 x, idxs_append, idxs_nil [g], List.append_nil]
    intro k hk
    rw [List.mem_singleton] at hk
    subst hk
    rintro ⟨e, -⟩
    rw [e] at h2
    omega
  | [], _ :: _, h1, _ => absurd h1 (by simp [FrF])
  | _ :: _, [], h1, _ => absurd h1 (by simp [FrF])

theorem idxs_one (u v : Path) (x y : Str) (k : Nat) :
    idxs [(u, x)] v y k = if u = v ∧ x = y then [k] else [] := by
  unfold idxs
  rfl

/-- Add a function. -/
theorem Rel.addF (R : Rel W std E p vs fs s) {g : Str} (hg : ScopeName g) :
    Rel W std (E.bindF g) p vs (fs ++ [(p, g)]) { s with funcs := s.funcs ++ [full p ++ g] } := by
  have hst := R.stack
  have hfr := R.frV
  have hde := R.decls
  have hpi := R.pids
  have hff := R.frF
  have hfs : ∀ f ∈ fs ++ [(p, g)], Good f.1 s.id ∧ Ident f.2 := by
    intro v hv
    rcases List.mem_append.1 hv with hv | hv
    · exact R.fsOk v hv
    · rw [List.mem_singleton] at hv
      subst hv
      exact ⟨R.path, hg.1⟩
  have hcf : s.funcs ++ [full p ++ g] = concF (fs ++ [(p, g)]) := by
    rw [R.funcs]; simp [concF]
  rcases hE : E.frames with _ | ⟨f, fr⟩
  · have hp := R.frames_nil.1 hE
    subst hp
    rw [hE] at hst hfr hde hpi hff
    have hEb : E.bindF g = { E with file := { E.file with funcs := E.file.funcs ++ [(g, E.nfuncs)] },
                                    nfuncs := E.nfuncs + 1 } := by
      unfold Env.bindF
      rw [hE]
    rw [hEb]
    refine ⟨by simpa [hE] using hst, R.vars, hcf, by simpa [hE] using hde, by simpa [hE] using hpi,
      R.nvars, by simp [R.nfuncs], R.path, R.vsOk, hfs, R.back, by simp [hE, FrV], R.fileV,
      by simp [hE, FrF], ?_, R.fileX⟩
    intro y
    show ({ E.file with funcs := E.file.funcs ++ [(g, E.nfuncs)] } : Frame).named y = _
    rw [named_append, idxs_append, R.fileF, idxs_one, R.nfuncs]
    simp
  · rcases hq : p with _ | ⟨c, q⟩
    · rw [R.frames_nil.2 hq] at hE; cases hE
    · rw [← hq]
      rw [hE] at hst hfr hde hpi hff
      rw [hq] at hst hfr hde hff
      have hEb : E.bindF g = { E with
          frames := { f with funcs := f.funcs ++ [(g, E.nfuncs)] } :: fr,
          nfuncs := E.nfuncs + 1 } := by
        unfold Env.bindF
        rw [hE]
      rw [hEb]
      refine ⟨?_, R.vars, hcf, ?_, hpi, R.nvars, by simp [R.nfuncs], R.path, R.vsOk, hfs,
        R.back, ?_, R.fileV, ?_, ?_, R.fileX⟩
      · rw [hq]
        rcases hs : s.stack with _ | ⟨t, st⟩
        · rw [hs] at hst; exact absurd hst (by simp [Stk])
        · rw [hs] at hst; exact hst
      · rw [hq]; exact hde
      · rw [hq]; exact hfr
      · rw [hq]
        refine ⟨fun y => ?_, frF_append _ fr q hff.2 (by simp)⟩
        rw [named_append, idxs_append, hff.1 y, idxs_one, R.nfuncs]
        simp
      · intro y
        rw [R.fileF, idxs_append, idxs_one, if_neg (by rintro ⟨e, -⟩; rw [hq] at e; cases e),
          List.append_nil]

/-! ## `extern` -/

theorem findExt_or (h : Str → Nat) (std : List Str) (vars : List VarDef) (x : Str) (t : Bool)
    (n : Str) (r : List (Bool × Str)) : findExt h std vars x ((t, n) :: r) =
      (findVar h std vars (n ++ x)).or (findExt h std vars x r) := by
  conv_lhs => unfold findExt
  cases findVar h std vars (n ++ x) <;> rfl

theorem far_or (x : Str) (f : Frame) (r : List Frame) : far x (f :: r) =
    (f.vars.lookup x).or (far x r) := by
  conv_lhs => unfold far
  cases f.vars.lookup x <;> rfl

theorem findVar_none {h : Str → Nat} {std : List Str} {vars : List VarDef} {n : Str}
    (hn : findVar h std vars n = none) : findStd h std n = none := by
  unfold findVar at hn
  split at hn
  · cases hn
  · exact hn

theorem findExt_far {x : Str} (A : Option Ref) {vars : List VarDef} {g : Ref → Ref}
    (hA : (findVar h std vars x).map g = A)
    (hf : ∀ (u : Path), (∃ v, v ++ u = p) → u ≠ [] →
      (findVar h std vars (full u ++ x)).map g = (first vs u x).map (tgt vs)) :
    ∀ (fr : List Frame) (q : Path) (st : List (Bool × Str)), Stk fr q st → FrV vs fr q →
      (∃ v, v ++ q = p) →
      (findExt h std vars x st).map g = (far x fr).or A
  | [], [], st, h1, _, _ => by
    rw [show st = [(false, [])] from h1, findExt_or, List.nil_append, Option.map_or, hA]
    cases hv : findVar h std vars x with
    | none =>
      have := findVar_none hv
      show A.or ((findStd h std x).map g) = _
      rw [this]
      simp [far]
    | some r =>
      rw [hv] at hA
      subst hA
      simp [far]
  | f :: fr, c :: q, e :: st, h1, h2, ⟨v, hv⟩ => by
    have ih := findExt_far A hA hf fr q st h1.2 h2.2 ⟨v ++ [c], by simpa using hv⟩
    rw [h1.1, findExt_or, far_or, Option.map_or, hf (c :: q) ⟨v, hv⟩ (by simp), h2.1 x,
      Option.or_assoc, ih]
  | [], _ :: _, _, h1, _, _ => absurd h1 (by simp [Stk])
  | _ :: _, [], _, h1, _, _ => absurd h1 (by simp [Stk])
  | _ :: _, _ :: _, [], h1, _, _ => absurd h1 (by simp [Stk])

theorem findExt_loc {x : Str} {vars : List VarDef} {j : Nat}
    (hf : ∀ (u : Path), (∃ v, v ++ u = p) → findVar h std vars (full u ++ x) = some (.loc j) →
      first vs u x = some j) :
    ∀ (fr : List Frame) (q : Path) (st : List (Bool × Str)), Stk fr q st →
      (∃ v, v ++ q = p) → findExt h std vars x st = some (.loc j) →
      ∃ u v, v ++ u = q ∧ first vs u x = some j
  | [], [], st, h1, hv, hj => by
    rw [show st = [(false, [])] from h1, findExt_or] at hj
    cases hv2 : findVar h std vars ([] ++ x) with
    | none =>
      rw [hv2] at hj
      have h3 : findExt h std vars x [] = none := findVar_none hv2
      rw [h3] at hj
      cases hj
    | some r =>
      rw [hv2] at hj
      simp only [Option.some_or] at hj
      rw [hj] at hv2
      exact ⟨[], [], rfl, hf [] hv hv2⟩
  | f :: fr, c :: q, e :: st, h1, ⟨v, hv⟩, hj => by
    rw [h1.1, findExt_or] at hj
    cases hv2 : findVar h std vars (full (c :: q) ++ x) with
    | none =>
      rw [hv2] at hj
      simp only [Option.none_or] at hj
      obtain ⟨u, w, h2, h3⟩ := findExt_loc hf fr q st h1.2 ⟨v ++ [c], by simpa using hv⟩ hj
      exact ⟨u, c :: w, by simp [h2], h3⟩
    | some r =>
      rw [hv2] at hj
      simp only [Option.some_or] at hj
      rw [hj] at hv2
      exact ⟨c :: q, [], rfl, hf _ ⟨v, hv⟩ hv2⟩
  | [], _ :: _, _, h1, _, _ => absurd h1 (by simp [Stk])
  | _ :: _, [], _, h1, _, _ => absurd h1 (by simp [Stk])
  | _ :: _, _ :: _, [], h1, _, _ => absurd h1 (by simp [Stk])

theorem set_last (vs : Vars) (p : Path) (x : Str) (e : Ref) :
    setExt (conc (vs ++ [(p, x, none)])) e (.loc vs.length) = conc (vs ++ [(p, x, some e)]) := by
  unfold setExt
  rw [conc_append, conc_append]
  simp only
  have key : ∀ (l : List VarDef) (v : VarDef) (g : VarDef → VarDef),
      (l ++ [v]).modify l.length g = l ++ [g v] := by
    intro l v g
    induction l with
    | nil => rfl
    | cons a l ih => simpa using ih
  rw [← conc_length vs, key]

theorem target_last {vs : Vars} (hb : Back (conc vs)) (v : Path × Str × Option Ref) {r : Ref}
    (hr : ∀ j, r = .loc j → j < vs.length) :
    target (conc (vs ++ [v])) ((vs ++ [v]).length + 1) r = target (conc vs) (vs.length + 1) r := by
  cases r with
  | std i => simp [target_std]
  | loc j =>
    have := tgt_append hb v (hr j rfl)
    exact this

end

end Verif.Shader.Scope
