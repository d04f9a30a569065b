import Verif.Shader.ScopeLemmas
/-!
# Scopes: the parser follows the meaning of names
-/

namespace Verif.Shader.Scope

theorem findHere_or (h : Str → Nat) (std : List Str) (s : St) (n : Str) :
    findHere h std s n = (findVar h std s.vars (ns s ++ n)).or (findVar h std s.vars n) := by
  unfold findHere
  cases findVar h std s.vars (ns s ++ n) <;> rfl

theorem walk_or (h : Str → Nat) (std : List Str) (vars : List VarDef) (x : Str) (t : Bool) (n : Str)
    (r : List (Bool × Str)) : walk h std vars x ((t, n) :: r) =
      (findVar h std vars (n ++ x)).or (if t then none else walk h std vars x r) := by
  conv_lhs => unfold walk
  cases findVar h std vars (n ++ x) <;> rfl

theorem checkVar_or (h : Str → Nat) (std : List Str) (s : St) (x : Str) :
    checkVar h std s x = (findHere h std s (ns s ++ x)).or
      ((walk h std s.vars x s.stack).or (findHere h std s x)) := by
  unfold checkVar
  cases findHere h std s (ns s ++ x) with
  | some r => rfl
  | none => cases walk h std s.vars x s.stack <;> rfl

theorem near_or (x : Str) (f : Frame) (r : List Frame) : near x (f :: r) =
    (f.vars.lookup x).or (if f.fn.isSome then none else near x r) := by
  conv_lhs => unfold near
  cases f.vars.lookup x <;> rfl

theorem fileVar_or (std : List Str) (E : Env) (x : Str) : fileVar std E x =
    (E.file.vars.lookup x).or ((std.findIdx? (· == x)).map .std) := by
  unfold fileVar
  cases E.file.vars.lookup x <;> rfl

theorem meaning_or (std : List Str) (E : Env) (x : Str) : meaning std E x =
    (near x E.frames).or (fileVar std E x) := by
  unfold meaning
  cases near x E.frames <;> rfl

/-- The stack of scopes. -/
def Stk : List Frame → Path → List (Bool × Str) → Prop
  | [], [], st => st = [(false, [])]
  | f :: fr, c :: p, e :: st => e = (f.fn.isSome, full (c :: p)) ∧ Stk fr p st
  | _, _, _ => False

/-- The names of the functions being defined. -/
def pend : List Frame → Path → List Str
  | f :: fr, _ :: p =>
    match f.fn with
    | some g => (full p ++ g) :: pend fr p
    | none => pend fr p
  | _, _ => []

/-- The variables of the open scopes. -/
def FrV (vs : Vars) : List Frame → Path → Prop
  | f :: fr, c :: p => (∀ x, f.vars.lookup x = (first vs (c :: p) x).map (tgt vs)) ∧ FrV vs fr p
  | [], [] => True
  | _, _ => False

/-- The functions of the open scopes. -/
def FrF (fs : List (Path × Str)) : List Frame → Path → Prop
  | f :: fr, c :: p => (∀ x, f.named x = idxs fs (c :: p) x 0) ∧ FrF fs fr p
  | [], [] => True
  | _, _ => False

/-- The names of functions that are being defined are identifiers. -/
def Pids : List Frame → Prop
  | [] => True
  | f :: fr => (∀ g, f.fn = some g → ScopeName g) ∧ Pids fr

structure Rel (W : Str → Prop) (std : List Str) (E : Env) (p : Path) (vs : Vars)
    (fs : List (Path × Str)) (s : St) : Prop where
  stack : Stk E.frames p s.stack
  vars : s.vars = conc vs
  funcs : s.funcs = concF fs
  decls : s.decls = pend E.frames p
  pids : Pids E.frames
  nvars : E.nvars = vs.length
  nfuncs : E.nfuncs = fs.length
  path : Good p s.id
  vsOk : ∀ v ∈ vs, Good v.1 s.id ∧ Ident v.2.1 ∧ W (full v.1 ++ v.2.1)
  fsOk : ∀ f ∈ fs, Good f.1 s.id ∧ Ident f.2
  back : Back (conc vs)
  frV : FrV vs E.frames p
  fileV : ∀ x, E.file.vars.lookup x = (first vs [] x).map (tgt vs)
  frF : FrF fs E.frames p
  fileF : ∀ x, E.file.named x = idxs fs [] x 0
  fileX : ∀ v ∈ vs, v.1 = [] → ∀ r, v.2.2 = some r → ∃ i, r = .std i ∧ std[i]? = some v.2.1

/-- The hypotheses on hashes and standard names. -/
structure Hyp (h : Str → Nat) (W : Str → Prop) (std stdF : List Str) : Prop where
  inj : ∀ a b, W a → W b → h a = h b → a = b
  std : ∀ n ∈ std, W n ∧ Ident n
  stdF : ∀ n ∈ stdF, Ident n

section
variable {h : Str → Nat} {W : Str → Prop} {std stdF : List Str} {E : Env} {p : Path} {vs : Vars}
  {fs : List (Path × Str)} {s : St}

theorem Rel.ns (R : Rel W std E p vs fs s) : ns s = full p := by
  have := R.stack
  unfold Scope.ns
  rcases hf : E.frames with _ | ⟨f, fr⟩ <;> rw [hf] at this <;> rcases hp : p with _ | ⟨c, q⟩ <;>
    rw [hp] at this
  · rw [show s.stack = [(false, [])] from this]; rfl
  · exact absurd this (by simp [Stk])
  · exact absurd this (by simp [Stk])
  · rcases hs : s.stack with _ | ⟨e, st⟩
    · rw [hs] at this; exact absurd this (by simp [Stk])
    · rw [hs] at this
      rw [this.1]

theorem Rel.frames_nil (R : Rel W std E p vs fs s) : E.frames = [] ↔ p = [] := by
  have := R.stack
  rcases hf : E.frames with _ | ⟨f, fr⟩ <;> rw [hf] at this <;> rcases hp : p with _ | ⟨c, q⟩ <;>
    rw [hp] at this
  · simp
  · exact absurd this (by simp [Stk])
  · exact absurd this (by simp [Stk])
  · simp

/-- What a search finds, after following `extern`. -/
theorem Rel.find (R : Rel W std E p vs fs s) (H : Hyp h W std stdF) {u : Path} {x : Str}
    (hu : ∀ c ∈ u, ScopeName c.1) (hx : Ident x) (hW : W (full u ++ x)) :
    (findVar h std s.vars (full u ++ x)).map (ptr s) =
      ((first vs u x).map (tgt vs)).or
        (if u = [] then (std.findIdx? (· == x)).map .std else none) := by
  rw [R.vars, findVar_full H.inj H.std (fun v hv => ⟨(R.vsOk v hv).1.name, (R.vsOk v hv).2⟩) hu hx hW,
    Option.map_or]
  congr 1
  · cases first vs u x with
    | none => rfl
    | some k =>
      show some (target s.vars (s.vars.length + 1) (.loc k)) = some (tgt vs k)
      rw [R.vars, conc_length]
      rfl
  · split
    · cases List.findIdx? (· == x) std with
      | none => rfl
      | some i => simp [ptr, target_std]
    · rfl

theorem Rel.file (R : Rel W std E p vs fs s) (H : Hyp h W std stdF) {x : Str} (hx : Ident x)
    (hW : W x) : (findVar h std s.vars x).map (ptr s) = fileVar std E x := by
  have := R.find H (u := []) (by simp) hx (by simpa [full] using hW)
  rw [show full [] ++ x = x from rfl] at this
  rw [this]
  rw [fileVar_or, R.fileV]
  simp

/-- There is a function among the open scopes. -/
def hasFn : List Frame → Bool
  | [] => false
  | f :: r => f.fn.isSome || hasFn r

theorem walk_near (H : Hyp h W std stdF) {x : Str} (hx : Ident x) (A : Option Ref)
    {vars : List VarDef} {g : Ref → Ref}
    (hA : (findVar h std vars x).map g = A)
    (hf : ∀ (u : Path), (∃ v, v ++ u = p) → u ≠ [] →
      (findVar h std vars (full u ++ x)).map g = (first vs u x).map (tgt vs)) :
    ∀ (fr : List Frame) (q : Path) (st : List (Bool × Str)), Stk fr q st → FrV vs fr q →
      (∃ v, v ++ q = p) →
      (walk h std vars x st).map g = (near x fr).or (if hasFn fr then none else A)
  | [], [], st, h1, _, _ => by
    rw [show st = [(false, [])] from h1]
    rw [walk_or, List.nil_append, Option.map_or, hA]
    simp [near, hasFn, walk]
  | f :: fr, c :: q, e :: st, h1, h2, ⟨v, hv⟩ => by
    have ih := walk_near H hx A hA hf fr q st h1.2 h2.2 ⟨v ++ [c], by simpa using hv⟩
    rw [h1.1]
    unfold hasFn
    rw [walk_or, near_or, Option.map_or, hf (c :: q) ⟨v, hv⟩ (by simp), h2.1 x, Option.or_assoc]
    congr 1
    cases f.fn with
    | none => simpa using ih
    | some g => simp
  | [], _ :: _, _, h1, _, _ => absurd h1 (by simp [Stk])
  | _ :: _, [], _, h1, _, _ => absurd h1 (by simp [Stk])
  | _ :: _, _ :: _, [], h1, _, _ => absurd h1 (by simp [Stk])

theorem good_tail {u v : Path} {k : Nat} (h : Good (v ++ u) k) : Good u k := by
  induction v generalizing k with
  | nil => exact h
  | cons c v ih => exact (ih h.2.2).mono (Nat.le_of_lt h.2.1)

theorem first_twice (R : Rel W std E p vs fs s) (hp : p ≠ []) (x : Str) :
    first vs (p ++ p) x = none := by
  unfold first
  apply findIdx_none
  intro v hv
  have := (R.vsOk v hv).1
  simp only [decide_eq_false_iff_not]
  rintro ⟨e, -⟩
  rw [e] at this
  exact Good.not_twice hp this

/-- The words that are looked up. -/
def Words (W : Str → Prop) (p : Path) (x : Str) : Prop :=
  (∀ u v, v ++ u = p → W (full u ++ x)) ∧ W (full (p ++ p) ++ x)

theorem Rel.check (R : Rel W std E p vs fs s) (H : Hyp h W std stdF) {x : Str} (hx : Ident x)
    (hW : Words W p x) : (checkVar h std s x).map (ptr s) = meaning std E x := by
  have hfile := R.file H hx (hW.1 [] p (by simp))
  have hfind : ∀ (u : Path), (∃ v, v ++ u = p) → u ≠ [] →
      (findVar h std s.vars (full u ++ x)).map (ptr s) = (first vs u x).map (tgt vs) := by
    rintro u ⟨v, hv⟩ hu
    rw [R.find H (good_tail (v := v) (by rw [hv]; exact R.path)).name hx (hW.1 u v hv), if_neg hu,
      Option.or_none]
  have hwalk := walk_near H hx _ hfile hfind E.frames p s.stack R.stack R.frV ⟨[], rfl⟩
  have hps : ∀ c ∈ p, ScopeName c.1 := R.path.name
  have htw := R.find H (u := p ++ p) (x := x)
    (by intro c hc; exact hps c (by simpa using hc)) hx hW.2
  rw [full_append] at htw
  rw [checkVar_or, findHere_or, findHere_or, meaning_or, R.ns, Option.map_or, Option.map_or, Option.map_or, Option.map_or, hfile, hwalk,
    ← List.append_assoc, htw]
  by_cases hp : p = []
  · have hfr := R.frames_nil.2 hp
    subst hp
    rw [hfr]
    have h1 : (first vs ([] ++ []) x).map (tgt vs) = E.file.vars.lookup x := (R.fileV x).symm
    rw [h1, if_pos (show ([] : Path) ++ [] = [] from rfl)]
    have h2 : (E.file.vars.lookup x).or ((std.findIdx? (· == x)).map Ref.std) =
        fileVar std E x := (fileVar_or _ _ _).symm
    rw [h2, show full [] ++ x = x from rfl, hfile]
    simp [near, hasFn]
  · have hpp : p ++ p ≠ [] := by simpa using hp
    rw [first_twice R hp, if_neg hpp, hfind p ⟨[], rfl⟩ hp]
    have hfr := R.frV
    rcases he : E.frames with _ | ⟨f, fr⟩
    · exact absurd (R.frames_nil.1 he) hp
    · rcases hq : p with _ | ⟨c, q⟩
      · exact absurd hq hp
      · rw [he, hq] at hfr
        rw [← hfr.1 x]
        generalize fileVar std E x = A
        rw [near_or]
        cases f.vars.lookup x with
        | some r => simp
        | none =>
          simp only [Option.none_or, Option.map_none]
          generalize (if f.fn.isSome = true then none else near x fr) = B
          cases B with
          | some b => simp
          | none =>
            simp only [Option.none_or]
            split <;> simp

theorem Rel.file_name (R : Rel W std E p vs fs s) {x : Str} {r : Ref}
    (hr : fileVar std E x = some r) : varName std s r = x := by
  rw [fileVar_or, R.fileV] at hr
  cases hk : first vs [] x with
  | some k =>
    rw [hk] at hr
    simp only [Option.map_some, Option.some_or, Option.some.injEq] at hr
    obtain ⟨e, he⟩ := first_some hk
    have hlt := first_lt hk
    have hck : (conc vs)[k]? = some ⟨full [] ++ x, e⟩ := by simp [conc, he]
    have ht : tgt vs k = (match (conc vs)[k]? with
      | some ⟨_, some r⟩ => target (conc vs) vs.length r
      | _ => .loc k) := rfl
    rw [hck] at ht
    cases e with
    | none =>
      simp only at ht
      rw [ht] at hr
      subst hr
      show (s.vars.map VarDef.name).getD k [] = x
      rw [R.vars]
      simp [List.getD, hck, full]
    | some e =>
      obtain ⟨i, h1, h2⟩ := R.fileX _ (List.mem_of_getElem? he) rfl e rfl
      subst h1
      simp only [target_std] at ht
      rw [ht] at hr
      subst hr
      show std.getD i [] = x
      simp only at h2
      simp [List.getD, h2]
  | none =>
    rw [hk] at hr
    simp only [Option.map_none, Option.none_or] at hr
    cases hi : List.findIdx? (· == x) std with
    | none => rw [hi] at hr; cases hr
    | some i =>
      rw [hi] at hr
      simp only [Option.map_some, Option.some.injEq] at hr
      subst hr
      rw [List.findIdx?_eq_some_iff_getElem] at hi
      obtain ⟨hlt, h1, -⟩ := hi
      show std.getD i [] = x
      simp only [beq_iff_eq] at h1
      simp [List.getD, hlt, h1]

/-! ## Functions -/

theorem loop_near (H : Hyp h W std stdF) {x : Str} (hx : Ident x)
    (hfs : ∀ f ∈ fs, (∀ c ∈ f.1, ScopeName c.1) ∧ Ident f.2) :
    ∀ (fr : List Frame) (q : Path) (f : Nat), FrF fs fr q → (∀ c ∈ q, ScopeName c.1) →
      q.length < f →
      funcLoop stdF (concF fs) x f (full q) =
        match nearFuncs x fr with
        | [] => findFuncs stdF (concF fs) x
        | l => l.map .loc
  | [], [], f + 1, _, _, _ => by
    show (match findFuncs stdF (concF fs) ([] ++ x) with
      | r :: rs => r :: rs
      | [] => if ':' ∈ up [] then _ else findFuncs stdF (concF fs) x) =
        findFuncs stdF (concF fs) x
    rw [List.nil_append]
    cases hh : findFuncs stdF (concF fs) x with
    | nil => simp [up_nil]
    | cons r rs => rfl
  | g :: fr, c :: q, f + 1, h1, h2, h3 => by
    have e : findFuncs stdF (concF fs) (full (c :: q) ++ x) = (g.named x).map .loc := by
      rw [findFuncs_full H.stdF hfs h2 hx, h1.1 x]
      simp
    unfold funcLoop nearFuncs
    rw [e]
    cases hg : g.named x with
    | cons i is => simp
    | nil =>
      simp only [List.map_nil]
      rw [up_full (h2 c (by simp))]
      by_cases hq : q = []
      · subst hq
        rw [if_pos rfl, if_neg]
        · cases fr with
          | nil => rfl
          | cons f2 fr2 => exact absurd h1.2 (by simp [FrF])
        · intro hm
          have := List.mem_of_mem_take hm
          have hc := h2 c (by simp)
          simp [hc.1, digits_no_colon] at this
      · rw [if_neg hq]
        rw [if_pos (by
          cases q with
          | nil => exact absurd rfl hq
          | cons d q => exact colon_full)]
        exact loop_near H hx hfs fr q f h1.2 (fun d hd => h2 d (by simp [hd]))
          (by simp at h3; omega)
  | [], _ :: _, _, h1, _, _ => absurd h1 (by simp [FrF])
  | _ :: _, [], _, h1, _, _ => absurd h1 (by simp [FrF])
  | _, _, 0, _, _, h3 => absurd h3 (by omega)

theorem full_length (q : Path) : q.length ≤ (full q).length := by
  induction q with
  | nil => simp
  | cons c q ih => simp [full]; omega

theorem Rel.fsOk' (R : Rel W std E p vs fs s) :
    ∀ f ∈ fs, (∀ c ∈ f.1, ScopeName c.1) ∧ Ident f.2 :=
  fun f hf => ⟨(R.fsOk f hf).1.name, (R.fsOk f hf).2⟩

theorem Rel.findF (R : Rel W std E p vs fs s) (H : Hyp h W std stdF) {x : Str} (hx : Ident x) :
    findFuncs stdF (concF fs) x =
      (indices x 0 stdF).map .std ++ (E.file.named x).map .loc := by
  have := findFuncs_full H.stdF R.fsOk' (u := []) (by simp) hx
  rw [show full [] ++ x = x from rfl] at this
  rw [this, R.fileF]
  simp

theorem Rel.checkF (R : Rel W std E p vs fs s) (H : Hyp h W std stdF) {x : Str} (hx : Ident x) :
    checkFunc stdF s x = meaningF stdF E x := by
  unfold checkFunc
  rw [R.ns, R.funcs, loop_near H hx R.fsOk' E.frames p _ R.frF R.path.name
    (by have := full_length p; omega)]
  unfold meaningF
  cases nearFuncs x E.frames with
  | nil => exact R.findF H hx
  | cons i is => rfl

theorem Rel.sym (R : Rel W std E p vs fs s) (H : Hyp h W std stdF) {x : Str} (hx : Ident x)
    (hW : Words W p x) (hn : near x E.frames = none) (hf : nearFuncs x E.frames = []) :
    symName h std stdF s x = x := by
  have hc := R.check H hx hW
  unfold meaning at hc
  rw [hn] at hc
  simp only at hc
  unfold symName
  cases hr : checkVar h std s x with
  | some r =>
    rw [hr] at hc
    simp only [Option.map_some] at hc
    exact R.file_name hc.symm
  | none =>
    simp only
    have hF := R.checkF H hx
    unfold meaningF at hF
    rw [hf] at hF
    simp only at hF
    rw [← R.findF H hx] at hF
    rw [hF]
    cases hl : findFuncs stdF (concF fs) x with
    | nil => rfl
    | cons r rs =>
      simp only
      apply findFuncs_name
      rw [R.funcs, hl]
      simp

end

end Verif.Shader.Scope
