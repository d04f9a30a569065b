import Verif.Shader.InlineSim

/-!
# C76: calls of functions defined in a shader
-/

namespace Verif.Shader.Inline

variable {V : Type}

/-- The values of the variables before a shader is run are those in the memory. -/
theorem start_agree {st : St V} {s : Loc → V} (h : ∀ x, st.mem (.glob x) = s (.plain x)) :
    Agree (fun a => ∃ x, a = .glob x)
      (fun a => match a with | .glob x => .plain x | .cell _ => .plain 0) st s where
  mem := by
    rintro a ⟨x, rfl⟩
    exact (h x).symm
  fresh := by
    rintro m ⟨x, hx⟩
    cases hx

/-- The names before a shader is run. -/
theorem start_sim (ext : Var → Var) : Sim ext Ctx.start [] Env.start (fun a => ∃ x, a = .glob x)
    (fun a => match a with | .glob x => .plain x | .cell _ => .plain 0) where
  live z := ⟨z, rfl⟩
  inj := by
    rintro a b ⟨x, rfl⟩ ⟨y, rfl⟩ h
    simp at h; rw [h]
  depth := by
    rintro a d p ⟨x, rfl⟩ h
    cases h
  free z _ _ := by simp [Env.start, Ctx.start, loc, findTemp]
  ref z hz := by simp [Ctx.start, topKeys] at hz

/-- C76: **the code for the body of a shader does what the body means**: the calls written out in it
read and assign to the variables that call by reference and call by value say.  (Missing: the trees
that are not `Ok`, see the violations; control flow.) -/
theorem C76_call_partial (sel : V → V → V) (ext : Var → Var) (t : Tree V)
    (ok : Ok ext .nothing t Ctx.start []) (st : St V) (s : Loc → V)
    (h : ∀ x, st.mem (.glob x) = s (.plain x)) :
    ∃ s', exec sel (gen ext t Ctx.start) (s, []) = some (s', []) ∧
      ∀ x, s' (.plain x) = (eval sel ext t Env.start st).st.mem (.glob x) := by
  obtain ⟨s', -, hx, hA, -⟩ := (good sel ext t).2.1 Ctx.start [] Env.start _ _ st s [] ok
    (start_sim ext) (start_agree h)
  exact ⟨s', hx, fun x => hA.mem (.glob x) ⟨x, rfl⟩⟩

/-- C76: the same for an expression: one entry is left, which has the value of the expression. -/
theorem C76_value_partial (sel : V → V → V) (ext : Var → Var) (t : Tree V)
    (ok : Ok ext .value t Ctx.start []) (st : St V) (s : Loc → V) (stk : List (Entry V))
    (h : ∀ x, st.mem (.glob x) = s (.plain x)) :
    ∃ s' e, exec sel (gen ext t Ctx.start) (s, stk) = some (s', e :: stk) ∧
      (eval sel ext t Env.start st).val = some (e.read s') ∧
      ∀ x, s' (.plain x) = (eval sel ext t Env.start st).st.mem (.glob x) := by
  obtain ⟨v, s', e, hv, hx, hr, -, hA, -⟩ := (good sel ext t).1 Ctx.start [] Env.start _ _ st s stk ok
    (start_sim ext) (start_agree h)
  exact ⟨s', e, hx, by rw [hv, hr], fun x => hA.mem (.glob x) ⟨x, rfl⟩⟩

/-- A tree without assignments and calls. -/
def Pure : Tree V → Prop
  | .const _ => True
  | .var _ => True
  | .idx _ e => Pure e
  | .un _ a => Pure a
  | .op _ a b => Pure a ∧ Pure b
  | _ => False

theorem pops_append (a b : List (Instr V)) : pops (a ++ b) = pops a ++ pops b := by
  induction a with
  | nil => rfl
  | cons i r ih => cases i <;> simp [pops, ih]

/-- C76: the condition on waiting references holds when the first operand has no assignment and no
call, or the second one is a constant, a built in function or an array element. -/
theorem C76_operands (ext : Var → Var) (a b : Tree V) (c : Ctx)
    (h : Pure a ∨ (∃ v, b = .const v) ∨ (∃ f x, b = .un f x) ∨ (∃ f x y, b = .op f x y) ∨
      ∃ x e, b = .idx x e) :
    ∀ l, leaves ext b c = some l → l ∉ pops (gen ext a c) := by
  have pure_pops : ∀ t : Tree V, Pure t → pops (gen ext t c) = [] := by
    intro t
    induction t with
    | const v => intro _; rfl
    | var x => intro _; rfl
    | idx x e ih => intro h; simp [gen, pops_append, ih h, pops]
    | un f a ih => intro h; simp [gen, pops_append, ih h, pops]
    | op f a b iha ihb => intro h; simp [gen, pops_append, iha h.1, ihb h.2, pops]
    | _ => intro h; exact h.elim
  intro l hl
  rcases h with h | ⟨v, rfl⟩ | ⟨f, x, rfl⟩ | ⟨f, x, y, rfl⟩ | ⟨x, e, rfl⟩
  · rw [pure_pops a h]; simp
  all_goals simp [leaves] at hl

/-- The names used in code. -/
def operands : List (Instr V) → List Loc
  | [] => []
  | .pushv l :: r => l :: operands r
  | .ipushv l :: r => l :: operands r
  | .pop l :: r => l :: operands r
  | _ :: r => operands r

theorem operands_append (a b : List (Instr V)) : operands (a ++ b) = operands a ++ operands b := by
  induction a with
  | nil => rfl
  | cons i r ih => cases i <;> simp [operands, ih]

/-- The temporaries of a context. -/
def OfMaps : List (List Var) → Loc → Prop
  | [], _ => False
  | m :: ms, l => (∃ p ∈ m, l = .temp (ms.length + 1) p) ∨ OfMaps ms l

theorem loc_cases (maps : List (List Var)) (y : Var) :
    loc maps y = .plain y ∨ OfMaps maps (loc maps y) := by
  induction maps with
  | nil => left; rfl
  | cons m ms ih =>
    by_cases h : y ∈ m
    · right; left; exact ⟨y, h, loc_cons_of_mem h⟩
    · rw [loc_cons_of_not_mem h]
      rcases ih with e | e
      · left; exact e
      · right; right; exact e

theorem ofMaps_pushMap {args : Tree V} {ms : List (List Var)} {l : Loc}
    (h : OfMaps (pushMap args ms) l) :
    OfMaps ms l ∨ l ∈ (temps args).map (fun p => Loc.temp (ms.length + 1) p) := by
  unfold pushMap at h
  split at h
  · left; exact h
  · rcases h with ⟨p, hp, rfl⟩ | h
    · right; exact List.mem_map.2 ⟨p, hp, rfl⟩
    · left; exact h

/-- The names in the code of a tree. -/
theorem operands_gen (ext : Var → Var) (t : Tree V) : ∀ (c : Ctx),
    ∀ l ∈ operands (gen ext t c), l ∈ gather ext t c ∨ OfMaps c.maps l := by
  have key : ∀ (c : Ctx) (x : Var), resolve ext c x = .plain (ext (translate c.trans x)) ∨
      OfMaps c.maps (resolve ext c x) := fun c x => loc_cases _ _
  induction t with
  | const v => intro c l hl; simp [gen, operands] at hl
  | var x =>
    intro c l hl
    simp [gen, operands] at hl
    subst hl
    rcases key c x with e | e
    · left; simp [gather, e]
    · right; exact e
  | idx x e ih =>
    intro c l hl
    simp only [gen, operands_append, List.mem_append] at hl
    rcases hl with hl | hl
    · rcases ih c l hl with h | h
      · left; simp [gather, h]
      · right; exact h
    · simp [operands] at hl
      subst hl
      rcases key c x with e | e
      · left; simp [gather, e]
      · right; exact e
  | un f a ih =>
    intro c l hl
    simp only [gen, operands_append, List.mem_append] at hl
    rcases hl with hl | hl
    · exact ih c l hl
    · simp [operands] at hl
  | op f a b iha ihb =>
    intro c l hl
    simp only [gen, operands_append, List.mem_append] at hl
    rcases hl with hl | hl | hl
    · rcases ihb c l hl with h | h
      · left; simp [gather, h]
      · right; exact h
    · rcases iha c l hl with h | h
      · left; simp [gather, h]
      · right; exact h
    · simp [operands] at hl
  | set x e ih =>
    intro c l hl
    simp only [gen, operands_append, List.mem_append] at hl
    rcases hl with hl | hl
    · rcases ih c l hl with h | h
      · left; simp [gather, h]
      · right; exact h
    · simp [operands] at hl
      subst hl
      rcases key c x with e | e
      · left; simp [gather, e]
      · right; exact e
  | put x e ih =>
    intro c l hl
    simp only [gen, operands_append, List.mem_append] at hl
    rcases hl with hl | hl
    · rcases ih c l hl with h | h
      · left; simp [gather, h]
      · right; exact h
    · simp [operands] at hl
      subst hl
      rcases key c x with e | e
      · left; simp [gather, e]
      · right; exact e
  | drop e ih =>
    intro c l hl
    simp only [gen, operands_append, List.mem_append] at hl
    rcases hl with hl | hl
    · exact ih c l hl
    · simp [operands] at hl
  | skip => intro c l hl; simp [gen, operands] at hl
  | seq a b iha ihb =>
    intro c l hl
    simp only [gen, operands_append, List.mem_append] at hl
    rcases hl with hl | hl
    · rcases iha c l hl with h | h
      · left; simp [gather, h]
      · right; exact h
    · rcases ihb c l hl with h | h
      · left; simp [gather, h]
      · right; exact h
  | call args body iha ihb =>
    intro c l hl
    simp only [gen, operands_append, List.mem_append] at hl
    simp only [gather, List.mem_append]
    rcases hl with hl | hl
    · rcases iha _ l hl with h | h
      · left; right; left; exact h
      · rcases ofMaps_pushMap h with h | h
        · right; exact h
        · left; left; exact h
    · rcases ihb _ l hl with h | h
      · left; right; right; exact h
      · rcases ofMaps_pushMap h with h | h
        · right; exact h
        · left; left; exact h
  | nil => intro c l hl; simp [gen, operands] at hl
  | arg p a r iha ihr =>
    intro c l hl
    simp only [gen, operands_append, List.mem_append] at hl
    simp only [gather, List.mem_append]
    rcases hl with hl | hl
    · cases hi : isRef a with
      | some y => rw [hi] at hl; simp [operands] at hl
      | none =>
        rw [hi] at hl
        simp only [operands_append, List.mem_append] at hl
        rcases hl with hl | hl
        · rcases iha c l hl with h | h
          · left; left; simp [h]
          · right; exact h
        · simp [operands] at hl
          subst hl
          rcases key c p with e | e
          · left; left; simp [e]
          · right; exact e
    · rcases ihr c l hl with h | h
      · left; right; exact h
      · right; exact h

/-- C76: **every name in the code is declared**: the first pass finds it (for any tree). -/
theorem C76_declared (ext : Var → Var) (t : Tree V) :
    ∀ l ∈ operands (gen ext t Ctx.start), l ∈ gather ext t Ctx.start := by
  intro l hl
  rcases operands_gen ext t Ctx.start l hl with h | h
  · exact h
  · simp [Ctx.start, OfMaps] at h

/-! ## Examples -/

/-- Arrays of the examples: an element is 100 times the value of the array plus the index. -/
def selI (a i : Int) : Int := 100 * a + i

/-- No `extern`. -/
def noExt : Var → Var := id

/-- The values of the variables before an example is run: 10, 11, 12, … -/
def store0 : Loc → Int
  | .plain x => 10 + x
  | .temp _ _ => 0

/-- The same as memory. -/
def mem0 : St Int := ⟨fun a => match a with | .glob x => 10 + x | .cell _ => 0, 0⟩

/-- The first variables after the code for a tree was run. -/
def ran (ext : Var → Var) (t : Tree Int) : Option (List Int) :=
  (exec selI (gen ext t Ctx.start) (store0, [])).map fun m => [0, 1, 2].map fun x => m.1 (.plain x)

/-- The first variables after a tree. -/
def meant (ext : Var → Var) (t : Tree Int) : List Int :=
  [0, 1, 2].map fun x => (eval selI ext t Env.start mem0).st.mem (.glob x)

/-- The call of `float f(float p; output float q) { q = q + p; return p * 2; }` (its variables are 5
and 6). -/
def callF (a b : Tree Int) : Tree Int :=
  .call (.arg 5 a (.arg 6 b .nil))
    (.seq (.put 6 (.op (· + ·) (.var 6) (.var 5))) (.op (· * ·) (.var 5) (.const 2)))

-- `v0 = f(v1, v2)`, `v0 = f(f(3, v1), v2)`: the meaning, and what the code does
example : meant noExt (.put 0 (callF (.var 1) (.var 2))) = [22, 11, 23] ∧
    ran noExt (.put 0 (callF (.var 1) (.var 2))) = some [22, 11, 23] := by decide
example : meant noExt (.put 0 (callF (callF (.const 3) (.var 1)) (.var 2))) = [12, 14, 18] ∧
    ran noExt (.put 0 (callF (callF (.const 3) (.var 1)) (.var 2))) = some [12, 14, 18] := by decide

-- the names of the temporaries of the nested calls
example : operands (gen noExt (callF (callF (.const 3) (.var 1)) (.var 2)) Ctx.start) =
    [.temp 3 5, .temp 3 5, .plain 1, .plain 1, .temp 3 5, .temp 2 5, .temp 2 5, .plain 2, .plain 2,
      .temp 2 5] := by decide

-- these trees are `Ok`
example : Ok noExt .nothing (.put 0 (callF (callF (.const 3) (.var 1)) (.var 2))) Ctx.start [] := by
  simp [Ok, callF, params, temps, table, isRef, byRef, Vis, topKeys, allKeys, translate, noExt,
    Ctx.start, leaves, pushMap, gen, pops]

-- a function calling a function: `g(r) { return f(r, r) + r; }` with the variable 8
example : ran noExt (.put 0 (.call (.arg 8 (.var 1) .nil)
      (.op (· + ·) (.var 8) (callF (.var 8) (.var 8))))) =
    some (meant noExt (.put 0 (.call (.arg 8 (.var 1) .nil)
      (.op (· + ·) (.var 8) (callF (.var 8) (.var 8)))))) := by decide

/-! ## Violations -/

/-- C76: **an array element is not passed**: the code for `f(a[i], …)` is the code for `f(a, …)`. -/
theorem C76_index_violated (ext : Var → Var) (p x : Var) (i r body : Tree V) (c : Ctx) :
    gen ext (.call (.arg p (.idx x i) r) body) c = gen ext (.call (.arg p (.var x) r) body) c := by
  simp [gen, isRef, pushMap, temps, table]

/-- The meanings are different: `v0 = h(v1[7])` with `h(p) { return p + 0; }`. -/
theorem C76_index_meaning_violated :
    let t : Tree Int := .put 0 (.call (.arg 5 (.idx 1 (.const 7)) .nil)
      (.op (· + ·) (.var 5) (.const 0)))
    meant noExt t = [1107, 11, 12] ∧ ran noExt t = some [11, 11, 12] := by
  decide

/-- C76: **an assignment in an argument is lost**: after `v0 = h(v1 = 3)`, `v1` has its old value. -/
theorem C76_assign_violated :
    let t : Tree Int := .put 0 (.call (.arg 5 (.set 1 (.const 3)) .nil)
      (.op (· + ·) (.var 5) (.const 0)))
    meant noExt t = [3, 3, 12] ∧ ran noExt t = some [11, 11, 12] := by
  decide

/-- C76: **a returned variable is overwritten by the next call**: with `k(p) { v7 = p * 2; return v7; }`
(where `v7` is local), `k(1) + k(2)` is 4 and not 6. -/
theorem C76_return_violated :
    let k (n : Int) : Tree Int := .call (.arg 5 (.const n) .nil)
      (.seq (.put 7 (.op (· * ·) (.var 5) (.const 2))) (.var 7))
    meant noExt (.put 0 (.op (· + ·) (k 1) (k 2))) = [6, 11, 12] ∧
      ran noExt (.put 0 (.op (· + ·) (k 1) (k 2))) = some [4, 11, 12] := by
  decide

/-- C76: the same for a returned parameter: with `k(p) { return p; }`, `k(1) + k(2)` is 2. -/
theorem C76_return_param_violated :
    let k (n : Int) : Tree Int := .call (.arg 5 (.const n) .nil) (.var 5)
    meant noExt (.put 0 (.op (· + ·) (k 1) (k 2))) = [3, 11, 12] ∧
      ran noExt (.put 0 (.op (· + ·) (k 1) (k 2))) = some [2, 11, 12] := by
  decide

/-- C76: **an operand is read too late**: `v1 + (v1 = 2)` and `v1 + f(3, v1)` use the new value of
`v1` twice. -/
theorem C76_order_violated :
    let t : Tree Int := .put 0 (.op (· + ·) (.set 1 (.const 2)) (.var 1))
    let u : Tree Int := .put 0 (.op (· + ·) (callF (.const 3) (.var 1)) (.var 1))
    meant noExt t = [13, 2, 12] ∧ ran noExt t = some [4, 2, 12] ∧
      meant noExt u = [17, 14, 12] ∧ ran noExt u = some [20, 14, 12] := by
  decide

/-- C76: **`extern` does not find a parameter passed by reference**: in `f(p) { g() { extern p; p = 3; }
g(); }` (`p` is 5, in `g` it is 9), the call `f(v1)` leaves `v1` as it is. -/
theorem C76_extern_violated :
    let ext : Var → Var := fun x => if x = 9 then 5 else x
    let t : Tree Int := .call (.arg 5 (.var 1) .nil) (.call .nil (.put 9 (.const 3)))
    meant ext t = [10, 3, 12] ∧ ran ext t = some [10, 11, 12] := by
  decide

/-- C76: **statements after a `return` are executed**: `k(p) { return 1; v2 = 5; }`. -/
theorem C76_after_violated :
    let t : Tree Int := .put 0 (.call (.arg 5 (.const 0) .nil)
      (.seq (.const 1) (.put 2 (.const 5))))
    meant noExt t = [1, 11, 12] ∧ ran noExt t = some [1, 11, 5] := by
  decide

end Verif.Shader.Inline
