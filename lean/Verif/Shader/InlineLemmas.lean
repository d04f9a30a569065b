import Verif.Shader.InlineSpec

/-!
# Lemmas about calls of functions: the generated code does what the tree means
-/

namespace Verif.Shader.Inline

variable {V : Type}

/-! ## Code -/

theorem exec_append (sel : V → V → V) (a b : List (Instr V)) (m : (Loc → V) × List (Entry V)) :
    exec sel (a ++ b) m = (exec sel a m).bind (exec sel b) := by
  induction a generalizing m with
  | nil => rfl
  | cons i r ih =>
    show (step sel i m).bind (exec sel (r ++ b)) = ((step sel i m).bind (exec sel r)).bind (exec sel b)
    cases h : step sel i m with
    | none => rfl
    | some m' => exact ih m'

theorem exec_then {sel : V → V → V} {a b : List (Instr V)} {m m' : (Loc → V) × List (Entry V)}
    (h : exec sel a m = some m') : exec sel (a ++ b) m = exec sel b m' := by
  rw [exec_append, h]; rfl

theorem step_frame {sel : V → V → V} {i : Instr V} {s s' : Loc → V} {st st' : List (Entry V)}
    (h : step sel i (s, st) = some (s', st')) {l : Loc} (hl : l ∉ pops [i]) : s' l = s l := by
  cases i with
  | pushc v => simp [step] at h; rw [h.1]
  | pushv v => simp [step] at h; rw [h.1]
  | ipushv v =>
    cases st with
    | nil => simp [step] at h
    | cons e st => simp [step] at h; rw [h.1]
  | op1 f =>
    cases st with
    | nil => simp [step] at h
    | cons e st => simp [step] at h; rw [h.1]
  | op2 f =>
    cases st with
    | nil => simp [step] at h
    | cons e st =>
      cases st with
      | nil => simp [step] at h
      | cons e' st => simp [step] at h; rw [h.1]
  | dup =>
    cases st with
    | nil => simp [step] at h
    | cons e st => simp [step] at h; rw [h.1]
  | pop m =>
    cases st with
    | nil => simp [step] at h
    | cons e st =>
      simp [step] at h
      simp [pops] at hl
      rw [← h.1]
      simp [write, hl]
  | drop =>
    cases st with
    | nil => simp [step] at h
    | cons e st => simp [step] at h; rw [h.1]

theorem pops_cons (i : Instr V) (r : List (Instr V)) : pops (i :: r) = pops [i] ++ pops r := by
  cases i <;> rfl

/-- Code changes only the names it assigns to. -/
theorem exec_frame {sel : V → V → V} {code : List (Instr V)} {s s' : Loc → V}
    {st st' : List (Entry V)} (h : exec sel code (s, st) = some (s', st')) {l : Loc}
    (hl : l ∉ pops code) : s' l = s l := by
  induction code generalizing s st with
  | nil => simp [exec] at h; rw [h.1]
  | cons i r ih =>
    rw [pops_cons, List.mem_append, not_or] at hl
    have h' : (step sel i (s, st)).bind (exec sel r) = some (s', st') := h
    cases hs : step sel i (s, st) with
    | none => rw [hs] at h'; cases h'
    | some m =>
      rw [hs] at h'
      obtain ⟨s1, st1⟩ := m
      rw [ih h' hl.2, step_frame hs hl.1]

/-! ## Names -/

theorem findTemp_le {maps : List (List Var)} {x : Var} {d : Nat} (h : findTemp maps x = some d) :
    d ≤ maps.length := by
  induction maps with
  | nil => simp [findTemp] at h
  | cons m ms ih =>
    simp only [findTemp] at h
    split at h
    · simp at h; simp; omega
    · have := ih h; simp; omega

theorem loc_cons_of_not_mem {m : List Var} {ms : List (List Var)} {x : Var} (h : x ∉ m) :
    loc (m :: ms) x = loc ms x := by
  simp [loc, findTemp, h]

theorem loc_cons_of_mem {m : List Var} {ms : List (List Var)} {x : Var} (h : x ∈ m) :
    loc (m :: ms) x = .temp (ms.length + 1) x := by
  simp [loc, findTemp, h]

theorem loc_pushMap_of_not_mem {args : Tree V} {ms : List (List Var)} {x : Var}
    (h : x ∉ temps args) : loc (pushMap args ms) x = loc ms x := by
  unfold pushMap
  split
  · rfl
  · exact loc_cons_of_not_mem h

theorem temps_nil_or (args : Tree V) : temps args = [] ∨ ∀ ms, pushMap args ms = temps args :: ms := by
  cases args <;> first
    | (left; rfl)
    | (right; intro ms; rfl)

theorem loc_pushMap_of_mem {args : Tree V} {ms : List (List Var)} {x : Var}
    (h : x ∈ temps args) :
    loc (pushMap args ms) x = .temp (pushMap args ms).length x ∧
      (pushMap args ms).length = ms.length + 1 := by
  rcases temps_nil_or args with e | e
  · rw [e] at h; simp at h
  · rw [e]; exact ⟨loc_cons_of_mem h, rfl⟩

theorem pushMap_length (args : Tree V) (ms : List (List Var)) :
    ms.length ≤ (pushMap args ms).length := by
  unfold pushMap
  split <;> simp

theorem lookup_none_iff {β : Type} {t : List (Var × β)} {x : Var} :
    t.lookup x = none ↔ x ∉ t.map (·.1) := by
  induction t with
  | nil => simp
  | cons a t ih =>
    obtain ⟨k, v⟩ := a
    by_cases h : x = k
    · subst h; simp [List.lookup]
    · have : (x == k) = false := by simpa using h
      simp [List.lookup, this, ih, h]

theorem translate_of_not_mem {ts : List (List (Var × Var))} {x : Var} (h : x ∉ topKeys ts) :
    translate ts x = x := by
  cases ts with
  | nil => rfl
  | cons t ts =>
    have : t.lookup x = none := lookup_none_iff.2 h
    simp [translate, this]

theorem not_mem_top {ts : List (List (Var × Var))} {x : Var} (h : x ∉ allKeys ts) :
    x ∉ topKeys ts := by
  cases ts with
  | nil => simp [topKeys]
  | cons t ts =>
    simp only [allKeys, List.mem_append, not_or] at h
    exact h.1

theorem table_keys_sub (args : Tree V) : ∀ x ∈ (table args).map (·.1), x ∈ params args := by
  induction args with
  | arg p a r iha ihr =>
    intro x hx
    simp only [table] at hx
    split at hx
    · simp only [List.map_cons, List.mem_cons] at hx
      rcases hx with h | h
      · simp [params, h]
      · simp only [params, List.mem_cons]; exact Or.inr (ihr x h)
    · simp only [params, List.mem_cons]; exact Or.inr (ihr x hx)
  | _ => intro x hx; simp [table] at hx

theorem temps_sub (args : Tree V) : ∀ x ∈ temps args, x ∈ params args := by
  induction args with
  | arg p a r iha ihr =>
    intro x hx
    simp only [temps] at hx
    split at hx
    · simp only [params, List.mem_cons]; exact Or.inr (ihr x hx)
    · simp only [List.mem_cons] at hx
      rcases hx with h | h
      · simp [params, h]
      · simp only [params, List.mem_cons]; exact Or.inr (ihr x h)
  | _ => intro x hx; simp [temps] at hx

/-- A parameter has a temporary or a translation. -/
theorem params_split (args : Tree V) :
    ∀ x ∈ params args, x ∈ temps args ∨ x ∈ (table args).map (·.1) := by
  induction args with
  | arg p a r iha ihr =>
    intro x hx
    simp only [params, List.mem_cons] at hx
    simp only [temps, table]
    cases isRef a with
    | some y =>
      rcases hx with h | h
      · right; simp [h]
      · rcases ihr x h with h' | h'
        · left; exact h'
        · right; simp only [List.map_cons, List.mem_cons]; exact Or.inr h'
    | none =>
      rcases hx with h | h
      · left; simp [h]
      · rcases ihr x h with h' | h'
        · left; simp [h']
        · right; exact h'
  | _ => intro x hx; simp [params] at hx

/-! ## The correspondence of cells and names -/

/-- The environment and the names of a context: `corr` gives the name for a live cell. -/
structure Sim (ext : Var → Var) (c : Ctx) (hid : List Var) (env : Var → Addr) (L : Addr → Prop)
    (corr : Addr → Loc) : Prop where
  live : ∀ z, L (env z)
  inj : ∀ a b, L a → L b → corr a = corr b → a = b
  depth : ∀ a d p, L a → corr a = .temp d p → d ≤ c.maps.length
  free : ∀ z, z ∉ allKeys c.trans → z ∉ hid → corr (env z) = loc c.maps z
  ref : ∀ z ∈ topKeys c.trans, ext (translate c.trans z) ∉ hid →
    corr (env z) = loc c.maps (ext (translate c.trans z))

/-- The memory and the values of the names. -/
structure Agree (L : Addr → Prop) (corr : Addr → Loc) (st : St V) (s : Loc → V) : Prop where
  mem : ∀ a, L a → s (corr a) = st.mem a
  fresh : ∀ m, L (.cell m) → m < st.next

/-- A visible variable is found. -/
theorem Sim.resolve {ext : Var → Var} {c : Ctx} {hid : List Var} {env : Var → Addr}
    {L : Addr → Prop} {corr : Addr → Loc} (S : Sim ext c hid env L corr) {x : Var}
    (h : Vis ext c hid x) : corr (env (ext x)) = resolve ext c x := by
  obtain ⟨hx | hx, hh⟩ := h
  · rw [hx.2]; exact S.ref x hx.1 hh
  · have e := translate_of_not_mem hx.1
    rw [e] at hh
    show _ = loc c.maps (ext (translate c.trans x))
    rw [e]
    exact S.free _ hx.2 hh

/-- Assignments agree. -/
theorem Agree.write {L : Addr → Prop} {corr : Addr → Loc} {st : St V} {s : Loc → V}
    (A : Agree L corr st s) (inj : ∀ a b, L a → L b → corr a = corr b → a = b)
    {a : Addr} (ha : L a) (v : V) : Agree L corr (st.write a v) (write s (corr a) v) where
  mem b hb := by
    by_cases e : b = a
    · subst e; simp [St.write, Inline.write]
    · have : corr b ≠ corr a := fun h => e (inj b a hb ha h)
      simp [St.write, Inline.write, e, this, A.mem b hb]
  fresh m hm := A.fresh m hm

/-- What is left of the cells of a call. -/
theorem Agree.mono {L L' : Addr → Prop} {corr corr' : Addr → Loc} {st : St V} {s : Loc → V}
    (A : Agree L' corr' st s) (h : ∀ a, L a → L' a) (e : ∀ a, L a → corr' a = corr a) :
    Agree L corr st s where
  mem a ha := by rw [← e a ha]; exact A.mem a (h a ha)
  fresh m hm := A.fresh m (h _ hm)

end Verif.Shader.Inline
