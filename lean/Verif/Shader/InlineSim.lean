import Verif.Shader.InlineLemmas

/-!
# The generated code does what the tree means: the simulation
-/

namespace Verif.Shader.Inline

variable {V : Type}

/-- For an expression. -/
def GoodV (sel : V → V → V) (ext : Var → Var) (t : Tree V) : Prop :=
  ∀ (c : Ctx) (hid : List Var) (env : Var → Addr) (L : Addr → Prop) (corr : Addr → Loc) (st : St V)
    (s : Loc → V) (stk : List (Entry V)),
    Ok ext .value t c hid → Sim ext c hid env L corr → Agree L corr st s →
    ∃ (v : V) (s' : Loc → V) (e : Entry V), (eval sel ext t env st).val = some v ∧
      exec sel (gen ext t c) (s, stk) = some (s', e :: stk) ∧ e.read s' = v ∧
      (∀ l, e = .ref l → leaves ext t c = some l) ∧
      Agree L corr (eval sel ext t env st).st s' ∧ st.next ≤ (eval sel ext t env st).st.next

/-- For a statement. -/
def GoodN (sel : V → V → V) (ext : Var → Var) (t : Tree V) : Prop :=
  ∀ (c : Ctx) (hid : List Var) (env : Var → Addr) (L : Addr → Prop) (corr : Addr → Loc) (st : St V)
    (s : Loc → V) (stk : List (Entry V)),
    Ok ext .nothing t c hid → Sim ext c hid env L corr → Agree L corr st s →
    ∃ (s' : Loc → V), (eval sel ext t env st).val = none ∧
      exec sel (gen ext t c) (s, stk) = some (s', stk) ∧
      Agree L corr (eval sel ext t env st).st s' ∧ st.next ≤ (eval sel ext t env st).st.next

/-- For a list of arguments. -/
def GoodA (sel : V → V → V) (ext : Var → Var) (t : Tree V) : Prop :=
  ∀ (c : Ctx) (hid : List Var) (env : Var → Addr) (L : Addr → Prop) (corr : Addr → Loc) (st : St V)
    (s : Loc → V) (stk : List (Entry V)),
    Ok ext .args t c hid → Sim ext c hid env L corr → Agree L corr st s →
    (params t).Nodup →
    (∀ a, L a → ∀ p ∈ temps t, corr a ≠ .temp c.maps.length p) →
    (∀ p ∈ temps t, loc c.maps p = .temp c.maps.length p) →
    ∃ (s' : Loc → V) (L' : Addr → Prop) (corr' : Addr → Loc),
      exec sel (gen ext t c) (s, stk) = some (s', stk) ∧
      (∀ a, L a → L' a) ∧ (∀ a, L a → corr' a = corr a) ∧
      (∀ a b, L' a → L' b → corr' a = corr' b → a = b) ∧
      (∀ a d p, L' a → corr' a = .temp d p → d ≤ c.maps.length) ∧
      Agree L' corr' (eval sel ext t env st).st s' ∧ st.next ≤ (eval sel ext t env st).st.next ∧
      (∀ x, x ∉ params t → (eval sel ext t env st).binds.lookup x = none) ∧
      (∀ p ∈ temps t, ∃ a, (eval sel ext t env st).binds.lookup p = some a ∧ L' a ∧
        corr' a = .temp c.maps.length p) ∧
      (∀ p ∈ (table t).map (·.1), ∃ x, (table t).lookup p = some x ∧
        (eval sel ext t env st).binds.lookup p = some (env (ext x)) ∧ Vis ext c hid x)

theorem read_of_frame {s s' : Loc → V} {e : Entry V} (h : ∀ l, e = .ref l → s' l = s l) :
    e.read s' = e.read s := by
  cases e with
  | ref l => exact h l rfl
  | val v => rfl

/-- The context of the body of a call. -/
theorem Sim.call {sel : V → V → V} {ext : Var → Var} {args : Tree V} {c : Ctx} {hid : List Var}
    {env : Var → Addr} {L L' : Addr → Prop} {corr corr' : Addr → Loc} {st : St V}
    (S : Sim ext c hid env L corr)
    (hL : ∀ a, L a → L' a) (hc : ∀ a, L a → corr' a = corr a)
    (hinj : ∀ a b, L' a → L' b → corr' a = corr' b → a = b)
    (hd : ∀ a d p, L' a → corr' a = .temp d p → d ≤ (pushMap args c.maps).length)
    (h0 : ∀ x, x ∉ params args → (eval sel ext args env st).binds.lookup x = none)
    (h1 : ∀ p ∈ temps args, ∃ a, (eval sel ext args env st).binds.lookup p = some a ∧ L' a ∧
        corr' a = .temp (pushMap args c.maps).length p)
    (h2 : ∀ p ∈ (table args).map (·.1), ∃ x, (table args).lookup p = some x ∧
        (eval sel ext args env st).binds.lookup p = some (env (ext x)) ∧
        Vis ext ⟨c.trans, pushMap args c.maps⟩ (temps args ++ hid) x) :
    Sim ext ⟨table args :: c.trans, pushMap args c.maps⟩ (hid.filter fun z => z ∉ params args)
      (bind (eval sel ext args env st).binds env) L' corr' where
  live z := by
    by_cases hz : z ∈ params args
    · rcases params_split args z hz with h | h
      · obtain ⟨a, ha, hla, -⟩ := h1 z h
        simp only [bind, ha]; exact hla
      · obtain ⟨x, -, hx, -⟩ := h2 z h
        simp only [bind, hx]; exact hL _ (S.live _)
    · simp only [bind, h0 z hz]; exact hL _ (S.live _)
  inj := hinj
  depth := hd
  free z hz hh := by
    simp only [allKeys, List.mem_append, not_or] at hz
    by_cases hp : z ∈ params args
    · rcases params_split args z hp with h | h
      · obtain ⟨a, ha, hla, hca⟩ := h1 z h
        simp only [bind, ha]
        rw [hca, (loc_pushMap_of_mem h).1]
      · exact absurd h hz.1
    · have hh' : z ∉ hid := by
        intro hmem
        exact hh (List.mem_filter.2 ⟨hmem, by simpa using hp⟩)
      have hnt : z ∉ temps args := fun h => hp (temps_sub args z h)
      simp only [bind, h0 z hp]
      rw [hc _ (S.live z), S.free z hz.2 hh', loc_pushMap_of_not_mem hnt]
  ref z hz _ := by
    obtain ⟨x, hx, hb, hv⟩ := h2 z hz
    have ht : translate (table args :: c.trans) z = translate c.trans x := by
      simp [translate, hx]
    show corr' (bind _ env z) = loc (pushMap args c.maps) (ext (translate (table args :: c.trans) z))
    rw [ht]
    simp only [bind, hb]
    obtain ⟨hv1, hv2⟩ := hv
    simp only [List.mem_append, not_or] at hv2
    rw [loc_pushMap_of_not_mem hv2.1, hc _ (S.live _)]
    exact S.resolve (c := c) (hid := hid) ⟨hv1, hv2.2⟩

/-- The context of the arguments of a call. -/
theorem Sim.args {ext : Var → Var} {args : Tree V} {c : Ctx} {hid : List Var}
    {env : Var → Addr} {L : Addr → Prop} {corr : Addr → Loc} (S : Sim ext c hid env L corr) :
    Sim ext ⟨c.trans, pushMap args c.maps⟩ (temps args ++ hid) env L corr where
  live := S.live
  inj := S.inj
  depth a d p ha h := Nat.le_trans (S.depth a d p ha h) (pushMap_length args c.maps)
  free z hz hh := by
    simp only [List.mem_append, not_or] at hh
    rw [S.free z hz hh.2]
    exact (loc_pushMap_of_not_mem hh.1).symm
  ref z hz hh := by
    simp only [List.mem_append, not_or] at hh
    rw [S.ref z hz hh.2]
    exact (loc_pushMap_of_not_mem hh.1).symm

/-- The arguments and the context of the body. -/
theorem goodA_call {sel : V → V → V} {ext : Var → Var} {args : Tree V} (ga : GoodA sel ext args)
    {c : Ctx} {hid : List Var}
    {env : Var → Addr} {L : Addr → Prop} {corr : Addr → Loc} {st : St V} {s : Loc → V}
    (stk : List (Entry V)) (hn : (params args).Nodup)
    (ho : Ok ext .args args ⟨c.trans, pushMap args c.maps⟩ (temps args ++ hid))
    (S : Sim ext c hid env L corr) (A : Agree L corr st s) :
    ∃ (s' : Loc → V) (L' : Addr → Prop) (corr' : Addr → Loc),
      exec sel (gen ext args ⟨c.trans, pushMap args c.maps⟩) (s, stk) = some (s', stk) ∧
      (∀ a, L a → L' a) ∧ (∀ a, L a → corr' a = corr a) ∧
      Agree L' corr' (eval sel ext args env st).st s' ∧
      st.next ≤ (eval sel ext args env st).st.next ∧
      Sim ext ⟨table args :: c.trans, pushMap args c.maps⟩ (hid.filter fun z => z ∉ params args)
        (bind (eval sel ext args env st).binds env) L' corr' := by
  obtain ⟨s', L', corr', hx, hL, hc, hinj, hd, hA, hm, h0, h1, h2⟩ :=
    ga ⟨c.trans, pushMap args c.maps⟩ (temps args ++ hid) env L corr st s stk ho S.args A hn
      (by
        intro a ha p hp e
        have h1 := S.depth a _ p ha e
        have h2 := (loc_pushMap_of_mem (ms := c.maps) hp).2
        have h3 : (pushMap args c.maps).length ≤ c.maps.length := h1
        omega)
      (fun p hp => (loc_pushMap_of_mem hp).1)
  exact ⟨s', L', corr', hx, hL, hc, hA, hm, S.call hL hc hinj hd h0 h1 h2⟩

/-- **The simulation.** -/
theorem good (sel : V → V → V) (ext : Var → Var) (t : Tree V) :
    GoodV sel ext t ∧ GoodN sel ext t ∧ GoodA sel ext t := by
  induction t with
  | const v =>
    refine ⟨?_, ?_, ?_⟩
    · intro c hid env L corr st s stk _ _ A
      exact ⟨v, s, .val v, rfl, rfl, rfl, (by intro l h; cases h), A, Nat.le_refl _⟩
    · intro c hid env L corr st s stk h; exact h.elim
    · intro c hid env L corr st s stk h; exact h.elim
  | var x =>
    refine ⟨?_, ?_, ?_⟩
    · intro c hid env L corr st s stk h S A
      refine ⟨_, s, .ref (resolve ext c x), rfl, rfl, ?_, ?_, A, Nat.le_refl _⟩
      · rw [← S.resolve h]; exact A.mem _ (S.live _)
      · intro l e; cases e; rfl
    · intro c hid env L corr st s stk h; exact h.elim
    · intro c hid env L corr st s stk h; exact h.elim
  | idx x e ih =>
    refine ⟨?_, ?_, ?_⟩
    · intro c hid env L corr st s stk h S A
      obtain ⟨h1, h2⟩ : Ok ext .value e c hid ∧ Vis ext c hid x := h
      obtain ⟨v, s', en, hv, hx, hr, -, hA, hm⟩ := ih.1 c hid env L corr st s stk h1 S A
      refine ⟨sel ((eval sel ext e env st).st.mem (env (ext x))) v, s',
        .val (sel (s' (resolve ext c x)) (en.read s')), ?_, ?_, ?_, ?_, hA, hm⟩
      · simp [eval, hv]
      · show exec sel (gen ext e c ++ [.ipushv (resolve ext c x)]) (s, stk) = _
        rw [exec_then hx]; rfl
      · show sel (s' (resolve ext c x)) (en.read s') = _
        rw [hr, ← S.resolve h2, hA.mem _ (S.live _)]
      · intro l h; cases h
    · intro c hid env L corr st s stk h; exact h.elim
    · intro c hid env L corr st s stk h; exact h.elim
  | un f a ih =>
    refine ⟨?_, ?_, ?_⟩
    · intro c hid env L corr st s stk h S A
      have h1 : Ok ext .value a c hid := h
      obtain ⟨v, s', en, hv, hx, hr, -, hA, hm⟩ := ih.1 c hid env L corr st s stk h1 S A
      refine ⟨f v, s', .val (f (en.read s')), ?_, ?_, ?_, ?_, hA, hm⟩
      · simp [eval, hv]
      · show exec sel (gen ext a c ++ [.op1 f]) (s, stk) = _
        rw [exec_then hx]; rfl
      · show f (en.read s') = _
        rw [hr]
      · intro l h; cases h
    · intro c hid env L corr st s stk h; exact h.elim
    · intro c hid env L corr st s stk h; exact h.elim
  | op f a b iha ihb =>
    refine ⟨?_, ?_, ?_⟩
    · intro c hid env L corr st s stk h S A
      obtain ⟨h1, h2, h3⟩ : Ok ext .value a c hid ∧ Ok ext .value b c hid ∧
        ∀ l, leaves ext b c = some l → l ∉ pops (gen ext a c) := h
      obtain ⟨v, s', en, hv, hx, hr, hl, hA, hm⟩ := ihb.1 c hid env L corr st s stk h2 S A
      obtain ⟨v', s'', en', hv', hx', hr', -, hA', hm'⟩ :=
        iha.1 c hid env L corr _ s' (en :: stk) h1 S hA
      have hkeep : en.read s'' = v := by
        rw [← hr]
        apply read_of_frame
        intro l he
        exact exec_frame hx' (h3 l (hl l he))
      refine ⟨f v' v, s'', .val (f (en'.read s'') (en.read s'')), ?_, ?_, ?_, ?_, hA',
        Nat.le_trans hm hm'⟩
      · simp [eval, hv, hv']
      · show exec sel (gen ext b c ++ (gen ext a c ++ [.op2 f])) (s, stk) = _
        rw [exec_then hx, exec_then hx']; rfl
      · show f (en'.read s'') (en.read s'') = _
        rw [hr', hkeep]
      · intro l h; cases h
    · intro c hid env L corr st s stk h; exact h.elim
    · intro c hid env L corr st s stk h; exact h.elim
  | set x e ih =>
    refine ⟨?_, ?_, ?_⟩
    · intro c hid env L corr st s stk h S A
      obtain ⟨h1, h2⟩ : Ok ext .value e c hid ∧ Vis ext c hid x := h
      obtain ⟨v, s', en, hv, hx, hr, hl, hA, hm⟩ := ih.1 c hid env L corr st s stk h1 S A
      have he : eval sel ext (.set x e) env st =
          ⟨some v, [], (eval sel ext e env st).st.write (env (ext x)) v⟩ := by
        simp [eval, hv]
      refine ⟨v, write s' (resolve ext c x) v, en, ?_, ?_, ?_, hl, ?_, ?_⟩
      · rw [he]
      · show exec sel (gen ext e c ++ [.dup, .pop (resolve ext c x)]) (s, stk) = _
        rw [exec_then hx]
        show some (write s' (resolve ext c x) (en.read s'), en :: stk) = _
        rw [hr]
      · cases en with
        | val w => exact hr
        | ref l =>
          show (if l = resolve ext c x then v else s' l) = v
          split
          · rfl
          · exact hr
      · rw [he, ← S.resolve h2]
        exact hA.write S.inj (S.live _) v
      · rw [he]; exact hm
    · intro c hid env L corr st s stk h; exact h.elim
    · intro c hid env L corr st s stk h; exact h.elim
  | put x e ih =>
    refine ⟨?_, ?_, ?_⟩
    · intro c hid env L corr st s stk h; exact h.elim
    · intro c hid env L corr st s stk h S A
      obtain ⟨h1, h2⟩ : Ok ext .value e c hid ∧ Vis ext c hid x := h
      obtain ⟨v, s', en, hv, hx, hr, hl, hA, hm⟩ := ih.1 c hid env L corr st s stk h1 S A
      have he : eval sel ext (.put x e) env st =
          ⟨none, [], (eval sel ext e env st).st.write (env (ext x)) v⟩ := by
        simp [eval, hv]
      refine ⟨write s' (resolve ext c x) v, ?_, ?_, ?_, ?_⟩
      · rw [he]
      · show exec sel (gen ext e c ++ [.pop (resolve ext c x)]) (s, stk) = _
        rw [exec_then hx]
        show some (write s' (resolve ext c x) (en.read s'), stk) = _
        rw [hr]
      · rw [he, ← S.resolve h2]
        exact hA.write S.inj (S.live _) v
      · rw [he]; exact hm
    · intro c hid env L corr st s stk h; exact h.elim
  | drop e ih =>
    refine ⟨?_, ?_, ?_⟩
    · intro c hid env L corr st s stk h; exact h.elim
    · intro c hid env L corr st s stk h S A
      have h1 : Ok ext .value e c hid := h
      obtain ⟨v, s', en, hv, hx, hr, hl, hA, hm⟩ := ih.1 c hid env L corr st s stk h1 S A
      refine ⟨s', rfl, ?_, hA, hm⟩
      show exec sel (gen ext e c ++ [.drop]) (s, stk) = _
      rw [exec_then hx]; rfl
    · intro c hid env L corr st s stk h; exact h.elim
  | skip =>
    refine ⟨?_, ?_, ?_⟩
    · intro c hid env L corr st s stk h; exact h.elim
    · intro c hid env L corr st s stk _ _ A
      exact ⟨s, rfl, rfl, A, Nat.le_refl _⟩
    · intro c hid env L corr st s stk h; exact h.elim
  | seq a b iha ihb =>
    refine ⟨?_, ?_, ?_⟩
    · intro c hid env L corr st s stk h S A
      obtain ⟨h1, h2⟩ : Ok ext .nothing a c hid ∧ Ok ext .value b c hid := h
      obtain ⟨s', hv, hx, hA, hm⟩ := iha.2.1 c hid env L corr st s stk h1 S A
      obtain ⟨v', s'', en', hv', hx', hr', hl', hA', hm'⟩ :=
        ihb.1 c hid env L corr _ s' stk h2 S hA
      have he : eval sel ext (.seq a b) env st = eval sel ext b env (eval sel ext a env st).st := by
        simp [eval, hv]
      refine ⟨v', s'', en', ?_, ?_, hr', hl', ?_, ?_⟩
      · rw [he]; exact hv'
      · show exec sel (gen ext a c ++ gen ext b c) (s, stk) = _
        rw [exec_then hx]; exact hx'
      · rw [he]; exact hA'
      · rw [he]; exact Nat.le_trans hm hm'
    · intro c hid env L corr st s stk h S A
      obtain ⟨h1, h2⟩ : Ok ext .nothing a c hid ∧ Ok ext .nothing b c hid := h
      obtain ⟨s', hv, hx, hA, hm⟩ := iha.2.1 c hid env L corr st s stk h1 S A
      obtain ⟨s'', hv', hx', hA', hm'⟩ :=
        ihb.2.1 c hid env L corr _ s' stk h2 S hA
      have he : eval sel ext (.seq a b) env st = eval sel ext b env (eval sel ext a env st).st := by
        simp [eval, hv]
      refine ⟨s'', ?_, ?_, ?_, ?_⟩
      · rw [he]; exact hv'
      · show exec sel (gen ext a c ++ gen ext b c) (s, stk) = _
        rw [exec_then hx]; exact hx'
      · rw [he]; exact hA'
      · rw [he]; exact Nat.le_trans hm hm'
    · intro c hid env L corr st s stk h; exact h.elim
  | call args body iha ihb =>
    refine ⟨?_, ?_, ?_⟩
    · intro c hid env L corr st s stk h S A
      obtain ⟨hn, h1, h2⟩ : (params args).Nodup ∧
        Ok ext .args args ⟨c.trans, pushMap args c.maps⟩ (temps args ++ hid) ∧
        Ok ext .value body ⟨table args :: c.trans, pushMap args c.maps⟩
          (hid.filter fun z => z ∉ params args) := h
      obtain ⟨s', L', corr', hx, hL, hc, hA, hm, hS⟩ := goodA_call iha.2.2 stk hn h1 S A
      obtain ⟨v', s'', en', hv', hx', hr', hl', hA', hm'⟩ :=
        ihb.1 _ _ _ L' corr' _ s' stk h2 hS hA
      refine ⟨v', s'', en', hv', ?_, hr', hl', hA'.mono hL hc, Nat.le_trans hm hm'⟩
      show exec sel (gen ext args ⟨c.trans, pushMap args c.maps⟩ ++
        gen ext body ⟨table args :: c.trans, pushMap args c.maps⟩) (s, stk) = _
      rw [exec_then hx]; exact hx'
    · intro c hid env L corr st s stk h S A
      obtain ⟨hn, h1, h2⟩ : (params args).Nodup ∧
        Ok ext .args args ⟨c.trans, pushMap args c.maps⟩ (temps args ++ hid) ∧
        Ok ext .nothing body ⟨table args :: c.trans, pushMap args c.maps⟩
          (hid.filter fun z => z ∉ params args) := h
      obtain ⟨s', L', corr', hx, hL, hc, hA, hm, hS⟩ := goodA_call iha.2.2 stk hn h1 S A
      obtain ⟨s'', hv', hx', hA', hm'⟩ :=
        ihb.2.1 _ _ _ L' corr' _ s' stk h2 hS hA
      refine ⟨s'', hv', ?_, hA'.mono hL hc, Nat.le_trans hm hm'⟩
      show exec sel (gen ext args ⟨c.trans, pushMap args c.maps⟩ ++
        gen ext body ⟨table args :: c.trans, pushMap args c.maps⟩) (s, stk) = _
      rw [exec_then hx]; exact hx'
    · intro c hid env L corr st s stk h; exact h.elim
  | nil =>
    refine ⟨?_, ?_, ?_⟩
    · intro c hid env L corr st s stk h; exact h.elim
    · intro c hid env L corr st s stk h; exact h.elim
    · intro c hid env L corr st s stk _ S A _ _ _
      refine ⟨s, L, corr, rfl, fun a h => h, fun a _ => rfl, S.inj, S.depth, A, Nat.le_refl _, ?_, ?_,
        ?_⟩
      · intro x _; rfl
      · intro p hp; simp [temps] at hp
      · intro p hp; simp [table] at hp
  | arg p a r iha ihr =>
    refine ⟨?_, ?_, ?_⟩
    · intro c hid env L corr st s stk h; exact h.elim
    · intro c hid env L corr st s stk h; exact h.elim
    · intro c hid env L corr st s stk h S A hnd hnew hloc
      obtain ⟨hnp, hnr⟩ : p ∉ params r ∧ (params r).Nodup := List.nodup_cons.1 hnd
      cases hb : byRef a with
      | some x =>
        have ha : a = .var x := by
          cases a <;> simp [byRef] at hb
          rw [hb]
        subst ha
        obtain ⟨hvis, hok⟩ : Vis ext c hid x ∧ Ok ext .args r c hid := h
        have het : temps (.arg p (.var x) r : Tree V) = temps r := rfl
        have hta : table (.arg p (.var x) r : Tree V) = (p, x) :: table r := rfl
        rw [het] at hnew hloc
        obtain ⟨s', L', corr', hx, hL, hc, hinj, hd, hA, hm, h0, h1, h2⟩ :=
          ihr.2.2 c hid env L corr st s stk hok S A hnr hnew hloc
        have he : eval sel ext (.arg p (.var x) r) env st =
          ⟨none, (p, env (ext x)) :: (eval sel ext r env st).binds, (eval sel ext r env st).st⟩ := rfl
        refine ⟨s', L', corr', hx, hL, hc, hinj, hd, ?_, ?_, ?_, ?_, ?_⟩
        · rw [he]; exact hA
        · rw [he]; exact hm
        · intro y hy
          simp only [params, List.mem_cons, not_or] at hy
          have : (y == p) = false := by simpa using hy.1
          rw [he]
          simp only [List.lookup, this]
          exact h0 y hy.2
        · intro q hq
          rw [het] at hq
          obtain ⟨b, hb1, hb2, hb3⟩ := h1 q hq
          have hne : q ≠ p := fun e => hnp (e ▸ temps_sub r q hq)
          have : (q == p) = false := by simpa using hne
          refine ⟨b, ?_, hb2, hb3⟩
          rw [he]
          simp only [List.lookup, this]
          exact hb1
        · intro q hq
          rw [hta] at hq
          rw [hta, he]
          by_cases e : q = p
          · subst e
            exact ⟨x, by simp [List.lookup], by simp [List.lookup], hvis⟩
          · have hq' : q ∈ (table r).map (·.1) := by
              simp only [List.map_cons, List.mem_cons] at hq
              exact hq.resolve_left e
            obtain ⟨y, hy1, hy2, hy3⟩ := h2 q hq'
            have : (q == p) = false := by simpa using e
            refine ⟨y, ?_, ?_, hy3⟩
            · simp only [List.lookup, this]; exact hy1
            · simp only [List.lookup, this]; exact hy2
      | none =>
        obtain ⟨⟨hir, hoka, hpt, hep⟩, hok⟩ :
            (isRef a = none ∧ Ok ext .value a c hid ∧ p ∉ topKeys c.trans ∧ ext p = p) ∧
              Ok ext .args r c hid := by
          have h' : (match byRef a with
            | some x => Vis ext c hid x
            | none => isRef a = none ∧ Ok ext .value a c hid ∧ p ∉ topKeys c.trans ∧ ext p = p) ∧
              Ok ext .args r c hid := h
          rw [hb] at h'
          exact h'
        have het : temps (.arg p a r : Tree V) = p :: temps r := by simp [temps, hir]
        have hta : table (.arg p a r : Tree V) = table r := by simp [table, hir]
        rw [het] at hnew hloc
        obtain ⟨v, s1, en, hv, hx, hr, -, hA1, hm1⟩ := iha.1 c hid env L corr st s stk hoka S A
        have hres : resolve ext c p = .temp c.maps.length p := by
          show loc c.maps (ext (translate c.trans p)) = _
          rw [translate_of_not_mem hpt, hep]
          exact hloc p (List.mem_cons_self ..)
        obtain ⟨n, hn⟩ : ∃ n, n = (eval sel ext a env st).st.next := ⟨_, rfl⟩
        have hnL : ¬ L (.cell n) := fun h => by
          have := hA1.fresh n h; omega
        let L1 : Addr → Prop := fun b => L b ∨ b = .cell n
        let corr1 : Addr → Loc := fun b => if b = .cell n then .temp c.maps.length p else corr b
        have hc1 : ∀ b, L b → corr1 b = corr b := by
          intro b hb'
          have : b ≠ .cell n := fun e => hnL (e ▸ hb')
          simp [corr1, this]
        have hc1n : corr1 (.cell n) = .temp c.maps.length p := by simp [corr1]
        have hinj1 : ∀ b b', L1 b → L1 b' → corr1 b = corr1 b' → b = b' := by
          intro b b' hb1 hb2 e
          rcases hb1 with hb1 | hb1 <;> rcases hb2 with hb2 | hb2
          · rw [hc1 b hb1, hc1 b' hb2] at e
            exact S.inj b b' hb1 hb2 e
          · subst hb2
            rw [hc1 b hb1, hc1n] at e
            exact absurd e (hnew b hb1 p (List.mem_cons_self ..))
          · subst hb1
            rw [hc1 b' hb2, hc1n] at e
            exact absurd e.symm (hnew b' hb2 p (List.mem_cons_self ..))
          · rw [hb1, hb2]
        have S1 : Sim ext c hid env L1 corr1 :=
          { live := fun z => Or.inl (S.live z)
            inj := hinj1
            depth := by
              intro b d q hb1 e
              rcases hb1 with hb1 | hb1
              · rw [hc1 b hb1] at e; exact S.depth b d q hb1 e
              · subst hb1; rw [hc1n] at e; cases e; exact Nat.le_refl _
            free := fun z hz hh => by rw [hc1 _ (S.live z)]; exact S.free z hz hh
            ref := fun z hz hh => by rw [hc1 _ (S.live z)]; exact S.ref z hz hh }
        have A1 : Agree L1 corr1 ((eval sel ext a env st).st.alloc v)
            (write s1 (.temp c.maps.length p) v) :=
          { mem := by
              intro b hb1
              rcases hb1 with hb1 | hb1
              · have hne : b ≠ .cell n := fun e => hnL (e ▸ hb1)
                have hne' : corr b ≠ .temp c.maps.length p := hnew b hb1 p (List.mem_cons_self ..)
                rw [hc1 b hb1]
                simp only [write, St.alloc, ← hn, if_neg hne, if_neg hne']
                exact hA1.mem b hb1
              · subst hb1
                rw [hc1n]
                simp [write, St.alloc, ← hn]
            fresh := by
              intro m hm'
              show m < (eval sel ext a env st).st.next + 1
              rcases hm' with hm' | hm'
              · have := hA1.fresh m hm'; omega
              · cases hm'; omega }
        obtain ⟨s', L', corr', hx', hL', hc', hinj', hd', hA', hm', h0, h1, h2⟩ :=
          ihr.2.2 c hid env L1 corr1 _ _ stk hok S1 A1 hnr
            (by
              intro b hb1 q hq e
              rcases hb1 with hb1 | hb1
              · rw [hc1 b hb1] at e
                exact hnew b hb1 q (List.mem_cons_of_mem _ hq) e
              · subst hb1
                rw [hc1n] at e
                have hpq : p = q := by cases e; rfl
                exact hnp (hpq ▸ temps_sub r q hq))
            (fun q hq => hloc q (List.mem_cons_of_mem _ hq))
        have he : eval sel ext (.arg p a r) env st =
          ⟨none, (p, .cell n) :: (eval sel ext r env ((eval sel ext a env st).st.alloc v)).binds,
            (eval sel ext r env ((eval sel ext a env st).st.alloc v)).st⟩ := by
          simp [eval, hb, hv, ← hn]
        have hg : gen ext (.arg p a r) c =
            (gen ext a c ++ [.pop (resolve ext c p)]) ++ gen ext r c := by
          simp [gen, hir]
        refine ⟨s', L', corr', ?_, fun b hb1 => hL' b (Or.inl hb1),
          fun b hb1 => by rw [hc' b (Or.inl hb1), hc1 b hb1], hinj', hd', ?_, ?_, ?_, ?_, ?_⟩
        · rw [hg, List.append_assoc, exec_then hx]
          show exec sel (gen ext r c) (write s1 (resolve ext c p) (en.read s1), stk) = _
          rw [hres, hr]
          exact hx'
        · rw [he]; exact hA'
        · rw [he]
          have : (eval sel ext a env st).st.next ≤ ((eval sel ext a env st).st.alloc v).next :=
            Nat.le_succ _
          exact Nat.le_trans hm1 (Nat.le_trans this hm')
        · intro y hy
          simp only [params, List.mem_cons, not_or] at hy
          have : (y == p) = false := by simpa using hy.1
          rw [he]
          simp only [List.lookup, this]
          exact h0 y hy.2
        · intro q hq
          rw [het] at hq
          rw [he]
          by_cases e : q = p
          · subst e
            exact ⟨.cell n, by simp [List.lookup], hL' _ (Or.inr rfl),
              by rw [hc' _ (Or.inr rfl), hc1n]⟩
          · have hq' : q ∈ temps r := by
              rcases List.mem_cons.1 hq with h' | h'
              · exact absurd h' e
              · exact h'
            obtain ⟨b, hb1, hb2, hb3⟩ := h1 q hq'
            have : (q == p) = false := by simpa using e
            refine ⟨b, ?_, hb2, hb3⟩
            simp only [List.lookup, this]
            exact hb1
        · intro q hq
          rw [hta] at hq
          rw [hta, he]
          obtain ⟨y, hy1, hy2, hy3⟩ := h2 q hq
          have hne : q ≠ p := fun e => hnp (e ▸ table_keys_sub r q hq)
          have : (q == p) = false := by simpa using hne
          refine ⟨y, hy1, ?_, hy3⟩
          simp only [List.lookup, this]
          exact hy2

end Verif.Shader.Inline
