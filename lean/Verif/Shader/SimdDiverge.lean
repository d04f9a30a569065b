import Verif.Shader.SimdSim
import Mathlib.Tactic.ByContra
import Mathlib.Tactic.Choose

/-!
Lemmas for the property on varying control flow: independence of the bound on the depth, and runs
that do not end.
-/

namespace Verif.Shader.Simd

variable {V : Type} {n : Nat} {truth : V → Bool} {junk : Nat → Fin n → V} {prog : List (Instr V)}

theorem exec_mono : ∀ F (s : Stmt V) σ r, exec truth F s σ = some r → exec truth (F + 1) s σ = some r := by
  intro F
  induction F with
  | zero => intro s σ r h; cases h
  | succ F ih =>
    intro s σ r h
    cases s with
    | assign x e => exact h
    | expr e => exact h
    | seq a b =>
      rw [exec, Option.bind_eq_some_iff] at h ⊢
      obtain ⟨q, h1, h2⟩ := h
      refine ⟨q, ih _ _ _ h1, ?_⟩
      split_ifs at h2 ⊢ with hq
      · exact ih _ _ _ h2
      · exact h2
    | ifThen c t =>
      rw [exec] at h ⊢
      split_ifs at h ⊢ with hq
      · exact ih _ _ _ h
      · exact h
    | ifElse c t e =>
      rw [exec] at h ⊢
      split_ifs at h ⊢ with hq
      · exact ih _ _ _ h
      · exact ih _ _ _ h
    | loop c b inc =>
      rw [exec] at h ⊢
      split_ifs at h ⊢ with hq
      · rw [Option.bind_eq_some_iff] at h ⊢
        obtain ⟨⟨σ1, sg⟩, h1, h2⟩ := h
        refine ⟨(σ1, sg), ih _ _ _ h1, ?_⟩
        match sg, h2 with
        | .normal, h2 => exact ih _ _ _ h2
        | .cont 0, h2 => exact ih _ _ _ h2
        | .brk 0, h2 => exact h2
        | .brk (k + 1), h2 => exact h2
        | .cont (k + 1), h2 => exact h2
      · exact h
    | brk m => exact h
    | cont m => exact h

theorem exec_mono_le {F G : Nat} (hle : F ≤ G) {s : Stmt V} {σ r} (h : exec truth F s σ = some r) :
    exec truth G s σ = some r := by
  induction hle with
  | refl => exact h
  | step _ ih => exact exec_mono _ _ _ _ ih

/-- A bound for all points. -/
theorem common_fuel (P : Fin n → Nat → Prop) (hm : ∀ i F G, F ≤ G → P i F → P i G) (h : ∀ i, ∃ F, P i F) :
    ∃ F, ∀ i, P i F := by
  have : ∀ m : Nat, ∃ F, ∀ i : Fin n, i.val < m → P i F := by
    intro m
    induction m with
    | zero => exact ⟨0, fun i h => by omega⟩
    | succ m ih =>
      obtain ⟨F, hF⟩ := ih
      by_cases hmn : m < n
      · obtain ⟨G, hG⟩ := h ⟨m, hmn⟩
        refine ⟨max F G, fun i hi => ?_⟩
        by_cases he : i.val = m
        · have : i = ⟨m, hmn⟩ := Fin.ext he
          rw [this]; exact hm _ _ _ (by omega) hG
        · exact hm _ _ _ (by omega) (hF i (by omega))
      · exact ⟨F, fun i hi => hF i (by omega)⟩
  obtain ⟨F, hF⟩ := this n
  exact ⟨F, fun i => hF i i.2⟩

theorem runVM_reach {a b : VM V n} (h : Reach truth junk prog a b) (hb : prog.length ≤ b.pc) (hd : b.data = []) :
    ∃ k, runVM truth junk prog k a = .done b := by
  induction h with
  | refl s => exact ⟨0, by simp [runVM, Nat.not_lt.2 hb, hd]⟩
  | step h1 h2 _ ih =>
    obtain ⟨k, hk⟩ := ih hb hd
    refine ⟨k + 1, ?_⟩
    rw [runVM, h1]
    simp only [h2]
    exact hk

/-! ## Endless runs -/

/-- If `b` is reached from `a` and has not ended within `k` steps, neither has `a`. -/
theorem more_of_reach {a b : VM V n} (h : Reach truth junk prog a b) (k : Nat)
    (hb : ∀ j, j ≤ k → runVM truth junk prog j b = .more) : ∀ j, j ≤ k → runVM truth junk prog j a = .more := by
  induction h with
  | refl => exact hb
  | step h1 h2 _ ih =>
    intro j hj
    cases j with
    | zero =>
      have := (List.getElem?_eq_some_iff.1 h1).1
      simp [runVM, this]
    | succ j =>
      rw [runVM, h1]
      simp only [h2]
      exact ih hb j (by omega)

theorem more_reach {a b : VM V n} (h : Reach truth junk prog a b)
    (hb : ∀ j, runVM truth junk prog j b = .more) (k : Nat) : runVM truth junk prog k a = .more :=
  more_of_reach h k (fun j _ => hb j) k (Nat.le_refl _)

theorem step_more {a b : VM V n} {i} (h1 : prog[a.pc]? = some i) (h2 : exec1 truth junk prog a i = .ok b) (k : Nat)
    (hb : ∀ j, j ≤ k → runVM truth junk prog j b = .more) :
    ∀ j, j ≤ k + 1 → runVM truth junk prog j a = .more := by
  intro j hj
  cases j with
  | zero =>
    have := (List.getElem?_eq_some_iff.1 h1).1
    simp [runVM, this]
  | succ j =>
    rw [runVM, h1]
    simp only [h2]
    exact hb j (by omega)

/-- Either a point does not terminate, or all results exist. -/
theorem pts_or (s : Stmt V) (R : Fin n → Bool) (σ : Nat → Fin n → V) :
    (∃ i, R i = true ∧ ∀ F, exec truth F s (fun x => σ x i) = none) ∨ ∃ F res, Pts truth F s R σ res := by
  by_cases h : ∀ i, R i = true → ∃ F r, exec truth F s (fun x => σ x i) = some r
  · right
    have h' : ∀ i, ∃ r : (Nat → V) × Sig, (R i = true → ∃ F, exec truth F s (fun x => σ x i) = some r) ∧
        (R i = false → r = (fun x => σ x i, .normal)) := by
      intro i
      cases hr : R i
      · exact ⟨(fun x => σ x i, .normal), (fun h => by cases h), fun _ => rfl⟩
      · obtain ⟨F, r, h1⟩ := h i hr
        exact ⟨r, fun _ => ⟨F, h1⟩, (fun h => by cases h)⟩
    choose res hres using h'
    obtain ⟨F, hF⟩ := common_fuel (fun i F => R i = true → exec truth F s (fun x => σ x i) = some (res i))
      (fun i F G hle hp hr => exec_mono_le hle (hp hr)) (fun i => by
        cases hr : R i
        · exact ⟨0, fun h => by cases h⟩
        · obtain ⟨F, hF⟩ := (hres i).1 hr
          exact ⟨F, fun _ => hF⟩)
    exact ⟨F, res, fun i => ⟨hF i, (hres i).2⟩⟩
  · left
    by_contra hne
    apply h
    intro i hr
    by_contra hx
    apply hne
    refine ⟨i, hr, fun F => ?_⟩
    cases he : exec truth F s (fun x => σ x i) with
    | none => rfl
    | some r => exact absurd ⟨F, r, he⟩ hx

/-- If the statement does not end at a running point, the machine goes on for ever. -/
theorem diverge (hn : (labels prog).Nodup) (s : Stmt V) : ∀ ds l code l' pc, compS s ds l = some (code, l') →
    s.Counted → (∀ d ∈ ds, 1 ≤ d) → At prog pc code → ∀ D σ cur R stk tick, ds.sum ≤ stk.length →
    (∃ i, R i = true ∧ ∀ F, exec truth F s (fun x => σ x i) = none) →
    ∀ k, runVM truth junk prog k ⟨pc, D, σ, cur, R, any R, stk, tick⟩ = .more := by
  induction s with
  | assign x e =>
    intro ds l code l' pc hc hs hd h D σ cur R stk tick hl ⟨i, _, hi⟩
    have := hi 1; simp [exec] at this
  | expr e =>
    intro ds l code l' pc hc hs hd h D σ cur R stk tick hl ⟨i, _, hi⟩
    have := hi 1; simp [exec] at this
  | brk m =>
    intro ds l code l' pc hc hs hd h D σ cur R stk tick hl ⟨i, _, hi⟩
    have := hi 1; simp [exec] at this
  | cont m =>
    intro ds l code l' pc hc hs hd h D σ cur R stk tick hl ⟨i, _, hi⟩
    have := hi 1; simp [exec] at this
  | seq a b iha ihb =>
    intro ds l code l' pc hc hs hd h D σ cur R stk tick hl ⟨i, hri, hi⟩
    simp only [compS, Option.bind_eq_some_iff, Option.map_eq_some_iff, Prod.mk.injEq] at hc
    obtain ⟨⟨ca, la⟩, ha, ⟨cb, lb⟩, hb, rfl, rfl⟩ := hc
    obtain ⟨h1, h2⟩ := h.app
    rcases pts_or (truth := truth) a R σ with hdiv | ⟨F, res, hp⟩
    · exact iha ds l ca la pc ha hs.1 hd h1 D σ cur R stk tick hl hdiv
    · obtain ⟨cur1, t1, r1⟩ := (simS (truth := truth) (junk := junk) hn F).1 a ds l ca la pc ha hs.1 hd h1 D σ cur R stk tick res hl hp
      refine more_reach r1 ?_
      have hres := (hp i).1 hri
      have hnorm : (res i).2 = .normal := by
        by_contra hne
        have := hi (F + 1)
        rw [exec, hres, Option.bind_some, if_neg hne] at this
        cases this
      refine ihb ds la cb lb _ hb hs.2 hd h2 D _ cur1 _ _ t1 (by rw [escape_length]; exact hl) ⟨i, by simp [hri, hnorm], ?_⟩
      intro G
      cases hG : exec truth G b (fun x => (res i).1 x) with
      | none => rfl
      | some r =>
        have := hi (max F G + 1)
        rw [exec, exec_mono_le (Nat.le_max_left F G) hres, Option.bind_some, if_pos hnorm,
          exec_mono_le (Nat.le_max_right F G) hG] at this
        cases this
  | ifThen c t ih =>
    intro ds l code l' pc hc hs hd h D σ cur R stk tick hl ⟨i, hri, hi⟩
    simp only [compS, Option.map_eq_some_iff, Prod.mk.injEq] at hc
    obtain ⟨⟨ct, lt⟩, ht, rfl, rfl⟩ := hc
    obtain ⟨t1, r1⟩ := simC (truth := truth) (junk := junk) c _ pc h D σ cur R stk tick
    obtain ⟨_, h⟩ := h.cons
    obtain ⟨_, h⟩ := h.app
    obtain ⟨_, h⟩ := h.cons
    obtain ⟨h1, h⟩ := h.cons
    obtain ⟨h2, h⟩ := h.cons
    obtain ⟨h3, h⟩ := h.cons
    obtain ⟨h4, _⟩ := h.app
    have hti : truth (c.eval truth fun x => σ x i) = true := by
      by_contra hne
      have := hi 1
      rw [exec, if_neg hne] at this
      cases this
    have hany : any (fun i => R i && truth (c.eval truth fun x => σ x i)) = true := any_of (i := i) (by simp [hri, hti])
    refine more_reach (r1.trans (.step h1.get rfl (.step h2.get rfl (.one h3.get (s' := ⟨pc + 1 + (compE c).length + 1 + 1 + 1 + 1, D, σ,
      fun i => R i && truth (c.eval truth fun x => σ x i), fun i => R i && truth (c.eval truth fun x => σ x i),
      any (fun i => R i && truth (c.eval truth fun x => σ x i)), R :: stk, t1 + 1 + 1 + 1⟩) ?_)))) ?_
    · show (if any _ = true then _ else _) = _
      rw [if_pos hany]
    · refine ih _ _ _ _ _ ht hs (bump_pos hd) h4 D σ _ _ _ _ (by
        have := sum_bump_le ds
        simp only [List.length_cons]; omega) ⟨i, by simp [hri, hti], ?_⟩
      intro F
      have := hi (F + 1)
      rwa [exec, if_pos hti] at this
  | ifElse c t e iht ihe =>
    intro ds l code l' pc hc hs hd h D σ cur R stk tick hl ⟨i, hri, hi⟩
    simp only [compS, Option.bind_eq_some_iff, Option.map_eq_some_iff, Prod.mk.injEq] at hc
    obtain ⟨⟨ct, lt⟩, ht, ⟨ce, le⟩, he, rfl, rfl⟩ := hc
    obtain ⟨t1, r1⟩ := simC (truth := truth) (junk := junk) c _ pc h D σ cur R stk tick
    obtain ⟨_, h⟩ := h.cons
    obtain ⟨_, h⟩ := h.app
    obtain ⟨_, h⟩ := h.cons
    obtain ⟨h1, h⟩ := h.cons
    obtain ⟨h2, h⟩ := h.cons
    have h3 := h
    obtain ⟨h3a, h⟩ := h.cons
    obtain ⟨h3b, h⟩ := h.app
    obtain ⟨h4, h⟩ := h.cons
    obtain ⟨h5, h⟩ := h.cons
    obtain ⟨h6, h⟩ := h.cons
    obtain ⟨h7, _⟩ := h.app
    have hsum := sum_bump_le ds
    generalize hT : (fun i => R i && truth (c.eval truth fun x => σ x i)) = T at r1
    have hT1 : ∀ i, T i = (R i && truth (c.eval truth fun x => σ x i)) := fun i => by rw [← hT]
    rcases pts_or (truth := truth) t T σ with hdiv | ⟨F, res, hp⟩
    · have hany : any T = true := by obtain ⟨j, hj, _⟩ := hdiv; exact any_of hj
      refine more_reach (r1.trans (.step h1.get rfl (.step h2.get rfl (.one h3a.get
        (s' := ⟨pc + 1 + (compE c).length + 1 + 1 + 1 + 1, D, σ, T, T, any T,
        R :: stk, t1 + 1 + 1 + 1⟩) ?_)))) ?_
      · show (if any T = true then _ else _) = _
        rw [if_pos hany]
      · exact iht _ _ _ _ _ ht hs.1 (bump_pos hd) h3b D σ _ _ _ _ (by simp only [List.length_cons]; omega) hdiv
    · have hti : truth (c.eval truth fun x => σ x i) = false := by
        cases hx : truth (c.eval truth fun x => σ x i)
        · rfl
        · have h0 := (hp i).1 (by rw [hT1, hri, hx]; rfl)
          have := hi (F + 1)
          rw [exec, if_pos hx, h0] at this
          cases this
      obtain ⟨cur2, t2, r2⟩ := simBranch (simS (truth := truth) (junk := junk) hn F).1 hn t (bump ds) (l + 2) ct lt _ (l + 1) _ ht hs.1
        (bump_pos hd) h3 h4 D σ T T (R :: stk) (t1 + 1 + 1) res (by simp only [List.length_cons]; omega) hp
      have hres : res i = (fun x => σ x i, .normal) := (hp i).2 (by rw [hT1, hti]; simp)
      let E : Fin n → Bool := fun i => !(T i && decide ((res i).2 = .normal)) &&
        (R i && decide (lev (bump ds) (res i).2 = 0))
      have hEi : E i = true := by
        show (!(T i && decide ((res i).2 = .normal)) && (R i && decide (lev (bump ds) (res i).2 = 0))) = true
        rw [hres, hT1, hri, hti]; simp [lev]
      have hany : any E = true := any_of hEi
      refine more_reach (r1.trans (.step h1.get rfl (.step h2.get rfl (r2.trans (.step h4.get rfl
        (.step h5.get (s' := ⟨pc + 1 + (compE c).length + 1 + 1 + 1 + 1 + ct.length + 1 + 1, D, fun x i => (res i).1 x, cur2, E, any E,
          escape (fun i => lev (bump ds) (res i).2) (R :: stk), t2 + 1 + 1⟩) rfl
        (.one h6.get (s' := ⟨pc + 1 + (compE c).length + 1 + 1 + 1 + 1 + ct.length + 1 + 1 + 1, D, fun x i => (res i).1 x, cur2, E, any E,
          escape (fun i => lev (bump ds) (res i).2) (R :: stk), t2 + 1 + 1 + 1⟩) ?_))))))) ?_
      · show (if any E = true then _ else _) = _
        rw [if_pos hany]
      · refine ihe _ _ _ _ _ he hs.2 (bump_pos hd) h7 D _ _ _ _ _ (by
          rw [escape_length]; simp only [List.length_cons]; omega) ⟨i, hEi, ?_⟩
        intro F
        have := hi (F + 1)
        rw [exec, if_neg (by simp [hti])] at this
        rw [hres]; exact this
  | loop c b inc ih =>
    intro ds l code l' pc hc hs hd h D σ cur R stk tick hl hdiv
    simp only [compS, Option.map_eq_some_iff, Prod.mk.injEq] at hc
    obtain ⟨⟨cb, lb⟩, hb, rfl, rfl⟩ := hc
    obtain ⟨h0, hA⟩ := h.cons
    refine more_reach (.one h0.get rfl) ?_
    have key : ∀ k, ∀ σ cur R saved stk tick, ds.sum ≤ stk.length →
        (∃ i, R i = true ∧ ∀ F, exec truth F (.loop c b inc) (fun x => σ x i) = none) →
        ∀ j, j ≤ k → runVM truth junk prog j ⟨pc + 1, D, σ, cur, R, any R, saved :: stk, tick⟩ = .more := by
      intro k
      induction k with
      | zero =>
        intro σ cur R saved stk tick hl hdiv j hj
        have : j = 0 := by omega
        subst this
        have := (List.getElem?_eq_some_iff.1 hA.get).1
        simp [runVM, this]
      | succ k ihk =>
        intro σ cur R saved stk tick hl ⟨i, hri, hi⟩
        have hti : truth (c.eval truth fun x => σ x i) = true := by
          by_contra hne
          have := hi 1
          rw [exec, if_neg hne] at this
          cases this
        have hany : any (fun i => R i && truth (c.eval truth fun x => σ x i)) = true := any_of (i := i) (by simp [hri, hti])
        refine step_more (b := ⟨pc + 1 + 1, D, σ, cur, R, any R, saved :: stk, tick + 1⟩) hA.get rfl k ?_
        have hlen : (1 :: bump ds).sum ≤ stk.length + 2 := by
          have := sum_bump_le ds
          simp only [List.sum_cons]; omega
        rcases pts_or (truth := truth) b (fun i => R i && truth (c.eval truth fun x => σ x i)) σ with hdiv | ⟨F, resB, hp⟩
        · -- the body goes on for ever
          obtain ⟨_, h⟩ := hA.cons
          obtain ⟨t1, r1⟩ := simC (truth := truth) (junk := junk) c _ _ h D σ cur R (saved :: stk) (tick + 1)
          obtain ⟨_, h⟩ := h.cons
          obtain ⟨_, h⟩ := h.app
          obtain ⟨_, h⟩ := h.cons
          obtain ⟨h2, h⟩ := h.cons
          obtain ⟨h3, h⟩ := h.cons
          obtain ⟨h4, h⟩ := h.cons
          obtain ⟨hbody, _⟩ := h.app
          intro j _
          let T : Fin n → Bool := fun i => R i && truth (c.eval truth fun x => σ x i)
          refine more_reach (b := ⟨pc + 1 + 1 + 1 + (compE c).length + 1 + 1 + 1 + 1, D, σ, T, T, any T,
            T :: saved :: stk, t1 + 1 + 1 + 1⟩) (r1.trans (.step h2.get (s' := ⟨pc + 1 + 1 + 1 + (compE c).length + 1 + 1, D, σ,
              T, R, any R, saved :: stk, t1 + 1⟩) ?_
            (.step h3.get rfl (.one h4.get rfl)))) ?_ j
          · show (if any _ = true then _ else _) = _
            rw [if_pos hany]
          · exact ih _ _ _ _ _ hb hs
              (by intro d hd'; rcases List.mem_cons.1 hd' with rfl | h
                  · omega
                  · exact bump_pos hd d h)
              hbody D σ _ _ _ _ (by simp only [List.length_cons]; omega) hdiv
        · obtain ⟨cur', t', r⟩ := simIter (simS (truth := truth) (junk := junk) hn F).1 hn c b inc ds l cb lb (pc + 1) hb hs hd hA
            D σ cur R saved stk (tick + 1) resB hany hl hp
          have he := (hp i).1 (by simp [hri, hti])
          have hsig : (resB i).2 = .normal ∨ (resB i).2 = .cont 0 := by
            have h1 := hi (F + 1)
            rw [exec, if_pos hti, he, Option.bind_some] at h1
            match hsg : (resB i).2 with
            | .normal => exact .inl rfl
            | .cont 0 => exact .inr rfl
            | .brk 0 => rw [hsg] at h1; cases h1
            | .brk (k + 1) => rw [hsg] at h1; cases h1
            | .cont (k + 1) => rw [hsg] at h1; cases h1
          have hNi : ((R i && truth (c.eval truth fun x => σ x i)) &&
              decide (lev (1 :: bump ds) (resB i).2 = 0)) = true := by
            rcases hsig with h | h <;> simp [hri, hti, h, lev]
          refine more_of_reach r k (ihk _ _ _ _ _ _ (by rw [escape_length]; exact hl) ⟨i, hNi, ?_⟩)
          intro G
          simp only [hNi, if_true]
          cases hG : exec truth G (.loop c b inc) (incr truth inc (fun x => (resB i).1 x)) with
          | none => rfl
          | some r =>
            have h1 := hi (max F G + 1)
            have h2 := exec_mono_le (Nat.le_max_right F G) hG
            rw [exec, if_pos hti, exec_mono_le (Nat.le_max_left F G) he, Option.bind_some] at h1
            rcases hsig with h | h <;>
            · rw [h] at h1
              have h3 : exec truth (max F G) (.loop c b inc) (incr truth inc (resB i).1) = none := h1
              rw [h3] at h2; cases h2
    intro k
    exact key k σ cur R R stk (tick + 1) hl hdiv k (Nat.le_refl _)

theorem at_self (code : List (Instr V)) : At code 0 code := ⟨[], [], by simp, rfl⟩

end Verif.Shader.Simd
