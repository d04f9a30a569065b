import Verif.Shader.SimdLemmas

/-!
The machine follows the meaning of a shader at all points: simulation lemmas.
-/

namespace Verif.Shader.Simd

variable {V : Type} {n : Nat} {truth : V → Bool} {junk : Nat → Fin n → V} {prog : List (Instr V)}

/-- `res` is what the statement does at the points of `R`; the others stay as they are. -/
def Pts (truth : V → Bool) (F : Nat) (s : Stmt V) (R : Fin n → Bool) (σ : Nat → Fin n → V)
    (res : Fin n → (Nat → V) × Sig) : Prop :=
  ∀ i, (R i = true → exec truth F s (fun x => σ x i) = some (res i)) ∧
    (R i = false → res i = (fun x => σ x i, .normal))

/-- The state after the statement. -/
def after (pc : Nat) (D : List (Fin n → V)) (cur R : Fin n → Bool) (stk : List (Fin n → Bool))
    (tick : Nat) (ds : List Nat) (res : Fin n → (Nat → V) × Sig) : VM V n :=
  ⟨pc, D, fun x i => (res i).1 x, cur, fun i => R i && decide ((res i).2 = .normal),
    any fun i => R i && decide ((res i).2 = .normal), escape (fun i => lev ds (res i).2) stk, tick⟩

/-- The statement is done by its code. -/
def Does (truth : V → Bool) (junk : Nat → Fin n → V) (prog : List (Instr V)) (F : Nat) : Prop :=
  ∀ (s : Stmt V) ds l code l' pc, compS s ds l = some (code, l') → s.Counted →
    (∀ d ∈ ds, 1 ≤ d) → At prog pc code → ∀ D σ cur R stk tick res, ds.sum ≤ stk.length →
    Pts truth F s R σ res → ∃ cur' tick',
      Reach truth junk prog ⟨pc, D, σ, cur, R, any R, stk, tick⟩
        (after (pc + code.length) D cur' R stk tick' ds res)

/-- Evaluation of a condition. -/
theorem simC (c : Expr V) (rest) (pc) (h : At prog pc (.sClear :: (compE c ++ .sGet :: rest))) (D σ cur R stk tick) :
    ∃ t', Reach truth junk prog ⟨pc, D, σ, cur, R, any R, stk, tick⟩
      ⟨pc + 1 + (compE c).length + 1, D, σ, fun i => R i && truth (c.eval truth fun x => σ x i), R,
        any R, stk, t'⟩ := by
  obtain ⟨h0, h⟩ := h.cons
  obtain ⟨hc, h⟩ := h.app
  obtain ⟨v, cu1, t1, r1, hv, hcu1⟩ := simE (truth := truth) (junk := junk) c _ hc D σ (fun _ => false) R stk (tick + 1)
  have hcc : (fun i => R i && truth (c.eval truth fun x => σ x i)) =
      (if any R then fun i => if R i then truth (v i) else cu1 i else cu1) := by
    funext i
    by_cases hr : R i = true
    · rw [any_of hr]; simp [hr, hv i hr]
    · have hcf : cu1 i = false := by
        cases hx : cu1 i
        · rfl
        · rcases hcu1 i hx with h | h
          · cases h
          · exact absurd h hr
      split_ifs <;> simp [hr, hcf]
  refine ⟨t1 + 1, ?_⟩
  rw [hcc]
  exact .trans (.one h0.get rfl) (.trans r1 (.one h.get rfl))

/-- A statement that is skipped if no point is running. -/
theorem simBranch {F} (ih : Does truth junk prog F) (hn : (labels prog).Nodup) (s : Stmt V) (ds l code l' pc L rest)
    (hc : compS s ds l = some (code, l')) (hs : s.Counted) (hd : ∀ d ∈ ds, 1 ≤ d)
    (h : At prog pc (.rsJz L :: (code ++ rest))) (hL : At prog (pc + 1 + code.length) [.label L])
    (D σ cur R stk tick res) (hl : ds.sum ≤ stk.length) (hp : Pts truth F s R σ res) :
    ∃ cur' tick', Reach truth junk prog ⟨pc, D, σ, cur, R, any R, stk, tick⟩
        (after (pc + 1 + code.length) D cur' R stk tick' ds res) := by
  obtain ⟨h0, h⟩ := h.cons
  obtain ⟨h1, h⟩ := h.app
  by_cases ha : any R = true
  · obtain ⟨cur', tick', r⟩ := ih s ds l code l' (pc + 1) hc hs hd h1 D σ cur R stk (tick + 1) res hl hp
    refine ⟨cur', tick', .trans (.one h0.get ?_) r⟩
    show (if any R = true then _ else _) = _
    rw [if_pos ha]
  · have hR : ∀ i, R i = false := (any_false R).1 (by simpa using ha)
    have hres : ∀ i, res i = (fun x => σ x i, .normal) := fun i => (hp i).2 (hR i)
    refine ⟨cur, tick + 1, .one h0.get ?_⟩
    show (if any R = true then _ else _) = _
    rw [if_neg ha]
    simp only [VM.jump, hL.label hn, after, hres, lev, escape_zero, decide_true, Bool.and_true]

theorem sum_bump_le (ds : List Nat) : (bump ds).sum ≤ ds.sum + 1 := by
  cases ds <;> simp [bump]; omega

theorem bump_pos {ds : List Nat} (h : ∀ d ∈ ds, 1 ≤ d) : ∀ d ∈ bump ds, 1 ≤ d := by
  cases ds with
  | nil => exact h
  | cons a ds =>
    intro d hd
    simp only [bump, List.mem_cons] at hd
    rcases hd with rfl | hd
    · omega
    · exact h d (by simp [hd])

/-- The loop, from its label on. -/
def DoesLoop (truth : V → Bool) (junk : Nat → Fin n → V) (prog : List (Instr V)) (F : Nat) : Prop :=
  ∀ (c : Expr V) (b : Stmt V) inc ds l cb lb pc, compS b (1 :: bump ds) (l + 2) = some (cb, lb) → b.Counted →
    (∀ d ∈ ds, 1 ≤ d) →
    At prog pc (.label l :: .sClear :: (compE c ++ (.sGet :: .sJz (l + 1) :: .rsGet :: .rsPush ::
        (cb ++ (.rsPop :: (compInc inc ++ [.jmp l, .label (l + 1), .rsPop])))))) →
    ∀ D σ cur R saved stk tick res, ds.sum ≤ stk.length → Pts truth F (.loop c b inc) R σ res →
    ∃ cur' tick',
      Reach truth junk prog ⟨pc, D, σ, cur, R, any R, saved :: stk, tick⟩
        (after (pc + 1 + 1 + (compE c).length + 1 + 1 + 1 + 1 + cb.length + 1 + (compInc inc).length + 1 + 1 + 1)
          D cur' saved stk tick' ds res)

/-- The incrementor. -/
theorem simInc (inc : Option (Nat × Expr V)) (pc) (h : At prog pc (compInc inc)) (D σ cur R stk tick) :
    ∃ cur' tick', Reach truth junk prog ⟨pc, D, σ, cur, R, any R, stk, tick⟩
      ⟨pc + (compInc inc).length, D,
        fun x i => if R i then incr truth inc (fun x => σ x i) x else σ x i, cur', R, any R, stk, tick'⟩ := by
  cases inc with
  | none =>
    refine ⟨cur, tick, ?_⟩
    have : (fun x i => if R i = true then incr truth none (fun x => σ x i) x else σ x i) = σ := by
      funext x i; simp [incr]
    rw [this]
    exact .refl _
  | some p =>
    obtain ⟨x, e⟩ := p
    obtain ⟨h0, h1⟩ := At.app (show At prog pc (compE e ++ [.pop x]) from h)
    obtain ⟨v, cur', t', r, hv, _⟩ := simE (truth := truth) (junk := junk) e _ h0 D σ cur R stk tick
    refine ⟨cur', t' + 1, ?_⟩
    have e1 : pc + (compInc (some (x, e))).length = pc + (compE e).length + 1 := by
      simp [compInc]; omega
    rw [e1]
    refine r.trans (.one h1.get ?_)
    show Res.ok _ = Res.ok _
    congr 2
    show (if any R = true then (fun y i => if y = x then (if n ≤ 1 ∨ R i = true then v i else σ y i) else σ y i)
      else σ) = _
    funext y i
    by_cases ha : any R = true
    · rw [if_pos ha]
      have : (n ≤ 1 ∨ R i = true) ↔ R i = true := by
        refine ⟨fun h => ?_, .inr⟩
        rcases h with h | h
        · obtain ⟨j, hj⟩ := (any_iff R).1 ha
          have : j = i := by apply Fin.ext; omega
          rwa [this] at hj
        · exact h
      simp only [this, incr, upd]
      by_cases hr : R i = true
      · simp [hr, hv i hr]
      · simp [hr]
    · rw [if_neg ha]
      have := (any_false R).1 (by simpa using ha) i
      simp [this]

/-- Assignment statements. -/
theorem simAssign (x : Nat) (e : Expr V) (pc) (h : At prog pc (compE e ++ [.pop x])) (D σ cur R stk tick) :
    ∃ cur' tick', Reach truth junk prog ⟨pc, D, σ, cur, R, any R, stk, tick⟩
      ⟨pc + (compE e ++ [Instr.pop x]).length, D,
        fun y i => if R i then upd (fun x => σ x i) x (e.eval truth (fun x => σ x i)) y else σ y i,
        cur', R, any R, stk, tick'⟩ := simInc (some (x, e)) pc h D σ cur R stk tick

/-- The loop ends when no point goes on. -/
theorem simLoopExit (hn : (labels prog).Nodup) (c : Expr V) (inc : Option (Nat × Expr V)) (ds l) (cb : List (Instr V)) (pc)
    (h : At prog pc (.label l :: .sClear :: (compE c ++ (.sGet :: .sJz (l + 1) :: .rsGet :: .rsPush ::
        (cb ++ (.rsPop :: (compInc inc ++ [.jmp l, .label (l + 1), .rsPop])))))))
    (D σ cur R saved stk tick) (res : Fin n → (Nat → V) × Sig)
    (hT : ∀ i, R i = true → truth (c.eval truth fun x => σ x i) = false)
    (hres : ∀ i, res i = (fun x => σ x i, .normal)) :
    ∃ cur' tick',
      Reach truth junk prog ⟨pc, D, σ, cur, R, any R, saved :: stk, tick⟩
        (after (pc + 1 + 1 + (compE c).length + 1 + 1 + 1 + 1 + cb.length + 1 + (compInc inc).length + 1 + 1 + 1)
          D cur' saved stk tick' ds res) := by
  obtain ⟨h0, h⟩ := h.cons
  obtain ⟨t1, r1⟩ := simC (truth := truth) (junk := junk) c _ _ h D σ cur R (saved :: stk) (tick + 1)
  obtain ⟨_, h⟩ := h.cons
  obtain ⟨_, h⟩ := h.app
  obtain ⟨_, h⟩ := h.cons
  obtain ⟨h2, h⟩ := h.cons
  obtain ⟨h3, h⟩ := h.cons
  obtain ⟨h4, h⟩ := h.cons
  obtain ⟨hb, h⟩ := h.app
  obtain ⟨h5, h⟩ := h.cons
  obtain ⟨hi, h⟩ := h.app
  obtain ⟨h6, h⟩ := h.cons
  obtain ⟨h7, h8⟩ := h.cons
  have hT' : (fun i => R i && truth (c.eval truth fun x => σ x i)) = fun _ => false := by
    funext i
    cases hr : R i
    · rfl
    · rw [hT i hr]; rfl
  rw [hT'] at r1
  refine ⟨fun _ => false, t1 + 1 + 1 + 1, .step h0.get rfl (r1.trans ?_)⟩
  refine .step h2.get (s' := ⟨pc + 1 + 1 + (compE c).length + 1 + 1 + 1 + 1 + cb.length + 1 +
    (compInc inc).length + 1, D, σ, fun _ => false, R, any R, saved :: stk, t1 + 1⟩) ?_ ?_
  · show (if any (fun _ : Fin n => false) = true then _ else _) = _
    rw [if_neg (by simp [any])]
    simp only [VM.jump, h7.label hn]
  refine .trans (.one h7.get rfl) (.one h8.get ?_)
  simp only [after, hres, lev, escape_zero, decide_true, Bool.and_true]
  rfl

/-- One round of the loop, after its label: `resB` is what the body does. -/
theorem simIter {F} (ih : Does truth junk prog F) (hn : (labels prog).Nodup) (c : Expr V) (b : Stmt V)
    (inc : Option (Nat × Expr V)) (ds l cb lb pc) (hc : compS b (1 :: bump ds) (l + 2) = some (cb, lb)) (hs : b.Counted)
    (hd : ∀ d ∈ ds, 1 ≤ d)
    (hA : At prog pc (.label l :: .sClear :: (compE c ++ (.sGet :: .sJz (l + 1) :: .rsGet :: .rsPush ::
        (cb ++ (.rsPop :: (compInc inc ++ [.jmp l, .label (l + 1), .rsPop])))))))
    (D σ cur R saved stk tick) (resB : Fin n → (Nat → V) × Sig)
    (ha : any (fun i => R i && truth (c.eval truth fun x => σ x i)) = true) (hl : ds.sum ≤ stk.length)
    (hpB : Pts truth F b (fun i => R i && truth (c.eval truth fun x => σ x i)) σ resB) :
    let N : Fin n → Bool := fun i => (R i && truth (c.eval truth fun x => σ x i)) &&
      decide (lev (1 :: bump ds) (resB i).2 = 0)
    ∃ cur' t', Reach truth junk prog ⟨pc + 1, D, σ, cur, R, any R, saved :: stk, tick⟩
      ⟨pc, D, fun x i => if N i then incr truth inc (fun x => (resB i).1 x) x else (resB i).1 x, cur', N, any N,
        (fun i => saved i && decide (lev (1 :: bump ds) (resB i).2 - 1 = 0)) ::
          escape (fun i => lev (1 :: bump ds) (resB i).2 - 1 - 1) stk, t'⟩ := by
  intro N
  obtain ⟨h0, h⟩ := hA.cons
  obtain ⟨t1, r1⟩ := simC (truth := truth) (junk := junk) c _ _ h D σ cur R (saved :: stk) tick
  obtain ⟨_, h⟩ := h.cons
  obtain ⟨_, h⟩ := h.app
  obtain ⟨_, h⟩ := h.cons
  obtain ⟨h2, h⟩ := h.cons
  obtain ⟨h3, h⟩ := h.cons
  obtain ⟨h4, h⟩ := h.cons
  obtain ⟨hb, h⟩ := h.app
  obtain ⟨h5, h⟩ := h.cons
  obtain ⟨hi, h⟩ := h.app
  obtain ⟨h6, h⟩ := h.cons
  have hN : N = fun i => (R i && truth (c.eval truth fun x => σ x i)) &&
      decide (lev (1 :: bump ds) (resB i).2 = 0) := rfl
  clear_value N
  generalize hT : (fun i => R i && truth (c.eval truth fun x => σ x i)) = T at r1 hpB ha
  have hTi : ∀ i, (R i && truth (c.eval truth fun x => σ x i)) = T i := fun i => by rw [← hT]
  simp only [hTi] at hN
  have hlen : (1 :: bump ds).sum ≤ (T :: saved :: stk).length := by
    have := sum_bump_le ds
    simp only [List.sum_cons, List.length_cons]; omega
  obtain ⟨cur2, t2, r2⟩ := ih b _ _ _ _ _ hc hs
    (by intro d hd'; rcases List.mem_cons.1 hd' with rfl | h
        · omega
        · exact bump_pos hd d h)
    hb D σ T T (T :: saved :: stk) (t1 + 1 + 1 + 1) resB hlen hpB
  obtain ⟨cur3, t3, r3⟩ := simInc (truth := truth) (junk := junk) inc _ hi D (fun x i => (resB i).1 x) cur2 N
    ((fun i => saved i && decide (lev (1 :: bump ds) (resB i).2 - 1 = 0)) ::
          escape (fun i => lev (1 :: bump ds) (resB i).2 - 1 - 1) stk) (t2 + 1)
  refine ⟨cur3, t3 + 1, r1.trans ?_⟩
  refine .step h2.get (s' := ⟨pc + 1 + 1 + (compE c).length + 1 + 1, D, σ, T, R, any R, saved :: stk, t1 + 1⟩) ?_ ?_
  · show (if any T = true then _ else _) = _
    rw [if_pos ha]
  refine .trans (.one h3.get rfl) (.trans (.one h4.get rfl) (.trans r2 ?_))
  refine .step h5.get (s' := ⟨pc + 1 + 1 + (compE c).length + 1 + 1 + 1 + 1 + cb.length + 1, D,
    fun x i => (resB i).1 x, cur2, N, any N, (fun i => saved i && decide (lev (1 :: bump ds) (resB i).2 - 1 = 0)) ::
          escape (fun i => lev (1 :: bump ds) (resB i).2 - 1 - 1) stk, t2 + 1⟩) (by rw [hN]; rfl) ?_
  refine .trans r3 (.one h6.get ?_)
  show VM.jump prog _ l = _
  simp only [VM.jump, hA.label hn]

theorem simLoop {F} (ih : Does truth junk prog F) (ihl : DoesLoop truth junk prog F) (hn : (labels prog).Nodup) :
    DoesLoop truth junk prog (F + 1) := by
  intro c b inc ds l cb lb pc hc hs hd h D σ cur R saved stk tick res hl hp
  have hA := h
  obtain ⟨h0, h⟩ := h.cons
  generalize hT : (fun i => R i && truth (c.eval truth fun x => σ x i)) = T
  by_cases ha : any T = true
  · -- some point goes on
    let resB : Fin n → (Nat → V) × Sig := fun i =>
      if T i then ((exec truth F b (fun x => σ x i)).getD (fun x => σ x i, .normal)) else (fun x => σ x i, .normal)
    have hexec : ∀ i, T i = true → R i = true ∧ exec truth F b (fun x => σ x i) = some (resB i) ∧
        (match (resB i).2 with
        | .normal => exec truth F (.loop c b inc) (incr truth inc (resB i).1)
        | .cont 0 => exec truth F (.loop c b inc) (incr truth inc (resB i).1)
        | .brk 0 => some ((resB i).1, .normal)
        | .brk (k + 1) => some ((resB i).1, .brk k)
        | .cont (k + 1) => some ((resB i).1, .cont k)) = some (res i) := by
      intro i hti
      have hti' : (R i && truth (c.eval truth fun x => σ x i)) = true := by rw [← hT] at hti; exact hti
      rw [Bool.and_eq_true] at hti'
      have he := (hp i).1 hti'.1
      rw [exec, if_pos hti'.2, Option.bind_eq_some_iff] at he
      obtain ⟨r, hr, hr2⟩ := he
      have hB : resB i = r := by
        show (if T i then _ else _) = r
        rw [if_pos hti, hr]; rfl
      rw [hB]
      exact ⟨hti'.1, hr, hr2⟩
    have hnT : ∀ i, T i = false → resB i = (fun x => σ x i, .normal) := by
      intro i hti
      show (if T i then _ else _) = _
      rw [if_neg (by simp [hti])]
    have hnTres : ∀ i, T i = false → res i = (fun x => σ x i, .normal) := by
      intro i hti
      cases hr : R i
      · exact (hp i).2 hr
      · have hti' : (R i && truth (c.eval truth fun x => σ x i)) = false := by rw [← hT] at hti; exact hti
        rw [hr, Bool.true_and] at hti'
        have he := (hp i).1 hr
        rw [exec, if_neg (by simp [hti'])] at he
        simpa using he.symm
    have hpB : Pts truth F b T σ resB := fun i => ⟨fun h => (hexec i h).2.1, hnT i⟩
    have hwB : ∀ i, (resB i).2.Within (1 :: bump ds).length := by
      intro i
      cases hti : T i
      · rw [hnT i hti]; trivial
      · exact exec_within F b _ _ _ _ (resB i).1 _ hc hs (hexec i hti).2.1
    obtain ⟨cur3, t3, r3⟩ := simIter ih hn c b inc ds l cb lb pc hc hs hd hA D σ cur R saved stk (tick + 1) resB
      (by rw [hT]; exact ha) hl (by rw [hT]; exact hpB)
    have hT1 : ∀ i, (R i && truth (c.eval truth fun x => σ x i)) = T i := fun i => by rw [← hT]
    simp only [hT1] at r3
    -- the running state after the pop
    let N : Fin n → Bool := fun i => T i && decide (lev (1 :: bump ds) (resB i).2 = 0)
    let saved' : Fin n → Bool := fun i => saved i && decide (lev (1 :: bump ds) (resB i).2 - 1 = 0)
    let stk' := escape (fun i => lev (1 :: bump ds) (resB i).2 - 1 - 1) stk
    let res2 : Fin n → (Nat → V) × Sig := fun i => if N i then res i else ((resB i).1, .normal)
    have hN : ∀ i, N i = true → T i = true ∧ ((resB i).2 = .normal ∨ (resB i).2 = .cont 0) := by
      intro i hni
      have hni' : (T i && decide (lev (1 :: bump ds) (resB i).2 = 0)) = true := hni
      rw [Bool.and_eq_true, decide_eq_true_eq] at hni'
      refine ⟨hni'.1, ?_⟩
      have hw := hwB i
      have hlv := hni'.2
      rw [List.length_cons, bump_length] at hw
      match hsig : (resB i).2, hw, hlv with
      | .normal, _, _ => exact .inl rfl
      | .cont 0, _, _ => exact .inr rfl
      | .brk 0, _, hlv => simp [lev] at hlv
      | .brk (k + 1), hw, hlv =>
        rw [lev_loop_brk hd (by simp only [Sig.Within] at hw; omega)] at hlv; omega
      | .cont (k + 1), hw, hlv =>
        rw [lev_loop_cont hd (by simp only [Sig.Within] at hw; omega)] at hlv; omega
    have hN' : ∀ i, T i = true → N i = false →
        ((resB i).2 = .brk 0 ∧ res i = ((resB i).1, .normal)) ∨
        (∃ k, k < ds.length ∧ (resB i).2 = .brk (k + 1) ∧ res i = ((resB i).1, .brk k)) ∨
        (∃ k, k < ds.length ∧ (resB i).2 = .cont (k + 1) ∧ res i = ((resB i).1, .cont k)) := by
      intro i hti hni
      have hni' : (T i && decide (lev (1 :: bump ds) (resB i).2 = 0)) = false := hni
      rw [hti, Bool.true_and, decide_eq_false_iff_not] at hni'
      have hw := hwB i
      have he := (hexec i hti).2.2
      rw [List.length_cons, bump_length] at hw
      match hsig : (resB i).2, hw, hni' with
      | .normal, _, hx => exact absurd rfl hx
      | .cont 0, _, hx => exact absurd (by simp [lev]) hx
      | .brk 0, _, _ =>
        refine .inl ⟨rfl, ?_⟩
        rw [hsig] at he; simpa using he.symm
      | .brk (k + 1), hw, _ =>
        refine .inr (.inl ⟨k, by simp only [Sig.Within] at hw; omega, rfl, ?_⟩)
        rw [hsig] at he; simpa using he.symm
      | .cont (k + 1), hw, _ =>
        refine .inr (.inr ⟨k, by simp only [Sig.Within] at hw; omega, rfl, ?_⟩)
        rw [hsig] at he; simpa using he.symm
    have hp2 : Pts truth F (.loop c b inc) N
        (fun x i => if N i then incr truth inc (fun x => (resB i).1 x) x else (resB i).1 x) res2 := by
      intro i
      refine ⟨fun hni => ?_, fun hni => ?_⟩
      · obtain ⟨hti, hsig⟩ := hN i hni
        have he := (hexec i hti).2.2
        have e2 : res2 i = res i := by show (if N i then _ else _) = _; rw [if_pos hni]
        rw [e2]
        simp only [hni, if_true]
        rcases hsig with hsig | hsig <;> rw [hsig] at he <;> exact he
      · show (if N i then _ else _) = _
        rw [if_neg (by simp [hni])]
        simp [hni]
    have hlen2 : ds.sum ≤ stk'.length := by rw [escape_length]; exact hl
    obtain ⟨cur4, t4, r4⟩ := ihl c b inc ds l cb lb pc hc hs hd hA D _ cur3 N saved' stk' t3 res2 hlen2 hp2
    -- the final state
    have e1 : (fun x i => (res2 i).1 x) = fun x i => (res i).1 x := by
      funext x i
      show ((if N i then res i else ((resB i).1, .normal)) : (Nat → V) × Sig).1 x = _
      cases hni : N i
      · cases hti : T i
        · rw [if_neg (by simp), hnT i hti, hnTres i hti]
        · rw [if_neg (by simp)]
          rcases hN' i hti hni with ⟨_, h⟩ | ⟨k, _, _, h⟩ | ⟨k, _, _, h⟩ <;> rw [h]
      · rw [if_pos rfl]
    have e2 : (fun i => saved' i && decide ((res2 i).2 = .normal)) =
        fun i => saved i && decide ((res i).2 = .normal) := by
      funext i
      show ((saved i && decide (lev (1 :: bump ds) (resB i).2 - 1 = 0)) &&
        decide (((if N i then res i else ((resB i).1, .normal)) : (Nat → V) × Sig).2 = .normal)) = _
      cases hni : N i
      · rw [if_neg (by simp)]
        cases hti : T i
        · rw [hnT i hti, hnTres i hti]; simp [lev]
        · rcases hN' i hti hni with ⟨h1, h⟩ | ⟨k, hk, h1, h⟩ | ⟨k, hk, h1, h⟩ <;> rw [h, h1]
          · simp [lev]
          · rw [lev_loop_brk hd hk]; simp
          · rw [lev_loop_cont hd hk]; simp
      · rw [if_pos rfl]
        have hni' : (T i && decide (lev (1 :: bump ds) (resB i).2 = 0)) = true := hni
        rw [Bool.and_eq_true, decide_eq_true_eq] at hni'
        rw [hni'.2]; simp
    have e3 : escape (fun i => lev ds (res2 i).2) stk' = escape (fun i => lev ds (res i).2) stk := by
      show escape _ (escape _ stk) = _
      rw [escape_escape]
      congr 1
      funext i
      show max _ (lev ds ((if N i then res i else ((resB i).1, .normal)) : (Nat → V) × Sig).2) = _
      cases hni : N i
      · rw [if_neg (by simp)]
        cases hti : T i
        · rw [hnT i hti, hnTres i hti]; simp [lev]
        · rcases hN' i hti hni with ⟨h1, h⟩ | ⟨k, hk, h1, h⟩ | ⟨k, hk, h1, h⟩ <;> rw [h, h1]
          · simp [lev]
          · rw [lev_loop_brk hd hk]; simp [lev]
          · rw [lev_loop_cont hd hk]; simp [lev]
      · rw [if_pos rfl]
        have hni' : (T i && decide (lev (1 :: bump ds) (resB i).2 = 0)) = true := hni
        rw [Bool.and_eq_true, decide_eq_true_eq] at hni'
        rw [hni'.2]; simp
    refine ⟨cur4, t4, ?_⟩
    have r4' := r4
    simp only [after, e1, e2, e3] at r4'
    exact .step h0.get rfl (r3.trans r4')
  · have hT0 : ∀ i, T i = false := (any_false T).1 (by simpa using ha)
    have hres : ∀ i, res i = (fun x => σ x i, .normal) := by
      intro i
      cases hr : R i
      · exact (hp i).2 hr
      · have hti' : (R i && truth (c.eval truth fun x => σ x i)) = false := by
          have := hT0 i; rw [← hT] at this; exact this
        rw [hr, Bool.true_and] at hti'
        have he := (hp i).1 hr
        rw [exec, if_neg (by simp [hti'])] at he
        simpa using he.symm
    refine simLoopExit hn c inc ds l cb pc hA D σ cur R saved stk tick res (fun i hr => ?_) hres
    have := hT0 i; rw [← hT] at this
    simpa [hr] using this

theorem take_sum_le (ds : List Nat) (m : Nat) : (ds.take m).sum ≤ ds.sum := by
  induction ds generalizing m with
  | nil => simp
  | cons d ds ih =>
    cases m with
    | zero => simp
    | succ m =>
      have := ih m
      simp only [List.take_succ_cons, List.sum_cons]; omega

/-- Leaving loops. -/
theorem simBreak (pc) (k : Nat) (h : At prog pc [.rsBreak (k : Int)]) (D σ cur R stk tick) (hk : k ≤ stk.length) :
    Reach truth junk prog ⟨pc, D, σ, cur, R, any R, stk, tick⟩
      ⟨pc + 1, D, σ, cur, fun _ => false, false, escape (fun i => if R i then k else 0) stk, tick + 1⟩ := by
  refine .one h.get ?_
  show (if (k : Int) < 0 ∨ (1 + stk.length : Int) < k then _ else _) = _
  rw [if_neg (by omega)]
  show (if (stk.length : Int) < k then _ else _) = _
  rw [if_neg (by omega), ← maskTop_eq]
  rfl

theorem step_rsPop (pc) (D : List (Fin n → V)) (σ cur R b m stk t) :
    exec1 truth junk prog ⟨pc, D, σ, cur, R, b, m :: stk, t⟩ .rsPop =
      .ok ⟨pc + 1, D, σ, cur, m, any m, stk, t + 1⟩ := rfl

theorem take_sum_pos {ds : List Nat} (hd : ∀ d ∈ ds, 1 ≤ d) {m : Nat} (h1 : 1 ≤ m) (h2 : ¬ m > ds.length) :
    1 ≤ (ds.take m).sum := by
  cases ds with
  | nil => simp at h2; omega
  | cons d ds =>
    obtain ⟨m, rfl⟩ : ∃ k, m = k + 1 := ⟨m - 1, by omega⟩
    have := hd d (by simp)
    simp only [List.take_succ_cons, List.sum_cons]; omega

theorem any_none : any (fun _ : Fin n => false) = false := by simp [any]

/-- When no point is running nothing happens. -/
theorem simNone (hn : (labels prog).Nodup) (s : Stmt V) : ∀ ds l code l' pc, compS s ds l = some (code, l') →
    s.Counted → (∀ d ∈ ds, 1 ≤ d) → At prog pc code → ∀ D σ cur stk tick, ds.sum ≤ stk.length → ∃ cur' tick',
      Reach truth junk prog ⟨pc, D, σ, cur, fun _ => false, false, stk, tick⟩
        ⟨pc + code.length, D, σ, cur', fun _ => false, false, stk, tick'⟩ := by
  have hC : ∀ (c : Expr V) (rest) (pc), At prog pc (.sClear :: (compE c ++ .sGet :: rest)) →
      ∀ D σ cur stk tick, ∃ t', Reach truth junk prog ⟨pc, D, σ, cur, fun _ => false, false, stk, tick⟩
      ⟨pc + 1 + (compE c).length + 1, D, σ, fun _ => false, fun _ => false, false, stk, t'⟩ := by
    intro c rest pc h D σ cur stk tick
    have := simC (truth := truth) (junk := junk) c rest pc h D σ cur (fun _ => false) stk tick
    simpa only [any_none, Bool.false_and] using this
  induction s with
  | assign x e =>
    intro ds l code l' pc hc hs hd h D σ cur stk tick hl
    simp only [compS, Option.some.injEq, Prod.mk.injEq] at hc
    obtain ⟨rfl, rfl⟩ := hc
    have := simAssign (truth := truth) (junk := junk) x e pc h D σ cur (fun _ => false) stk tick
    simpa only [any_none, Bool.false_eq_true, if_false] using this
  | expr e =>
    intro ds l code l' pc hc hs hd h D σ cur stk tick hl
    simp only [compS, Option.some.injEq, Prod.mk.injEq] at hc
    obtain ⟨rfl, rfl⟩ := hc
    obtain ⟨h1, h2⟩ := h.app
    obtain ⟨v, cur', t', r, _⟩ := simE (truth := truth) (junk := junk) e pc h1 D σ cur (fun _ => false) stk tick
    rw [any_none] at r
    refine ⟨cur', t' + 1, ?_⟩
    rw [List.length_append]
    exact r.trans (.one h2.get rfl)
  | seq a b iha ihb =>
    intro ds l code l' pc hc hs hd h D σ cur stk tick hl
    simp only [compS, Option.bind_eq_some_iff, Option.map_eq_some_iff, Prod.mk.injEq] at hc
    obtain ⟨⟨ca, la⟩, ha, ⟨cb, lb⟩, hb, rfl, rfl⟩ := hc
    obtain ⟨h1, h2⟩ := h.app
    obtain ⟨cur1, t1, r1⟩ := iha _ _ _ _ _ ha hs.1 hd h1 D σ cur stk tick hl
    obtain ⟨cur2, t2, r2⟩ := ihb _ _ _ _ _ hb hs.2 hd h2 D σ cur1 stk t1 hl
    refine ⟨cur2, t2, ?_⟩
    rw [List.length_append, ← Nat.add_assoc]
    exact r1.trans r2
  | ifThen c t ih =>
    intro ds l code l' pc hc hs hd h D σ cur stk tick hl
    simp only [compS, Option.map_eq_some_iff, Prod.mk.injEq] at hc
    obtain ⟨⟨ct, lt⟩, ht, rfl, rfl⟩ := hc
    obtain ⟨t1, r1⟩ := hC c _ pc h D σ cur stk tick
    obtain ⟨_, h⟩ := h.cons
    obtain ⟨_, h⟩ := h.app
    obtain ⟨_, h⟩ := h.cons
    obtain ⟨h1, h⟩ := h.cons
    obtain ⟨h2, h⟩ := h.cons
    obtain ⟨h3, h⟩ := h.cons
    obtain ⟨_, h⟩ := h.app
    obtain ⟨h4, h5⟩ := h.cons
    refine ⟨fun _ => false, t1 + 1 + 1 + 1 + 1 + 1, r1.trans (.step h1.get rfl (.step h2.get rfl ?_))⟩
    refine .step h3.get (s' := ⟨pc + 1 + (compE c).length + 1 + 1 + 1 + 1 + ct.length, D, σ, fun _ => false,
      fun _ => false, false, (fun _ => false) :: stk, t1 + 1 + 1 + 1⟩) ?_ ?_
    · show (if any (fun _ : Fin n => false) = true then _ else _) = _
      rw [if_neg (by simp [any])]
      simp only [VM.jump, h4.label hn, any_none]
    refine .step h4.get rfl ?_
    have e : pc + (Instr.sClear :: (compE c ++ (Instr.sGet :: Instr.rsPush :: Instr.rsGet :: Instr.rsJz l ::
        (ct ++ [Instr.label l, Instr.rsPop])))).length =
        pc + 1 + (compE c).length + 1 + 1 + 1 + 1 + ct.length + 1 + 1 := by
      simp; omega
    rw [e]
    refine .one h5.get ?_
    rw [step_rsPop, any_none]
  | ifElse c t e iht ihe =>
    intro ds l code l' pc hc hs hd h D σ cur stk tick hl
    simp only [compS, Option.bind_eq_some_iff, Option.map_eq_some_iff, Prod.mk.injEq] at hc
    obtain ⟨⟨ca, la⟩, ha, ⟨cb, lb⟩, hb, rfl, rfl⟩ := hc
    obtain ⟨t1, r1⟩ := hC c _ pc h D σ cur stk tick
    obtain ⟨_, h⟩ := h.cons
    obtain ⟨_, h⟩ := h.app
    obtain ⟨_, h⟩ := h.cons
    obtain ⟨h1, h⟩ := h.cons
    obtain ⟨h2, h⟩ := h.cons
    obtain ⟨h3, h⟩ := h.cons
    obtain ⟨_, h⟩ := h.app
    obtain ⟨h4, h⟩ := h.cons
    obtain ⟨h5, h⟩ := h.cons
    obtain ⟨h6, h⟩ := h.cons
    obtain ⟨_, h⟩ := h.app
    obtain ⟨h7, h8⟩ := h.cons
    refine ⟨fun _ => false, t1 + 1 + 1 + 1 + 1 + 1 + 1 + 1 + 1, r1.trans (.step h1.get rfl (.step h2.get rfl ?_))⟩
    refine .step h3.get (s' := ⟨pc + 1 + (compE c).length + 1 + 1 + 1 + 1 + ca.length, D, σ, fun _ => false,
      fun _ => false, false, (fun _ => false) :: stk, t1 + 1 + 1 + 1⟩) ?_ ?_
    · show (if any (fun _ : Fin n => false) = true then _ else _) = _
      rw [if_neg (by simp [any])]
      simp only [VM.jump, h4.label hn, any_none]
    refine .step h4.get rfl (.step h5.get rfl ?_)
    refine .step h6.get (s' := ⟨pc + 1 + (compE c).length + 1 + 1 + 1 + 1 + ca.length + 1 + 1 + 1 + cb.length, D, σ,
      fun _ => false, fun _ => false, false, (fun _ => false) :: stk, t1 + 1 + 1 + 1 + 1 + 1 + 1⟩) ?_ ?_
    · show (if any (fun _ : Fin n => (!false && false)) = true then _ else _) = _
      rw [if_neg (by simp [any])]
      simp only [VM.jump, h7.label hn, Bool.and_false, any_none]
    refine .step h7.get rfl ?_
    have e : pc + (Instr.sClear :: (compE c ++ (Instr.sGet :: Instr.rsPush :: Instr.rsGet :: Instr.rsJz (l + 1) ::
        (ca ++ (Instr.label (l + 1) :: Instr.rsInverse :: Instr.rsJz l :: (cb ++ [Instr.label l, Instr.rsPop])))))).length =
        pc + 1 + (compE c).length + 1 + 1 + 1 + 1 + ca.length + 1 + 1 + 1 + cb.length + 1 + 1 := by
      simp; omega
    rw [e]
    refine .one h8.get ?_
    rw [step_rsPop, any_none]
  | loop c b inc ih =>
    intro ds l code l' pc hc hs hd h D σ cur stk tick hl
    simp only [compS, Option.map_eq_some_iff, Prod.mk.injEq] at hc
    obtain ⟨⟨cb, lb⟩, hb, rfl, rfl⟩ := hc
    obtain ⟨h1, h⟩ := h.cons
    obtain ⟨cur', t', r⟩ := simLoopExit (truth := truth) (junk := junk) hn c inc ds l cb (pc + 1) h D σ cur (fun _ => false) (fun _ => false)
      stk (tick + 1) (fun i => (fun x => σ x i, .normal)) (fun i h => by cases h) (fun i => rfl)
    simp only [after, lev, escape_zero, Bool.false_and, any_none] at r
    refine ⟨cur', t', .step h1.get rfl ?_⟩
    have e : ∀ a b c : Nat, pc + 1 + 1 + 1 + a + 1 + 1 + 1 + 1 + b + 1 + c + 1 + 1 + 1 =
        pc + (1 + (1 + (1 + (a + (1 + (1 + (1 + (1 + (b + (1 + (c + 3))))))))))) := by intros; omega
    rw [e] at r
    have e2 : (Instr.rsPush :: Instr.label l :: Instr.sClear :: (compE c ++ (Instr.sGet :: Instr.sJz (l + 1) ::
        Instr.rsGet :: Instr.rsPush :: (cb ++ (Instr.rsPop :: (compInc inc ++ [Instr.jmp l, Instr.label (l + 1), Instr.rsPop])))))).length =
        (1 + (1 + (1 + ((compE c).length + (1 + (1 + (1 + (1 + (cb.length + (1 + ((compInc inc).length + 3))))))))))) := by
      simp; omega
    rw [e2]
    exact r
  | brk m =>
    intro ds l code l' pc hc hs hd h D σ cur stk tick hl
    simp only [compS, breakLevels, Option.map_eq_some_iff, Prod.mk.injEq] at hc
    obtain ⟨k, hk, rfl, rfl⟩ := hc
    split_ifs at hk
    cases hk
    have := take_sum_le ds m
    have r := simBreak (truth := truth) (junk := junk) pc _ h D σ cur (fun _ => false) stk tick (by omega)
    simp only [Bool.false_eq_true, if_false, escape_zero, any_none] at r
    exact ⟨cur, tick + 1, r⟩
  | cont m =>
    intro ds l code l' pc hc hs hd h D σ cur stk tick hl
    simp only [compS, breakLevels, Option.map_eq_some_iff, Prod.mk.injEq] at hc
    obtain ⟨k, hk, rfl, rfl⟩ := hc
    split_ifs at hk
    cases hk
    have h1 := take_sum_le ds m
    have h2 := take_sum_pos hd hs (by assumption)
    have e : (((ds.take m).sum : Nat) : Int) - 1 = (((ds.take m).sum - 1 : Nat) : Int) := by omega
    rw [e] at h
    have r := simBreak (truth := truth) (junk := junk) pc _ h D σ cur (fun _ => false) stk tick (by omega)
    simp only [Bool.false_eq_true, if_false, escape_zero, any_none] at r
    exact ⟨cur, tick + 1, r⟩

/-- The code of a loop has the length used in `DoesLoop`. -/
theorem loop_length (c : Expr V) (cb : List (Instr V)) (inc : Option (Nat × Expr V)) (l pc : Nat) :
    pc + (Instr.rsPush :: Instr.label l :: Instr.sClear :: (compE c ++ (Instr.sGet :: Instr.sJz (l + 1) ::
        Instr.rsGet :: Instr.rsPush :: (cb ++ (Instr.rsPop :: (compInc inc ++
          [Instr.jmp l, Instr.label (l + 1), Instr.rsPop])))))).length =
      pc + 1 + 1 + 1 + (compE c).length + 1 + 1 + 1 + 1 + cb.length + 1 + (compInc inc).length + 1 + 1 + 1 := by
  simp; omega

theorem simS (hn : (labels prog).Nodup) : ∀ F, Does truth junk prog F ∧ DoesLoop truth junk prog F := by
  intro F
  induction F with
  | zero =>
    have hz : ∀ (s : Stmt V) (R : Fin n → Bool) σ res, Pts truth 0 s R σ res →
        (R = fun _ => false) ∧ ∀ i, res i = (fun x => σ x i, .normal) := by
      intro s R σ res hp
      have h0 : ∀ i, R i = false := by
        intro i
        cases hr : R i
        · rfl
        · have := (hp i).1 hr; cases this
      exact ⟨funext h0, fun i => (hp i).2 (h0 i)⟩
    constructor
    · intro s ds l code l' pc hc hs hd h D σ cur R stk tick res hl hp
      obtain ⟨rfl, hres⟩ := hz _ _ _ _ hp
      have := simNone (truth := truth) (junk := junk) hn s ds l code l' pc hc hs hd h D σ cur stk tick hl
      simpa only [after, hres, lev, escape_zero, Bool.false_and, any_none] using this
    · intro c b inc ds l cb lb pc hc hs hd h D σ cur R saved stk tick res hl hp
      obtain ⟨rfl, hres⟩ := hz _ _ _ _ hp
      exact simLoopExit hn c inc ds l cb pc h D σ cur _ saved stk tick res (fun i h => by cases h) hres
  | succ F ih =>
    obtain ⟨ih, ihl⟩ := ih
    have ihl' := simLoop ih ihl hn
    refine ⟨?_, ihl'⟩
    intro s ds l code l' pc hc hs hd h D σ cur R stk tick res hl hp
    cases s with
    | assign x e =>
      simp only [compS, Option.some.injEq, Prod.mk.injEq] at hc
      obtain ⟨rfl, rfl⟩ := hc
      obtain ⟨cur', t', r⟩ := simAssign (truth := truth) (junk := junk) x e pc h D σ cur R stk tick
      refine ⟨cur', t', ?_⟩
      have hres : ∀ i, res i = (fun y => if R i then upd (fun x => σ x i) x (e.eval truth (fun x => σ x i)) y else σ y i,
          .normal) := by
        intro i
        cases hr : R i
        · rw [(hp i).2 hr]; rfl
        · have := (hp i).1 hr
          simp only [exec, Option.some.injEq] at this
          rw [← this]; rfl
      simpa only [after, hres, lev, escape_zero, decide_true, Bool.and_true] using r
    | expr e =>
      simp only [compS, Option.some.injEq, Prod.mk.injEq] at hc
      obtain ⟨rfl, rfl⟩ := hc
      obtain ⟨h1, h2⟩ := h.app
      obtain ⟨v, cur', t', r, _⟩ := simE (truth := truth) (junk := junk) e pc h1 D σ cur R stk tick
      refine ⟨cur', t' + 1, ?_⟩
      have hres : ∀ i, res i = (fun y => σ y i, .normal) := by
        intro i
        cases hr : R i
        · rw [(hp i).2 hr]
        · have := (hp i).1 hr
          simp only [exec, Option.some.injEq] at this
          rw [← this]
      simp only [after, hres, lev, escape_zero, decide_true, Bool.and_true, List.length_append]
      exact r.trans (.one h2.get rfl)
    | seq a b =>
      simp only [compS, Option.bind_eq_some_iff, Option.map_eq_some_iff, Prod.mk.injEq] at hc
      obtain ⟨⟨ca, la⟩, ha, ⟨cb, lb⟩, hb, rfl, rfl⟩ := hc
      obtain ⟨h1, h2⟩ := h.app
      let resA : Fin n → (Nat → V) × Sig := fun i =>
        if R i then ((exec truth F a (fun x => σ x i)).getD (fun x => σ x i, .normal)) else (fun x => σ x i, .normal)
      have hA : ∀ i, R i = true → exec truth F a (fun x => σ x i) = some (resA i) ∧
          (if (resA i).2 = .normal then exec truth F b (resA i).1 else some (resA i)) = some (res i) := by
        intro i hr
        have he := (hp i).1 hr
        rw [exec, Option.bind_eq_some_iff] at he
        obtain ⟨r, hr1, hr2⟩ := he
        have hB : resA i = r := by
          show (if R i then _ else _) = r
          rw [if_pos hr, hr1]; rfl
        rw [hB]
        exact ⟨hr1, hr2⟩
      have hA0 : ∀ i, R i = false → resA i = (fun x => σ x i, .normal) := by
        intro i hr
        show (if R i then _ else _) = _
        rw [if_neg (by simp [hr])]
      obtain ⟨cur1, t1, r1⟩ := ih a ds l ca la pc ha hs.1 hd h1 D σ cur R stk tick resA hl
        (fun i => ⟨fun h => (hA i h).1, hA0 i⟩)
      let R1 : Fin n → Bool := fun i => R i && decide ((resA i).2 = .normal)
      have hR1 : ∀ i, R1 i = (R i && decide ((resA i).2 = .normal)) := fun _ => rfl
      let resB : Fin n → (Nat → V) × Sig := fun i => if R1 i then res i else ((resA i).1, .normal)
      have hB1 : ∀ i, R1 i = true → resB i = res i := by
        intro i h; show (if R1 i then _ else _) = _; rw [if_pos h]
      have hB0 : ∀ i, R1 i = false → resB i = ((resA i).1, .normal) := by
        intro i h; show (if R1 i then _ else _) = _; rw [if_neg (by simp [h])]
      obtain ⟨cur2, t2, r2⟩ := ih b ds la cb lb _ hb hs.2 hd h2 D (fun x i => (resA i).1 x) cur1 R1
        (escape (fun i => lev ds (resA i).2) stk) t1 resB (by rw [escape_length]; exact hl) (by
          intro i
          refine ⟨fun h => ?_, hB0 i⟩
          rw [hB1 i h]
          rw [hR1, Bool.and_eq_true, decide_eq_true_eq] at h
          have := (hA i h.1).2
          rw [if_pos h.2] at this
          exact this)
      refine ⟨cur2, t2, ?_⟩
      have hcase : ∀ i, (R1 i = true) ∨ (R1 i = false ∧ res i = resA i ∧ (R i = true → (resA i).2 ≠ .normal)) := by
        intro i
        cases h : R1 i
        · refine .inr ⟨rfl, ?_, ?_⟩
          · cases hr : R i
            · rw [(hp i).2 hr, hA0 i hr]
            · have := (hA i hr).2
              rw [hR1, hr] at h
              simp only [Bool.true_and, decide_eq_false_iff_not] at h
              rw [if_neg h] at this
              simpa using this.symm
          · intro hr
            rw [hR1, hr] at h
            simpa using h
        · exact .inl rfl
      have e1 : (fun x i => (resB i).1 x) = fun x i => (res i).1 x := by
        funext x i
        rcases hcase i with h | ⟨h, h', _⟩
        · rw [hB1 i h]
        · rw [hB0 i h, h']
      have e2 : (fun i => R1 i && decide ((resB i).2 = .normal)) = fun i => R i && decide ((res i).2 = .normal) := by
        funext i
        rcases hcase i with h | ⟨h, h', h''⟩
        · rw [hB1 i h, h]
          rw [hR1, Bool.and_eq_true] at h
          rw [h.1]
        · rw [h, h', Bool.false_and]
          cases hr : R i
          · rfl
          · simp [h'' hr]
      have e3 : escape (fun i => lev ds (resB i).2) (escape (fun i => lev ds (resA i).2) stk) =
          escape (fun i => lev ds (res i).2) stk := by
        rw [escape_escape]
        congr 1
        funext i
        rcases hcase i with h | ⟨h, h', h''⟩
        · rw [hB1 i h]
          rw [hR1, Bool.and_eq_true, decide_eq_true_eq] at h
          rw [h.2]; simp [lev]
        · rw [hB0 i h, h']; simp [lev]
      simp only [after, e1, e2, e3] at r2
      simp only [after, List.length_append, ← Nat.add_assoc]
      exact r1.trans r2
    | ifThen c t =>
      simp only [compS, Option.map_eq_some_iff, Prod.mk.injEq] at hc
      obtain ⟨⟨ct, lt⟩, ht, rfl, rfl⟩ := hc
      obtain ⟨t1, r1⟩ := simC (truth := truth) (junk := junk) c _ pc h D σ cur R stk tick
      obtain ⟨_, h⟩ := h.cons
      obtain ⟨_, h⟩ := h.app
      obtain ⟨_, h⟩ := h.cons
      obtain ⟨h1, h⟩ := h.cons
      obtain ⟨h2, h⟩ := h.cons
      have h3 := h
      obtain ⟨_, h⟩ := h.cons
      obtain ⟨_, h⟩ := h.app
      obtain ⟨h4, h5⟩ := h.cons
      generalize hT : (fun i => R i && truth (c.eval truth fun x => σ x i)) = T at r1
      have hT1 : ∀ i, T i = (R i && truth (c.eval truth fun x => σ x i)) := fun i => by rw [← hT]
      let resT : Fin n → (Nat → V) × Sig := fun i => if T i then res i else (fun x => σ x i, .normal)
      have hB1 : ∀ i, T i = true → resT i = res i := by
        intro i h; show (if T i then _ else _) = _; rw [if_pos h]
      have hB0 : ∀ i, T i = false → resT i = (fun x => σ x i, .normal) ∧ res i = (fun x => σ x i, .normal) := by
        intro i h
        refine ⟨by show (if T i then _ else _) = _; rw [if_neg (by simp [h])], ?_⟩
        cases hr : R i
        · exact (hp i).2 hr
        · rw [hT1, hr, Bool.true_and] at h
          have he := (hp i).1 hr
          rw [exec, if_neg (by simp [h])] at he
          simpa using he.symm
      have hTe : ∀ i, T i = true → exec truth F t (fun x => σ x i) = some (resT i) := by
        intro i h
        rw [hB1 i h]
        rw [hT1, Bool.and_eq_true] at h
        have he := (hp i).1 h.1
        rwa [exec, if_pos h.2] at he
      have hw : ∀ i, (resT i).2.Within ds.length := by
        intro i
        cases h : T i
        · rw [(hB0 i h).1]; trivial
        · rw [← bump_length ds]; exact exec_within F t _ _ _ _ (resT i).1 _ ht hs (hTe i h)
      have hsum := sum_bump_le ds
      obtain ⟨cur2, t2, r2⟩ := simBranch ih hn t (bump ds) (l + 1) ct lt _ l _ ht hs (bump_pos hd) h3 h4 D σ T T (R :: stk)
        (t1 + 1 + 1) resT (by simp only [List.length_cons]; omega) (fun i => ⟨hTe i, fun h => (hB0 i h).1⟩)
      have heq : ∀ i, resT i = res i := by
        intro i
        cases h : T i
        · rw [(hB0 i h).1, (hB0 i h).2]
        · exact hB1 i h
      have hlv : ∀ i, (lev (bump ds) (res i).2 = 0 ↔ (res i).2 = .normal) ∧
          lev (bump ds) (res i).2 - 1 = lev ds (res i).2 := by
        intro i
        have := hw i
        rw [heq i] at this
        by_cases hx : (res i).2 = .normal
        · rw [hx]; simp [lev]
        · rw [lev_bump hd this hx]; simp [hx]
      refine ⟨cur2, t2 + 1 + 1, ?_⟩
      simp only [after, heq, escape] at r2
      have e2 : (fun i => R i && decide (lev (bump ds) (res i).2 = 0)) = fun i => R i && decide ((res i).2 = .normal) := by
        funext i; rw [decide_eq_decide.2 (hlv i).1]
      have e3 : (fun i => lev (bump ds) (res i).2 - 1) = fun i => lev ds (res i).2 := by
        funext i; exact (hlv i).2
      rw [e2, e3] at r2
      have e : pc + (Instr.sClear :: (compE c ++ (Instr.sGet :: Instr.rsPush :: Instr.rsGet :: Instr.rsJz l ::
          (ct ++ [Instr.label l, Instr.rsPop])))).length =
          pc + 1 + (compE c).length + 1 + 1 + 1 + 1 + ct.length + 1 + 1 := by
        simp; omega
      rw [e]
      exact r1.trans (.step h1.get rfl (.step h2.get rfl (r2.trans (.step h4.get rfl (.one h5.get rfl)))))
    | ifElse c t e =>
      simp only [compS, Option.bind_eq_some_iff, Option.map_eq_some_iff, Prod.mk.injEq] at hc
      obtain ⟨⟨ct, lt⟩, ht, ⟨ce, le⟩, he, rfl, rfl⟩ := hc
      obtain ⟨t1, r1⟩ := simC (truth := truth) (junk := junk) c _ pc h D σ cur R stk tick
      obtain ⟨_, h⟩ := h.cons
      obtain ⟨_, h⟩ := h.app
      obtain ⟨_, h⟩ := h.cons
      obtain ⟨h1, h⟩ := h.cons
      obtain ⟨h2, h⟩ := h.cons
      have h3 := h
      obtain ⟨_, h⟩ := h.cons
      obtain ⟨_, h⟩ := h.app
      obtain ⟨h4, h⟩ := h.cons
      obtain ⟨h5, h⟩ := h.cons
      have h6 := h
      obtain ⟨_, h⟩ := h.cons
      obtain ⟨_, h⟩ := h.app
      obtain ⟨h7, h8⟩ := h.cons
      generalize hT : (fun i => R i && truth (c.eval truth fun x => σ x i)) = T at r1
      have hT1 : ∀ i, T i = (R i && truth (c.eval truth fun x => σ x i)) := fun i => by rw [← hT]
      let resT : Fin n → (Nat → V) × Sig := fun i => if T i then res i else (fun x => σ x i, .normal)
      have hB1 : ∀ i, T i = true → resT i = res i := by
        intro i h; show (if T i then _ else _) = _; rw [if_pos h]
      have hB0 : ∀ i, T i = false → resT i = (fun x => σ x i, .normal) := by
        intro i h; show (if T i then _ else _) = _; rw [if_neg (by simp [h])]
      have hTe : ∀ i, T i = true → exec truth F t (fun x => σ x i) = some (resT i) := by
        intro i h
        rw [hB1 i h]
        rw [hT1, Bool.and_eq_true] at h
        have he := (hp i).1 h.1
        rwa [exec, if_pos h.2] at he
      have hw : ∀ i, (resT i).2.Within ds.length := by
        intro i
        cases h : T i
        · rw [hB0 i h]; trivial
        · rw [← bump_length ds]; exact exec_within F t _ _ _ _ (resT i).1 _ ht hs.1 (hTe i h)
      have hlv : ∀ sig : Sig, sig.Within ds.length → (lev (bump ds) sig = 0 ↔ sig = .normal) ∧
          lev (bump ds) sig - 1 = lev ds sig := by
        intro sig this
        by_cases hx : sig = .normal
        · rw [hx]; simp [lev]
        · rw [lev_bump hd this hx]; simp [hx]
      have hlvd : ∀ sig : Sig, sig.Within ds.length →
          decide (lev (bump ds) sig = 0) = decide (sig = .normal) := by
        intro sig h
        by_cases hx : sig = .normal
        · subst hx; simp [lev]
        · simp [(hlv sig h).1, hx]
      have hsum := sum_bump_le ds
      obtain ⟨cur2, t2, r2⟩ := simBranch ih hn t (bump ds) (l + 2) ct lt _ (l + 1) _ ht hs.1 (bump_pos hd) h3 h4 D σ T T (R :: stk)
        (t1 + 1 + 1) resT (by simp only [List.length_cons]; omega) (fun i => ⟨hTe i, hB0 i⟩)
      -- the points of the other branch
      let E : Fin n → Bool := fun i => R i && !truth (c.eval truth fun x => σ x i)
      have hE : ∀ i, E i = (R i && !truth (c.eval truth fun x => σ x i)) := fun _ => rfl
      let R' : Fin n → Bool := fun i => R i && decide (lev (bump ds) (resT i).2 = 0)
      let stk' := escape (fun i => lev (bump ds) (resT i).2 - 1) stk
      have hinv : (fun i => !(T i && decide ((resT i).2 = .normal)) && R' i) = E := by
        funext i
        show (!(T i && decide ((resT i).2 = .normal)) && (R i && decide (lev (bump ds) (resT i).2 = 0))) = _
        rw [hE, hlvd _ (hw i)]
        cases h : T i
        · rw [hB0 i h]
          rw [hT1] at h
          cases hr : R i
          · rfl
          · rw [hr, Bool.true_and] at h; simp [h]
        · have h' := h
          rw [hT1, Bool.and_eq_true] at h'
          rw [h'.2]
          cases decide ((resT i).2 = .normal) <;> simp
      let resE : Fin n → (Nat → V) × Sig := fun i => if E i then res i else ((resT i).1, .normal)
      have hE1 : ∀ i, E i = true → resE i = res i := by
        intro i h; show (if E i then _ else _) = _; rw [if_pos h]
      have hE0 : ∀ i, E i = false → resE i = ((resT i).1, .normal) := by
        intro i h; show (if E i then _ else _) = _; rw [if_neg (by simp [h])]
      have hET : ∀ i, E i = true → T i = false ∧ R i = true := by
        intro i h
        rw [hE, Bool.and_eq_true] at h
        rw [hT1, h.1]
        simpa using h.2
      have hEe : ∀ i, E i = true → exec truth F e (fun x => (resT i).1 x) = some (resE i) := by
        intro i h
        rw [hE1 i h, hB0 i (hET i h).1]
        rw [hE, Bool.and_eq_true] at h
        have he := (hp i).1 h.1
        rwa [exec, if_neg (by simpa using h.2)] at he
      have hwE : ∀ i, (resE i).2.Within ds.length := by
        intro i
        cases h : E i
        · rw [hE0 i h]; trivial
        · rw [← bump_length ds]; exact exec_within F e _ _ _ _ (resE i).1 _ he hs.2 (hEe i h)
      obtain ⟨cur3, t3, r3⟩ := simBranch ih hn e (bump ds) lt ce le _ l _ he hs.2 (bump_pos hd) h6 h7 D (fun x i => (resT i).1 x)
        cur2 E (R' :: stk') (t2 + 1 + 1) resE (by
          simp only [List.length_cons]
          have : stk'.length = stk.length := escape_length _ _
          omega) (fun i => ⟨hEe i, hE0 i⟩)
      refine ⟨cur3, t3 + 1 + 1, ?_⟩
      have hrest : ∀ i, T i = false → E i = false → res i = (fun x => σ x i, .normal) := by
        intro i h h'
        cases hr : R i
        · exact (hp i).2 hr
        · rw [hT1, hr] at h
          rw [hE, hr] at h'
          simp at h h'
          rw [h] at h'; cases h'
      have e1 : (fun x i => (resE i).1 x) = fun x i => (res i).1 x := by
        funext x i
        cases h : E i
        · rw [hE0 i h]
          cases h' : T i
          · rw [hB0 i h', hrest i h' h]
          · rw [hB1 i h']
        · rw [hE1 i h]
      have e2 : (fun i => R' i && decide (lev (bump ds) (resE i).2 = 0)) = fun i => R i && decide ((res i).2 = .normal) := by
        funext i
        show ((R i && decide (lev (bump ds) (resT i).2 = 0)) && _) = _
        rw [hlvd _ (hw i), hlvd _ (hwE i)]
        cases h : E i
        · rw [hE0 i h]
          cases h' : T i
          · rw [hB0 i h', hrest i h' h]; simp
          · rw [hB1 i h']; simp
        · rw [hE1 i h, hB0 i (hET i h).1]; simp
      have e3 : escape (fun i => lev (bump ds) (resE i).2 - 1) stk' = escape (fun i => lev ds (res i).2) stk := by
        show escape _ (escape _ stk) = _
        rw [escape_escape]
        congr 1
        funext i
        rw [(hlv _ (hw i)).2, (hlv _ (hwE i)).2]
        cases h : E i
        · rw [hE0 i h]
          cases h' : T i
          · rw [hB0 i h', hrest i h' h]; simp [lev]
          · rw [hB1 i h']; simp [lev]
        · rw [hE1 i h, hB0 i (hET i h).1]; simp [lev]
      simp only [after, e1, escape] at r3
      rw [e2, e3] at r3
      have el : pc + (Instr.sClear :: (compE c ++ (Instr.sGet :: Instr.rsPush :: Instr.rsGet :: Instr.rsJz (l + 1) ::
          (ct ++ (Instr.label (l + 1) :: Instr.rsInverse :: Instr.rsJz l :: (ce ++ [Instr.label l, Instr.rsPop])))))).length =
          pc + 1 + (compE c).length + 1 + 1 + 1 + 1 + ct.length + 1 + 1 + 1 + ce.length + 1 + 1 := by
        simp; omega
      rw [el]
      refine r1.trans (.step h1.get rfl (.step h2.get rfl (r2.trans (.step h4.get rfl ?_))))
      refine .step h5.get (s' := ⟨pc + 1 + (compE c).length + 1 + 1 + 1 + 1 + ct.length + 1 + 1, D,
        fun x i => (resT i).1 x, cur2, E, any E, R' :: stk', t2 + 1 + 1⟩) ?_ ?_
      · rw [← hinv]; rfl
      exact r3.trans (.step h7.get rfl (.one h8.get rfl))
    | loop c b inc =>
      simp only [compS, Option.map_eq_some_iff, Prod.mk.injEq] at hc
      obtain ⟨⟨cb, lb⟩, hb, rfl, rfl⟩ := hc
      obtain ⟨h1, h⟩ := h.cons
      obtain ⟨cur', t', r⟩ := ihl' c b inc ds l cb lb (pc + 1) hb hs hd h D σ cur R R stk (tick + 1) res hl hp
      refine ⟨cur', t', .step h1.get rfl ?_⟩
      rw [loop_length]
      exact r
    | brk m =>
      simp only [compS, breakLevels, Option.map_eq_some_iff, Prod.mk.injEq] at hc
      obtain ⟨k, hk, rfl, rfl⟩ := hc
      split_ifs at hk with hm
      cases hk
      have h1 := take_sum_le ds m
      have hm1 : 1 ≤ m := hs
      have r := simBreak (truth := truth) (junk := junk) pc _ h D σ cur R stk tick (by omega)
      have hres : ∀ i, res i = (fun x => σ x i, if R i then .brk (m - 1) else .normal) := by
        intro i
        cases hr : R i
        · rw [(hp i).2 hr]; rfl
        · have := (hp i).1 hr
          simp only [exec, Option.some.injEq] at this
          rw [← this]; rfl
      have e2 : (fun i => R i && decide ((res i).2 = .normal)) = fun _ => false := by
        funext i; rw [hres]; cases R i <;> simp
      have e3 : (fun i => lev ds (res i).2) = fun i => if R i then (ds.take m).sum else 0 := by
        funext i; rw [hres]
        cases R i
        · rfl
        · simp only [if_true, lev]; rw [show m - 1 + 1 = m by omega]
      refine ⟨cur, tick + 1, ?_⟩
      have e1 : (fun x i => (res i).1 x) = σ := by funext x i; rw [hres]
      simp only [after, e1, e2, e3, any_none]
      exact r
    | cont m =>
      simp only [compS, breakLevels, Option.map_eq_some_iff, Prod.mk.injEq] at hc
      obtain ⟨k, hk, rfl, rfl⟩ := hc
      split_ifs at hk with hm
      cases hk
      have h1 := take_sum_le ds m
      have hm1 : 1 ≤ m := hs
      have h2 := take_sum_pos hd hs hm
      have e : (((ds.take m).sum : Nat) : Int) - 1 = (((ds.take m).sum - 1 : Nat) : Int) := by omega
      rw [e] at h
      have r := simBreak (truth := truth) (junk := junk) pc _ h D σ cur R stk tick (by omega)
      have hres : ∀ i, res i = (fun x => σ x i, if R i then .cont (m - 1) else .normal) := by
        intro i
        cases hr : R i
        · rw [(hp i).2 hr]; rfl
        · have := (hp i).1 hr
          simp only [exec, Option.some.injEq] at this
          rw [← this]; rfl
      have e2 : (fun i => R i && decide ((res i).2 = .normal)) = fun _ => false := by
        funext i; rw [hres]; cases R i <;> simp
      have e3 : (fun i => lev ds (res i).2) = fun i => if R i then (ds.take m).sum - 1 else 0 := by
        funext i; rw [hres]
        cases R i
        · rfl
        · simp only [if_true, lev]; rw [show m - 1 + 1 = m by omega]
      refine ⟨cur, tick + 1, ?_⟩
      have e1 : (fun x i => (res i).1 x) = σ := by funext x i; rw [hres]
      simp only [after, e1, e2, e3, any_none]
      exact r

end Verif.Shader.Simd
