import Verif.Shader.StackSim

/-! The machine with storage follows the one without: assignments, conditions, and programs. -/

namespace Verif.Shader.Stack

variable {V : Type}

theorem vars_set {n : Nat} {h h' : List (Cell V)} {q : Nat} {v : Val V} (ho : Off h h' q)
    (hv : HoldsV n h' q v) : ∀ {l : List Nat} {vs : List (Val V)} {x : Nat}, l.Nodup → l[x]? = some q →
    List.Forall₂ (HoldsV n h) l vs → List.Forall₂ (HoldsV n h') l (vs.set x v)
  | _, _, x, _, hx, .nil => by simp at hx
  | p :: l, w :: vs, x, hnd, hx, .cons h1 h2 => by
    have hnd := List.nodup_cons.1 hnd
    cases x with
    | zero =>
      simp at hx; subst hx
      exact .cons hv (vars_off ho hnd.1 h2)
    | succ x =>
      have hx : l[x]? = some q := by simpa using hx
      refine .cons (h1.off ho (fun he => hnd.1 ?_)) (vars_set ho hv hnd.2 hx h2)
      rw [he]; exact List.mem_of_getElem? hx

theorem sim_store {E : Env V} (hn : 0 < E.points) {s : State V} {a a' : Abs V} (h : Rel E.points s a)
    (x : Nat) (ha : a.step E.points E.truth (.store x) = some a') :
    ∃ s', step E s (.store x) = some s' ∧ Rel E.points s' a' := by
  simp only [Abs.step] at ha
  cases hst : a.stack with
  | nil => rw [hst] at ha; cases ha
  | cons i st =>
    rw [hst] at ha
    dsimp only at ha
    cases hlk : a.look i with
    | none => rw [hlk] at ha; cases ha
    | some v =>
    cases hox : a.vars[x]? with
    | none => rw [hlk, hox] at ha; cases ha
    | some o =>
      rw [hlk, hox] at ha
      simp only [Option.bind_eq_bind, Option.bind_some] at ha
      cases ha
      have m0 := h.mid
      rw [hst] at m0
      obtain ⟨e, s1, k1, m1, hs1, hh1, c1⟩ := mid_pop m0
      have hrun : s1.run = a.run := c1.2.1.trans h.run
      obtain ⟨w, hw, hsee⟩ := (look_holds hs1 m1.vars hlk).sees hn
      obtain ⟨q, hq, hqo⟩ := forall2_get m1.vars x o hox
      have hq0 : s.vars[x]? = some q := by rw [← c1.2.2.2]; exact hq
      obtain ⟨cv, hcv, hseeo⟩ := hqo.sees hn
      obtain ⟨cv', hcv', hcl, how, _⟩ := hqo
      rw [hcv] at hcv'; cases hcv'
      have hext : max E.points cv.size = E.points := by
        unfold Cell.size
        rw [hcl]; split <;> omega
      obtain ⟨r, hr, hsr, hg⟩ : ∃ r, runIf (E.isRunning s1.run)
          (popLoop s1.run (decide (max E.points cv.size > 1)) w (max E.points cv.size) 0 cv) cv = some r ∧
          Same cv r ∧ ∀ i y, i < E.points → (if o.wide then ⟨true, fun i =>
              if a.run i then v.at_ i else o.at_ i⟩
            else ⟨false, fun i => if active E.points a.run false i then v.at_ 0 else o.at_ i⟩ :
              Val V).at_ i = some y → r.get i = some y := by
        unfold runIf
        rw [hext]
        by_cases hR : someRun E.points s1.run
        · rw [if_pos ((isRunning_iff E _).2 hR)]
          cases hvar : cv.varying with
          | true =>
            rw [hvar] at hcl
            simp at hcl
            obtain ⟨r, hr, hsr, hg⟩ := popLoop_var s1.run w (decide (E.points > 1)) E.points 0 cv hvar
              (by omega) (fun j _ hj => hsee.def_ j (by omega))
            refine ⟨r, hr, hsr, fun i y hi hy => ?_⟩
            rw [hg i]
            cases how' : o.wide with
            | true =>
              rw [how'] at hy how
              rw [if_pos rfl] at hy
              dsimp only at hy
              have h1 : 1 < E.points := by rw [← hcl]; simpa using how.symm
              rw [hrun]
              by_cases hri : a.run i = true
              · rw [if_pos hri] at hy
                rw [if_pos ⟨Nat.zero_le _, by omega, .inr hri⟩]
                exact hsee.val i y hi hy
              · rw [if_neg hri] at hy
                rw [if_neg]
                · exact hseeo.val i y hi hy
                · rintro ⟨_, _, h2 | h2⟩
                  · simp at h2; omega
                  · exact hri h2
            | false =>
              rw [how'] at hy how
              rw [if_neg (by simp)] at hy
              dsimp only at hy
              have h1 : E.points = 1 := by
                have : ¬ 1 < cv.vals.length := by simpa using how
                omega
              rw [if_pos ((active_narrow _ _ _).2 (hrun ▸ hR))] at hy
              have : i = 0 := by omega
              subst this
              rw [if_pos ⟨Nat.le_refl _, by omega, .inl (by simp [h1])⟩]
              exact hsee.val 0 y hi hy
          | false =>
            have hcl' : cv.vals.length = 1 := by rw [hvar] at hcl; simpa using hcl
            obtain ⟨z, hz⟩ := Option.isSome_iff_exists.1 (hsee.def_ 0 hn)
            obtain ⟨r, hr, hsr, hg, _⟩ := popLoop_uni s1.run w z hz (decide (E.points > 1)) E.points 0 cv
              hvar hcl'
            refine ⟨r, hr, hsr, fun i y hi hy => ?_⟩
            have how' : o.wide = false := by rw [how, hcl']; rfl
            rw [how', if_neg (by simp)] at hy
            dsimp only at hy
            rw [if_pos ((active_narrow _ _ _).2 (hrun ▸ hR))] at hy
            obtain ⟨j, hj, hrj⟩ := hR
            have hvals := hg ⟨j, Nat.zero_le _, by omega, .inr hrj⟩
            rw [get_uni (hsr.2.1.trans hvar), hvals]
            have := hsee.val 0 y hn hy
            rw [hz] at this
            exact this
        · refine ⟨cv, by rw [if_neg (fun h => hR ((isRunning_iff E _).1 h))], Same.rfl' cv,
            fun i y hi hy => ?_⟩
          rw [hrun] at hR
          apply hseeo.val i y hi
          cases how' : o.wide with
          | true =>
            rw [how', if_pos rfl] at hy
            dsimp only at hy
            rw [if_neg (fun hri => hR ⟨i, hi, hri⟩)] at hy
            exact hy
          | false =>
            rw [how', if_neg (by simp)] at hy
            dsimp only at hy
            rw [active_none hR _ _ hi, if_neg (by simp)] at hy
            exact hy
      have hqv : q ∈ s1.vars := List.mem_of_getElem? hq
      have hqu : q ∉ temps (live s1) := fun hm =>
        (m1.own.used_ok q (List.mem_append_right _ hm)).2.1 hqv
      have hnew : HoldsV E.points (s1.heap.set q r) q (if o.wide then ⟨true, fun i =>
              if a.run i then v.at_ i else o.at_ i⟩
            else ⟨false, fun i => if active E.points a.run false i then v.at_ 0 else o.at_ i⟩) := by
        refine holds_result hcv hcl hsr ?_ hg
        rw [← how]
        cases o.wide <;> rfl
      have hoff := Off.set s1.heap q r
      have m2 : Mid E.points { s1 with heap := s1.heap.set q r } (temps [e] ++ []) st
          (a.vars.set x (if o.wide then ⟨true, fun i =>
              if a.run i then v.at_ i else o.at_ i⟩
            else ⟨false, fun i => if active E.points a.run false i then v.at_ 0 else o.at_ i⟩)) := by
        refine ⟨?_, m1.top, stands_off hoff hqu m1.stack, vars_set hoff hnew m1.own.vars_nodup hq m1.vars⟩
        exact m1.own.write hcv hsr.1 hsr.2.1 (fun hf => by
          rw [hsr.2.2]; exact m1.own.uniform q cv hcv (hsr.2.1 ▸ hf))
      obtain ⟨s3, k3, m3, c3⟩ := mid_release m2
      refine ⟨s3, ?_, m3.own, m3.top, m3.stack, m3.vars, ?_, ?_, ?_⟩
      · simp only [step, hq0, k1, hw, hcv, hr, Option.bind_eq_bind, Option.bind_some]
        exact k3
      · exact c3.1.trans (c1.1.trans h.cur)
      · exact c3.2.1.trans (c1.2.1.trans h.run)
      · exact c3.2.2.1.trans (c1.2.2.1.trans h.stk)

theorem sim_sGet {E : Env V} (hn : 0 < E.points) {s : State V} {a a' : Abs V} (h : Rel E.points s a)
    (ha : a.step E.points E.truth .sGet = some a') :
    ∃ s', step E s .sGet = some s' ∧ Rel E.points s' a' := by
  simp only [Abs.step] at ha
  cases hst : a.stack with
  | nil => rw [hst] at ha; cases ha
  | cons i st =>
    rw [hst] at ha
    dsimp only at ha
    cases hlk : a.look i with
    | none => rw [hlk] at ha; cases ha
    | some v =>
      rw [hlk] at ha
      simp only [Option.bind_some] at ha
      split at ha
      · rename_i hdef
        cases ha
        have m0 := h.mid
        rw [hst] at m0
        obtain ⟨e, s1, k1, m1, hs1, hh1, c1⟩ := mid_pop m0
        have hrun : s1.run = a.run := c1.2.1.trans h.run
        have hcur : s1.cur = a.cur := c1.1.trans h.cur
        obtain ⟨w, hw, hsee⟩ := (look_holds hs1 m1.vars hlk).sees hn
        have hr : runIf (E.isRunning s1.run) (getLoop E.truth s1.run w E.points 0 s1.cur) s1.cur =
            some fun i => if i < E.points ∧ a.run i = true then ((v.at_ i).map E.truth).getD false
              else a.cur i := by
          unfold runIf
          rw [hrun, hcur]
          by_cases hR : someRun E.points a.run
          · rw [if_pos ((isRunning_iff E _).2 hR),
              getLoop_spec E.truth a.run w E.points 0 a.cur (fun j _ hj _ => hsee.def_ j (by omega))]
            congr 1; funext j
            by_cases hj : j < E.points ∧ a.run j = true
            · rw [if_pos hj, if_pos ⟨Nat.zero_le _, by omega, hj.2⟩]
              obtain ⟨y, hy⟩ := Option.isSome_iff_exists.1 (hdef j hj.1 hj.2)
              rw [hy, hsee.val j y hj.1 hy]
            · rw [if_neg hj, if_neg (fun hk => hj ⟨by omega, hk.2.2⟩)]
          · rw [if_neg (fun h => hR ((isRunning_iff E _).1 h))]
            congr 1; funext j
            rw [if_neg (fun hj => hR ⟨j, hj⟩)]
        have m2 : Mid E.points { s1 with cur := fun i => if i < E.points ∧ a.run i = true then
              ((v.at_ i).map E.truth).getD false else a.cur i } (temps [e] ++ []) st a.vars :=
          ⟨m1.own, m1.top, m1.stack, m1.vars⟩
        obtain ⟨s3, k3, m3, c3⟩ := mid_release m2
        refine ⟨s3, ?_, m3.own, m3.top, m3.stack, m3.vars, c3.1, ?_, ?_⟩
        · simp only [step, k1, hw, hr, Option.bind_eq_bind, Option.bind_some]
          exact k3
        · exact c3.2.1.trans hrun
        · exact c3.2.2.1.trans (c1.2.2.1.trans h.stk)
      · cases ha

/-- One instruction. -/
theorem sim_step {E : Env V} (hn : 0 < E.points) {s : State V} {a a' : Abs V} (h : Rel E.points s a)
    (i : Instr V) (ha : a.step E.points E.truth i = some a') :
    ∃ s', step E s i = some s' ∧ Rel E.points s' a' := by
  cases i with
  | pushf v => exact sim_pushf h v ha
  | pushk t v => exact sim_pushk h t v ha
  | pushv x => exact sim_pushv h x ha
  | dup => exact sim_dup hn h ha
  | drop => exact sim_drop h ha
  | un t f => exact sim_un hn h t f ha
  | bin t f => exact sim_bin hn h t f ha
  | merge t => exact sim_merge hn h t ha
  | store x => exact sim_store hn h x ha
  | sClear =>
    simp only [Abs.step] at ha; cases ha
    exact ⟨_, rfl, h.own, h.top, h.stack, h.vars, rfl, h.run, h.stk⟩
  | sGet => exact sim_sGet hn h ha
  | rsPush =>
    simp only [Abs.step] at ha; cases ha
    exact ⟨_, rfl, h.own, h.top, h.stack, h.vars, h.cur, h.run, by
      show s.run :: s.stk = a.run :: a.stk
      rw [h.run, h.stk]⟩
  | rsGet =>
    simp only [Abs.step] at ha; cases ha
    exact ⟨_, rfl, h.own, h.top, h.stack, h.vars, h.cur, h.cur, h.stk⟩
  | rsInverse =>
    simp only [Abs.step] at ha; cases ha
    cases hk : s.stk with
    | nil =>
      refine ⟨{ s with run := fun i => !s.run i }, by simp only [step, hk], h.own, h.top, h.stack, h.vars,
        h.cur, ?_, h.stk⟩
      funext i
      show (!s.run i) = (!a.run i && _)
      rw [← h.stk, hk, h.run]; simp
    | cons m st =>
      refine ⟨{ s with run := fun i => !s.run i && m i }, by simp only [step, hk], h.own, h.top, h.stack,
        h.vars, h.cur, ?_, h.stk⟩
      funext i
      show (!s.run i && m i) = (!a.run i && _)
      rw [← h.stk, hk, h.run]; simp
  | rsPop =>
    simp only [Abs.step] at ha
    cases hk : a.stk with
    | nil => rw [hk] at ha; cases ha
    | cons m st =>
      rw [hk] at ha; cases ha
      have hs : s.stk = m :: st := h.stk.trans hk
      exact ⟨{ s with run := m, stk := st }, by simp only [step, hs], h.own, h.top, h.stack, h.vars,
        h.cur, rfl, rfl⟩

/-- A program. -/
theorem sim_exec {E : Env V} (hn : 0 < E.points) : ∀ (is : List (Instr V)) {s : State V} {a a' : Abs V},
    Rel E.points s a → a.exec E.points E.truth is = some a' →
    ∃ s', exec E s is = some s' ∧ Rel E.points s' a'
  | [], s, a, a', h, ha => by
    simp only [Abs.exec] at ha; cases ha
    exact ⟨s, rfl, h⟩
  | i :: is, s, a, a', h, ha => by
    simp only [Abs.exec] at ha
    cases h1 : a.step E.points E.truth i with
    | none => rw [h1] at ha; cases ha
    | some a1 =>
      rw [h1] at ha
      obtain ⟨s1, e1, r1⟩ := sim_step hn h i h1
      obtain ⟨s', e', r'⟩ := sim_exec hn is r1 ha
      refine ⟨s', ?_, r'⟩
      simp only [exec, e1, Option.bind_eq_bind, Option.bind_some]
      exact e'

end Verif.Shader.Stack
