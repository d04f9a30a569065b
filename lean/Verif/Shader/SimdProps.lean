import Verif.Shader.SimdDiverge

/-!
# C50: a shader run on a grid does at every point what it says for that point
-/

namespace Verif.Shader.Simd

variable {V : Type} {n : Nat} {truth : V → Bool} {junk : Nat → Fin n → V}

/-- **C50**: if a shader terminates at every point when run for that point alone, then the machine
run on all points together ends without error, with at each point the values of that point's own
run, all points running and the stacks empty — whatever the temporaries contained. -/
theorem C50_agrees (s : Stmt V) (code : List (Instr V)) (l : Nat) (hc : compS s [] 0 = some (code, l))
    (hs : s.Counted) (hn : 0 < n) (vars : Nat → Fin n → V) (cur : Fin n → Bool) (final : Fin n → Nat → V)
    (hf : ∀ i, ∃ F sig, exec truth F s (fun x => vars x i) = some (final i, sig)) :
    ∃ k t, runVM truth junk code k (VM.start vars cur) = .done t ∧ (∀ x i, t.vars x i = final i x) ∧
      (∀ i, t.run i = true) ∧ t.running = true ∧ t.stk = [] := by
  have hnorm : ∀ i, ∃ F, exec truth F s (fun x => vars x i) = some (final i, .normal) := by
    intro i
    obtain ⟨F, sig, h⟩ := hf i
    have := exec_within F s _ _ _ _ _ _ hc hs h
    cases sig with
    | normal => exact ⟨F, h⟩
    | brk k => simp [Sig.Within] at this
    | cont k => simp [Sig.Within] at this
  obtain ⟨F, hF⟩ := common_fuel (fun i F => exec truth F s (fun x => vars x i) = some (final i, .normal))
    (fun i F G h h' => exec_mono_le h h') hnorm
  have hlab := (compS_labels s _ _ _ _ hc).2.2
  obtain ⟨cur', t', r⟩ := (simS (truth := truth) (junk := junk) hlab F).1 s [] 0 code l 0 hc hs (by simp) (at_self code) [] vars cur (fun _ => true) [] 0
    (fun i => (final i, .normal)) (by simp) (fun i => ⟨fun _ => hF i, fun h => by cases h⟩)
  have ha : any (fun _ : Fin n => true) = true := any_of (i := ⟨0, hn⟩) rfl
  rw [ha] at r
  obtain ⟨k, hk⟩ := runVM_reach r (by simp [after]) rfl
  refine ⟨k, _, hk, fun _ _ => rfl, fun i => by simp [after], ?_, rfl⟩
  simp only [after, decide_true, Bool.and_true]
  exact ha

/-- **C50**: if a shader does not terminate at some point when run for that point alone, then the
machine run on all points does not end: neither normally, nor with an error. -/
theorem C50_diverges (s : Stmt V) (code : List (Instr V)) (l : Nat) (hc : compS s [] 0 = some (code, l))
    (hs : s.Counted) (vars : Nat → Fin n → V) (cur : Fin n → Bool) (i : Fin n)
    (hi : ∀ F, exec truth F s (fun x => vars x i) = none) :
    ∀ k, runVM truth junk code k (VM.start vars cur) = .more := by
  have hlab := (compS_labels s _ _ _ _ hc).2.2
  have h := diverge (truth := truth) (junk := junk) hlab s [] 0 code l 0 hc hs (by simp) (at_self code) []
    vars cur (fun _ => true) [] 0 (by simp) ⟨i, rfl, hi⟩
  rwa [show any (fun _ : Fin n => true) = true from any_of (i := i) rfl] at h

/-- **C50**: code is generated exactly for the shaders in which no `break` or `continue` leaves more
loops than surround it. -/
theorem C50_compiles (s : Stmt V) : (∃ r, compS s [] 0 = some r) ↔ s.Nested 0 := by
  have h : ∀ (s : Stmt V) ds l, (∃ r, compS s ds l = some r) ↔ s.Nested ds.length := by
    intro s
    induction s with
    | assign x e => intro ds l; exact ⟨fun _ => trivial, fun _ => ⟨_, rfl⟩⟩
    | expr e => intro ds l; exact ⟨fun _ => trivial, fun _ => ⟨_, rfl⟩⟩
    | seq a b iha ihb =>
      intro ds l
      simp only [Stmt.Nested, ← iha ds l, compS]
      constructor
      · rintro ⟨r, h⟩
        simp only [Option.bind_eq_some_iff, Option.map_eq_some_iff] at h
        obtain ⟨ra, ha, rb, hb, _⟩ := h
        exact ⟨⟨ra, ha⟩, (ihb ds ra.2).1 ⟨rb, hb⟩⟩
      · rintro ⟨⟨ra, ha⟩, hb⟩
        obtain ⟨rb, hb⟩ := (ihb ds ra.2).2 hb
        simp [ha, hb]
    | ifThen c t ih =>
      intro ds l
      have := ih (bump ds) (l + 1)
      rw [bump_length] at this
      simp only [Stmt.Nested, ← this, compS]
      constructor
      · rintro ⟨r, h⟩
        obtain ⟨rt, ht, _⟩ := Option.map_eq_some_iff.1 h
        exact ⟨rt, ht⟩
      · rintro ⟨rt, ht⟩; simp [ht]
    | ifElse c t e iht ihe =>
      intro ds l
      have ht := iht (bump ds) (l + 2)
      have he := fun l => ihe (bump ds) l
      rw [bump_length] at ht
      simp only [bump_length] at he
      simp only [Stmt.Nested, ← ht, compS]
      constructor
      · rintro ⟨r, h⟩
        simp only [Option.bind_eq_some_iff, Option.map_eq_some_iff] at h
        obtain ⟨ra, ha, rb, hb, _⟩ := h
        exact ⟨⟨ra, ha⟩, (he ra.2).1 ⟨rb, hb⟩⟩
      · rintro ⟨⟨ra, ha⟩, hb⟩
        obtain ⟨rb, hb⟩ := (he ra.2).2 hb
        simp [ha, hb]
    | loop c b inc ih =>
      intro ds l
      have := ih (1 :: bump ds) (l + 2)
      rw [List.length_cons, bump_length] at this
      simp only [Stmt.Nested, ← this, compS]
      constructor
      · rintro ⟨r, h⟩
        obtain ⟨rt, ht, _⟩ := Option.map_eq_some_iff.1 h
        exact ⟨rt, ht⟩
      · rintro ⟨rt, ht⟩; simp [ht]
    | brk m =>
      intro ds l
      by_cases hm : m > ds.length
      · simp [compS, breakLevels, hm, Stmt.Nested]
      · simp [compS, breakLevels, hm, Stmt.Nested]; omega
    | cont m =>
      intro ds l
      by_cases hm : m > ds.length
      · simp [compS, breakLevels, hm, Stmt.Nested]
      · simp [compS, breakLevels, hm, Stmt.Nested]; omega
  exact h s [] 0

/-- **C50** needs the parser's check that loops are counted from one: `continue 0` would compile to an
instruction whose assertion fails when it is reached. -/
theorem C50_continue_zero (vars : Nat → Fin n → V) (cur : Fin n → Bool) :
    ∃ code l, compS (.cont 0 : Stmt V) [] 0 = some (code, l) ∧
      runVM truth junk code 1 (VM.start vars cur) = .assertion :=
  ⟨[.rsBreak (-1)], 0, rfl, rfl⟩

/-! ### An example

`while (x) { if (y) break; x = x - 1; z = z + 1; }` at two points, with `y` true at the second.
-/

private def sample : Stmt Nat :=
  .loop (.var 0) (.seq (.ifThen (.var 1) (.brk 1))
    (.seq (.assign 0 (.un Nat.pred (.var 0))) (.assign 2 (.un Nat.succ (.var 2))))) none

private def at2 (a b : Nat) : Fin 2 → Nat := fun i => if i.val = 0 then a else b

private def before : Nat → Fin 2 → Nat
  | 0 => at2 2 3
  | 1 => at2 0 1
  | _ => at2 0 0

example : sample.Counted ∧ sample.Nested 0 := by simp [sample, Stmt.Counted, Stmt.Nested]

example : (List.range 3).map (fun x => (exec (· != 0) 9 sample (fun x => before x 0)).map fun r => r.1 x) =
    [some 0, some 0, some 2] := by decide

example : (List.range 3).map (fun x => (exec (· != 0) 9 sample (fun x => before x 1)).map fun r => r.1 x) =
    [some 3, some 1, some 0] := by decide

example : (match runVM (· != 0) (fun _ _ => 77) (((compS sample [] 0).map (·.1)).getD []) 70
      (VM.start before (fun _ => false)) with
    | .done t => some ((List.range 3).map fun x => (t.vars x 0, t.vars x 1))
    | _ => none) = some [(0, 3), (0, 1), (2, 0)] := by decide

/-- A point that does not terminate. -/
example : ∀ F, exec (V := Nat) (· != 0) F (.loop (.const 1) (.expr (.const 0)) none) (fun _ => 0) = none := by
  intro F
  induction F with
  | zero => rfl
  | succ F ih =>
    cases F with
    | zero => rfl
    | succ F => exact ih

end Verif.Shader.Simd
