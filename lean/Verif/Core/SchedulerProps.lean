import Verif.Core.Scheduler

/-!
# C31: the thread scheduler bounds concurrency and never loses a wake-up
-/

namespace Verif.Core.Scheduler

/-- The number of units not yet started. -/
def Pc.remaining : Pc → Nat
  | .check k => k
  | .toWait k => k
  | .waiting k => k
  | .incr k => k
  | .spawn k => k
  | .joining => 0
  | .done => 0

/-- Counted but not yet started. -/
def Pc.pending : Pc → Nat
  | .spawn _ => 1
  | _ => 0

/-- Units exist where the submitting thread handles one. -/
def Pc.Ok : Pc → Prop
  | .toWait k => 0 < k
  | .waiting k => 0 < k
  | .incr k => 0 < k
  | .spawn k => 0 < k
  | _ => True

/-- **C31, accounting.**  In every interleaving each submitted unit is started
exactly once or still to be started, and the counter is the number of units
running, plus the one being started. -/
theorem C31_account {max : Int} {n : Nat} {s : St} (h : Reach max n s) :
    s.running + s.leaving + s.finished + s.main.remaining = n ∧
      s.active = (s.running : Int) + s.main.pending ∧ s.main.Ok := by
  induction h with
  | init => simp [init, Pc.remaining, Pc.pending, Pc.Ok]
  | step _ hs ih =>
    obtain ⟨h1, h2, h3⟩ := ih
    cases hs <;> simp_all [Pc.remaining, Pc.pending, Pc.Ok] <;> omega

/-- **C31, partial.**  As the renderer uses it, with no more units than threads
allowed: in every interleaving the submitting thread never waits for a thread,
and never more than the allowed number of units run.  Missing: more units than
threads, see `C31_bound_violated` and `C31_wakeup_violated`. -/
theorem C31_few_partial {max : Int} {n : Nat} (hn : (n : Int) ≤ max) {s : St}
    (h : Reach max n s) :
    (s.running : Int) ≤ max ∧ s.active ≤ max ∧
      (∀ k, s.main ≠ .toWait k) ∧ (∀ k, s.main ≠ .waiting k) := by
  have key : (∀ k, s.main ≠ .toWait k) ∧ (∀ k, s.main ≠ .waiting k) := by
    induction h with
    | init => simp [init]
    | step hr hs ih =>
      have acc := C31_account hr
      obtain ⟨a1, a2, a3⟩ := acc
      cases hs with
      | @full k hm ha =>
        exfalso
        rw [hm] at a1 a2
        simp only [Pc.remaining, Pc.pending] at a1 a2
        omega
      | _ => simp_all
  obtain ⟨a1, a2, a3⟩ := C31_account h
  refine ⟨by omega, ?_, key⟩
  have hp : s.main.pending ≤ s.main.remaining := by
    cases hm : s.main <;> rw [hm] at a3 <;> simp_all [Pc.pending, Pc.remaining, Pc.Ok] <;> omega
  omega

/-- The work left. -/
def work (s : St) : Nat :=
  (match s.main with
    | .check k => 8 * k + 3
    | .toWait k => 8 * k + 2
    | .waiting k => 8 * k + 1
    | .incr k => 8 * k
    | .spawn k => 8 * k - 1
    | .joining => 1
    | .done => 0) + 2 * s.running + s.leaving

theorem work_step {max : Int} {n : Nat} {s t : St} (hr : Reach max n s) (h : Step max s t) :
    work t < work s := by
  obtain ⟨_, _, hok⟩ := C31_account hr
  cases h <;> simp_all [work, Pc.Ok] <;> omega

/-- **C31, termination.**  No interleaving goes on for ever. -/
theorem C31_terminates {max : Int} {n : Nat} (f : Nat → St) (h0 : f 0 = init n)
    (hs : ∀ i, Step max (f i) (f (i + 1))) : False := by
  have hr : ∀ i, Reach max n (f i) := by
    intro i
    induction i with
    | zero => rw [h0]; exact Reach.init
    | succ i ih => exact Reach.step ih (hs i)
  have : ∀ i, work (f i) + i ≤ work (f 0) := by
    intro i
    induction i with
    | zero => simp
    | succ i ih => have := work_step (hr i) (hs i); omega
  have := this (work (f 0) + 1)
  omega

/-- **C31, progress.**  Where nothing can happen any more, either all units have
ended, or the submitting thread waits although no unit is running: it missed its
wake-up. -/
theorem C31_stuck {max : Int} {n : Nat} {s : St} (h : Reach max n s)
    (hstuck : ∀ t, ¬ Step max s t) :
    (s.main = .done ∧ s.finished = n) ∨
      ∃ k, s.main = .waiting k ∧ s.running = 0 ∧ s.leaving = 0 := by
  have hrun : s.running = 0 := by
    cases hr : s.running with
    | zero => rfl
    | succ r => exact absurd (Step.finish hr) (hstuck _)
  have hleave : s.leaving = 0 := by
    cases hl : s.leaving with
    | zero => rfl
    | succ l =>
      by_cases hw : ∃ k, s.main = .waiting k
      · obtain ⟨k, hk⟩ := hw
        exact absurd (Step.notify hl hk) (hstuck _)
      · exact absurd (Step.notifyNone hl (fun k hk => hw ⟨k, hk⟩)) (hstuck _)
  obtain ⟨a1, _, a3⟩ := C31_account h
  cases hm : s.main with
  | check k =>
    cases k with
    | zero => exact absurd (Step.last hm) (hstuck _)
    | succ k =>
      by_cases ha : s.active ≥ max
      · exact absurd (Step.full hm ha) (hstuck _)
      · exact absurd (Step.free hm ha) (hstuck _)
  | toWait k => exact absurd (Step.wait hm) (hstuck _)
  | waiting k => exact Or.inr ⟨k, rfl, hrun, hleave⟩
  | incr k => exact absurd (Step.incr hm) (hstuck _)
  | spawn k =>
    rw [hm] at a3
    cases k with
    | zero => exact absurd a3 (by simp [Pc.Ok])
    | succ k => exact absurd (Step.spawn hm) (hstuck _)
  | joining => exact absurd (Step.join hm hrun hleave) (hstuck _)
  | done =>
    left
    rw [hm] at a1
    simp only [Pc.remaining] at a1
    exact ⟨rfl, by omega⟩

/-- **C31, partial.**  With no more units than threads allowed, every
interleaving that cannot go on has run all units to their end. -/
theorem C31_completes_partial {max : Int} {n : Nat} (hn : (n : Int) ≤ max) {s : St}
    (h : Reach max n s) (hstuck : ∀ t, ¬ Step max s t) : s.main = .done ∧ s.finished = n := by
  rcases C31_stuck h hstuck with h1 | ⟨k, h1, _⟩
  · exact h1
  · exact absurd h1 ((C31_few_partial hn h).2.2.2 k)

/-- Submitting one unit when there is room. -/
theorem reach_start {max : Int} {n k r l f : Nat} (hroom : (r : Int) < max)
    (h : Reach max n ⟨.check (k + 1), r, r, l, f⟩) :
    Reach max n ⟨.check k, (r + 1 : Nat), r + 1, l, f⟩ := by
  have h1 := Reach.step h (Step.free (k := k) rfl (by simp only; omega))
  have h2 := Reach.step h1 (Step.incr (k := k + 1) rfl)
  have h3 := Reach.step h2 (Step.spawn (k := k) rfl)
  simpa using h3

/-- Units that end before the next is submitted, without the notification. -/
theorem reach_leaving {max : Int} (hmax : 0 < max) (n : Nat) : ∀ m k, n = k + m →
    Reach max n ⟨.check k, 0, 0, m, 0⟩ := by
  intro m
  induction m with
  | zero => intro k hk; have : n = k := by omega
            subst this; exact Reach.init
  | succ m ih =>
    intro k hk
    have h1 := reach_start (r := 0) (by simpa using hmax) (ih (k + 1) (by omega))
    have h2 := Reach.step h1 (Step.finish (r := 0) rfl)
    simpa using h2

/-- Filling up the threads allowed. -/
theorem reach_fill {M n l f : Nat} : ∀ m k, m ≤ M →
    Reach (M : Int) n ⟨.check (k + m), 0, 0, l, f⟩ →
    Reach (M : Int) n ⟨.check k, (m : Nat), m, l, f⟩ := by
  intro m
  induction m with
  | zero => intro k _ h; simpa using h
  | succ m ih =>
    intro k hm h
    have h1 := ih (k + 1) (by omega) (by have e : k + 1 + m = k + (m + 1) := by omega
                                         rw [e]; exact h)
    exact reach_start (by omega) h1

/-- Every notification left over lets one more unit start. -/
theorem reach_exceed {M n : Nat} : ∀ d k f, ∀ r, M ≤ r →
    Reach (M : Int) n ⟨.check (k + d), (r : Nat), r, d, f⟩ →
    Reach (M : Int) n ⟨.check k, (r + d : Nat), r + d, 0, f + d⟩ := by
  intro d
  induction d with
  | zero => intro k f r _ h; simpa using h
  | succ d ih =>
    intro k f r hr h
    have h1 := Reach.step h (Step.full (k := k + d) rfl (by simp only; omega))
    have h2 := Reach.step h1 (Step.wait (k := k + d + 1) rfl)
    have h3 := Reach.step h2 (Step.notify (l := d) (k := k + d + 1) rfl rfl)
    have h4 := Reach.step h3 (Step.incr (k := k + d + 1) rfl)
    have h5 := Reach.step h4 (Step.spawn (k := k + d) rfl)
    have h6 := ih k (f + 1) (r + 1) (by omega) (by simpa using h5)
    have e1 : r + 1 + d = r + (d + 1) := by omega
    have e2 : f + 1 + d = f + (d + 1) := by omega
    rw [e1, e2] at h6
    exact h6

/-- **C31 fails: the number of threads is not bounded.**  For every limit and
every number there is an interleaving in which that many units more than the
limit run at the same time.  (The condition is not tested again after the wait,
and a unit that ended long ago may deliver its notification late:
libs/core/threadscheduler.cpp:68-71, 89-93.) -/
theorem C31_bound_violated (M : Nat) (hM : 0 < M) (m : Nat) :
    ∃ n s, Reach (M : Int) n s ∧ s.running = M + m := by
  refine ⟨(0 + m + M) + m, ⟨.check 0, (M + m : Nat), M + m, 0, 0 + m⟩, ?_, rfl⟩
  have h1 := reach_leaving (max := (M : Int)) (by omega) ((0 + m + M) + m) m (0 + m + M) rfl
  have h2 := reach_fill M (0 + m) (Nat.le_refl _) h1
  exact reach_exceed m 0 0 M (Nat.le_refl _) h2

/-- All running units end and notify while the submitting thread is about to wait. -/
theorem reach_drain {max : Int} {n k : Nat} : ∀ r f,
    Reach max n ⟨.toWait k, (r : Nat), r, 0, f⟩ → Reach max n ⟨.toWait k, 0, 0, 0, f + r⟩ := by
  intro r
  induction r with
  | zero => intro f h; simpa using h
  | succ r ih =>
    intro f h
    have h1 := Reach.step h (Step.finish (r := r) rfl)
    have h2 := Reach.step h1 (Step.notifyNone (l := 0) rfl (by intro k hk; simp at hk))
    have h3 := ih (f + 1) (by simpa using h2)
    have e : f + 1 + r = f + (r + 1) := by omega
    rw [e] at h3
    exact h3

/-- **C31 fails: a wake-up can be lost.**  For every limit, with one unit more
than the limit there is an interleaving that ends with the submitting thread
waiting for ever although no unit is running.  (The notification is sent without
the mutex of the condition: libs/core/threadscheduler.cpp:89-93.) -/
theorem C31_wakeup_violated (M : Nat) :
    ∃ s, Reach (M : Int) (M + 1) s ∧ s.main = .waiting 1 ∧ s.finished = M ∧
      ∀ t, ¬ Step (M : Int) s t := by
  refine ⟨⟨.waiting 1, 0, 0, 0, 0 + M⟩, ?_, rfl, by simp, ?_⟩
  · have h0 : Reach (M : Int) (M + 1) ⟨.check (1 + M), 0, 0, 0, 0⟩ := by
      rw [Nat.add_comm 1 M]; exact Reach.init
    have h1 := reach_fill M 1 (Nat.le_refl _) h0
    have h2 := Reach.step h1 (Step.full (k := 0) rfl (by simp))
    have h3 := reach_drain M 0 h2
    exact Reach.step h3 (Step.wait (k := 1) rfl)
  · intro t ht
    cases ht <;> simp_all

/-- The interleavings of two units on two threads do reach the end. -/
example : ∃ s, Reach 2 2 s ∧ s.main = .done ∧ s.finished = 2 := by
  have h0 : Reach 2 2 ⟨.check 2, 0, 0, 0, 0⟩ := Reach.init
  have h1 := reach_fill (M := 2) 2 0 (Nat.le_refl _) h0
  have h2 := Reach.step h1 (Step.last rfl)
  have h3 := Reach.step h2 (Step.finish (r := 1) rfl)
  have h4 := Reach.step h3 (Step.finish (r := 0) rfl)
  have h5 := Reach.step h4 (Step.notifyNone (l := 1) rfl (by intro k hk; simp at hk))
  have h6 := Reach.step h5 (Step.notifyNone (l := 0) rfl (by intro k hk; simp at hk))
  have h7 := Reach.step h6 (Step.join rfl rfl rfl)
  exact ⟨_, h7, rfl, rfl⟩

end Verif.Core.Scheduler
