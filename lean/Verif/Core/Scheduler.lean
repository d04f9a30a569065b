/-!
# The thread scheduler

Model of `CqThreadScheduler` (libs/core/threadscheduler.cpp:64-103) as a
transition system: one thread submits units with `addWorkUnit` and then calls
`joinAll`, as libs/core/imagebuffer.cpp:710-736 does; each unit runs in a thread
of its own and calls `notifyWorkUnitFinished` when it ends.

Simplifications: reads and writes of `m_activeThreads` are atomic (the read in
libs/core/threadscheduler.cpp:68 is not protected by the mutex used for the
writes, which is a data race); a thread is only counted, since all behave alike;
the units end after finitely many steps.  Wake-ups without notification, which
`boost::condition` allows, are not among the steps: what goes wrong goes wrong
without them.
-/

namespace Verif.Core.Scheduler

/-- Where the submitting thread is; the number is how many units are still to be
started. libs/core/threadscheduler.cpp:64-103. -/
inductive Pc where
  /-- libs/core/threadscheduler.cpp:67-68: before the test, or about to leave. -/
  | check (k : Nat)
  /-- libs/core/threadscheduler.cpp:70: the test succeeded, not yet waiting. -/
  | toWait (k : Nat)
  /-- libs/core/threadscheduler.cpp:70: inside `wait`. -/
  | waiting (k : Nat)
  /-- libs/core/threadscheduler.cpp:73-76. -/
  | incr (k : Nat)
  /-- libs/core/threadscheduler.cpp:78. -/
  | spawn (k : Nat)
  /-- libs/core/threadscheduler.cpp:101. -/
  | joining
  | done
  deriving DecidableEq, Repr

/-- The state: the counter, the number of threads running a unit, the number of
threads between the decrement and the notification, the number of threads that
have ended. libs/core/threadscheduler.cpp:64-103. -/
structure St where
  main : Pc
  active : Int
  running : Nat
  leaving : Nat
  finished : Nat
  deriving DecidableEq, Repr

/-- One step of some thread, for a scheduler created with `max`.
libs/core/threadscheduler.cpp:43-103. -/
inductive Step (max : Int) : St → St → Prop
  /-- libs/core/threadscheduler.cpp:68: too many threads. -/
  | full {s k} : s.main = .check (k + 1) → s.active ≥ max →
      Step max s { s with main := .toWait (k + 1) }
  /-- libs/core/threadscheduler.cpp:68: room for a thread. -/
  | free {s k} : s.main = .check (k + 1) → ¬ s.active ≥ max →
      Step max s { s with main := .incr (k + 1) }
  /-- libs/core/imagebuffer.cpp:736: nothing left to submit. -/
  | last {s} : s.main = .check 0 → Step max s { s with main := .joining }
  /-- libs/core/threadscheduler.cpp:70: `wait` blocks. -/
  | wait {s k} : s.main = .toWait k → Step max s { s with main := .waiting k }
  /-- libs/core/threadscheduler.cpp:75. -/
  | incr {s k} : s.main = .incr k → Step max s { s with main := .spawn k, active := s.active + 1 }
  /-- libs/core/threadscheduler.cpp:78. -/
  | spawn {s k} : s.main = .spawn (k + 1) →
      Step max s { s with main := .check k, running := s.running + 1 }
  /-- libs/core/threadscheduler.cpp:43, 89-92: a unit ends, the counter goes down. -/
  | finish {s r} : s.running = r + 1 →
      Step max s { s with running := r, leaving := s.leaving + 1, active := s.active - 1 }
  /-- libs/core/threadscheduler.cpp:93: `notify_one` wakes the waiting thread. -/
  | notify {s l k} : s.leaving = l + 1 → s.main = .waiting k →
      Step max s { s with leaving := l, finished := s.finished + 1, main := .incr k }
  /-- libs/core/threadscheduler.cpp:93: `notify_one` with nobody waiting. -/
  | notifyNone {s l} : s.leaving = l + 1 → (∀ k, s.main ≠ .waiting k) →
      Step max s { s with leaving := l, finished := s.finished + 1 }
  /-- libs/core/threadscheduler.cpp:101: all threads have ended. -/
  | join {s} : s.main = .joining → s.running = 0 → s.leaving = 0 →
      Step max s { s with main := .done }

/-- The state before `n` units are submitted. libs/core/imagebuffer.cpp:710-736. -/
def init (n : Nat) : St := { main := .check n, active := 0, running := 0, leaving := 0, finished := 0 }

/-- The states that can occur. Runs of the steps of threadscheduler.cpp:43-103. -/
inductive Reach (max : Int) (n : Nat) : St → Prop
  | init : Reach max n (init n)
  | step {s t} : Reach max n s → Step max s t → Reach max n t

end Verif.Core.Scheduler
