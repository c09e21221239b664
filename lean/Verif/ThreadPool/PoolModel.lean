import Verif.Basic

/-! # Model of `ThreadPool` itself (include/utils/ThreadPool.h:28-96, src/utils/ThreadPool.cpp:9-44)

The queue is protected by a mutex which a thread only gives up while it runs a task or waits on the condition
variable. Tasks are numbered in the order in which they are pushed; a task may push further tasks while it runs.
Not modelled: exceptions thrown by tasks (they terminate the process). -/

namespace Verif.ThreadPool.Pool

/-- A pool thread, ThreadPool.cpp:18-30. -/
inductive PT where
  /-- at the predicate of `work_while` -/
  | awake
  /-- blocked in `condition.wait` -/
  | sleeping
  | running (task : Nat)
  /-- `worker()` has returned -/
  | exited
  deriving DecidableEq

/-- The thread that destroys the pool, ThreadPool.cpp:32-44. -/
inductive JT where
  /-- has not called `join` -/
  | outside
  /-- in `work_while` inside `join` -/
  | draining
  | running (task : Nat)
  /-- in `thread.join()` -/
  | joining
  /-- `join` has returned -/
  | returned
  deriving DecidableEq

/-- `next` counts the pushed tasks; `started` and `finished` are ghost logs. -/
structure State where
  queue : List Nat
  next : Nat
  started : List Nat
  finished : List Nat
  threads : List PT
  waitForNew : Bool
  joiner : JT

/-- Constructor, ThreadPool.cpp:9-16. -/
def State.init (nthreads : Nat) : State :=
  ⟨[], 0, [], [], List.replicate nthreads .awake, true, .outside⟩

/-- `notify_one`: wakes an arbitrary waiter, if there is one. -/
inductive NotifyOne : List PT → List PT → Prop where
  | nobody (l : List PT) : (∀ p ∈ l, p ≠ .sleeping) → NotifyOne l l
  | wake (l : List PT) (k : Nat) : l[k]? = some .sleeping → NotifyOne l (l.set k .awake)

/-- Who may push: anybody before the pool is being destroyed, and any running task. -/
def State.mayPush (s : State) : Prop :=
  s.joiner = .outside ∨ (∃ t, s.joiner = .running t) ∨ ∃ (k t : Nat), s.threads[k]? = some (.running t)

inductive Step : State → State → Prop where
  /-- `push`, ThreadPool.h:60-66. -/
  | push (s : State) (th : List PT) : s.mayPush → NotifyOne s.threads th →
      Step s { s with queue := s.queue ++ [s.next], next := s.next + 1, threads := th }
  /-- A pool thread takes the front task, ThreadPool.h:75-81. -/
  | pop (s : State) (k t : Nat) (q : List Nat) : s.threads[k]? = some .awake → s.queue = t :: q →
      Step s { s with queue := q, threads := s.threads.set k (.running t), started := s.started ++ [t] }
  /-- The predicate of `worker`, ThreadPool.cpp:23-26: wait. -/
  | sleep (s : State) (k : Nat) : s.threads[k]? = some .awake → s.queue = [] → s.waitForNew = true →
      Step s { s with threads := s.threads.set k .sleeping }
  /-- The predicate of `worker` is false, ThreadPool.cpp:28. -/
  | exit (s : State) (k : Nat) : s.threads[k]? = some .awake → s.queue = [] → s.waitForNew = false →
      Step s { s with threads := s.threads.set k .exited }
  | finish (s : State) (k t : Nat) : s.threads[k]? = some (.running t) →
      Step s { s with threads := s.threads.set k .awake, finished := s.finished ++ [t] }
  /-- The condition variable may wake up at any time. -/
  | spurious (s : State) (k : Nat) : s.threads[k]? = some .sleeping →
      Step s { s with threads := s.threads.set k .awake }
  /-- `join` sets the flag and notifies all, ThreadPool.cpp:35-37. -/
  | join (s : State) : s.joiner = .outside →
      Step s { s with
        joiner := .draining
        waitForNew := false
        threads := s.threads.map fun p => if p = .sleeping then .awake else p }
  /-- `work_while` with a constant-true predicate, ThreadPool.cpp:38. -/
  | joinPop (s : State) (t : Nat) (q : List Nat) : s.joiner = .draining → s.queue = t :: q →
      Step s { s with queue := q, joiner := .running t, started := s.started ++ [t] }
  | joinFinish (s : State) (t : Nat) : s.joiner = .running t →
      Step s { s with joiner := .draining, finished := s.finished ++ [t] }
  | joinWait (s : State) : s.joiner = .draining → s.queue = [] → Step s { s with joiner := .joining }
  /-- All `thread.join()` calls return once all threads have ended, ThreadPool.cpp:41-44. -/
  | joinDone (s : State) : s.joiner = .joining → (∀ p ∈ s.threads, p = .exited) →
      Step s { s with joiner := .returned }

inductive Reach (s₀ : State) : State → Prop where
  | refl : Reach s₀ s₀
  | step {s s' : State} : Reach s₀ s → Step s s' → Reach s₀ s'

end Verif.ThreadPool.Pool
