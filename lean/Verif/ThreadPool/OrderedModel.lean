import Verif.Basic

/-! # Model of `MultipleProducersOrderedConsumer` (include/utils/ThreadPool.h:243-405)

Every field of the C++ object is protected by the pool's mutex; a thread only gives the mutex up inside
`producer_`, `consumer_` and the two condition-variable waits. One step of the model is one stretch of code between
two such points, so the interleavings of the model are exactly the interleavings of the code.

Not modelled: other tasks in the same pool (they only delay the start of a worker, and a worker that has not started
is in state `waiting`), exceptions thrown by the producer or consumer, `ptrdiff_t` overflow. -/

namespace Verif.ThreadPool.Ordered
open Verif

/-- Constructor arguments, ThreadPool.h:262-275, and the worker count of ThreadPool.h:284.
`workers` counts the pool's threads plus the main thread. -/
structure Params (α : Type) where
  first : Int
  last : Int
  maxPending : Nat
  workers : Nat
  produce : Int → α

/-- Where a worker is (ThreadPool.h:307-389). -/
inductive PC where
  /-- at the loop test in `wait` (309-313), holding or about to take the mutex -/
  | waiting
  /-- blocked in `free_slot_cond_.wait` (321) -/
  | sleeping
  /-- in `producer_(i)` with the mutex released (334-336) -/
  | producing (i : Int)
  /-- in `consumer_` with the mutex released (353-354) -/
  | consuming
  /-- `consumer_` has returned and the slot is cleared, mutex not yet taken again (355) -/
  | cleared
  /-- returned from `worker` (389) -/
  | exited
  deriving DecidableEq

/-- Where the caller of `run` is (ThreadPool.h:296-302). -/
inductive MainPC where
  | working
  | waitDone
  | returned
  deriving DecidableEq

/-- The object's fields (ThreadPool.h:391-405) plus ghost logs: the indices handed to the producer, and the items
handed to the consumer, in order of the calls. `crashed` records that an out-of-bounds slot was addressed or an
`assert` of the code failed. Worker 0 is the main thread. -/
structure State (α : Type) where
  write : Int
  read : Int
  consumerWait : Int
  ring : Nat → Option α
  pcs : List PC
  count : Nat
  main : MainPC
  produced : List Int
  consumed : List α
  crashed : Bool

variable {α : Type}

/-- `(idx + max_pending_) % max_pending_`, ThreadPool.h:330, 349: C++ `%` truncates, so the index is negative when
`idx < -max_pending_`; addressing the array there is undefined. `% 0` is undefined too. -/
def slot (P : Params α) (idx : Int) : Outcome Nat :=
  if P.maxPending = 0 then .ub
  else
    let r := (idx + P.maxPending).tmod P.maxPending
    if r < 0 then .ub else .ok r.toNat

/-- `*slot = value`. -/
def setRing (ring : Nat → Option α) (j : Nat) (v : Option α) : Nat → Option α :=
  fun k => if k = j then v else ring k

/-- `notify_all` on `free_slot_cond_`, ThreadPool.h:383. -/
def wakeAll (pcs : List PC) : List PC := pcs.map fun p => if p = .sleeping then .waiting else p

/-- `notify_one` on `free_slot_cond_`, ThreadPool.h:364: wakes an arbitrary waiter, if there is one. -/
inductive NotifyOne : List PC → List PC → Prop where
  | nobody (pcs : List PC) : (∀ p ∈ pcs, p ≠ .sleeping) → NotifyOne pcs pcs
  | wake (pcs : List PC) (k : Nat) : pcs[k]? = some .sleeping → NotifyOne pcs (pcs.set k .waiting)

/-- The head of the loop in `consume_many`, ThreadPool.h:349 and 367, for worker `k`: go on consuming if the slot at
the read index is filled, otherwise remember the index and leave. -/
def consumeTest (P : Params α) (s : State α) (k : Nat) : State α :=
  match slot P s.read with
  | .ok j =>
    match s.ring j with
    | some _ => { s with pcs := s.pcs.set k .consuming }
    | none => { s with consumerWait := s.read, pcs := s.pcs.set k .waiting }
  | _ => { s with crashed := true }

/-- End of `worker`, ThreadPool.h:382-388, and, for worker 0, the test in `run` (299-302): the main thread keeps
the mutex between its decrement and that test. -/
def exitState (s : State α) (k : Nat) : State α :=
  { s with
    pcs := (wakeAll s.pcs).set k .exited
    count := s.count - 1
    main :=
      if k = 0 then (if s.count - 1 > 0 then .waitDone else .returned)
      else if s.count - 1 = 0 ∧ s.main = .waitDone then .returned else s.main }

/-- State at the start of `worker` in `run`, ThreadPool.h:278-297 (all workers scheduled). -/
def State.init (P : Params α) : State α where
  write := P.first
  read := P.first
  consumerWait := P.first
  ring := fun _ => none
  pcs := List.replicate P.workers .waiting
  count := P.workers
  main := .working
  produced := []
  consumed := []
  crashed := false

/-- One step of some thread. The C++ standard allows a condition-variable wait to return without a notification:
`wakes` says whether that may happen to `free_slot_cond_.wait` in `wait`, and `returns` whether it may happen to
`work_done_cond_.wait` in `run`. -/
inductive Step (P : Params α) (wakes returns : Bool) : State α → State α → Prop where
  /-- `wait` returns false and the worker ends (311-314, 382-388). -/
  | exit (s : State α) (k : Nat) : s.pcs[k]? = some .waiting → P.last ≤ s.write →
      Step P wakes returns s (exitState s k)
  /-- The ring is full (319-322). -/
  | sleep (s : State α) (k : Nat) : s.pcs[k]? = some .waiting → s.write < P.last →
      ¬ s.write - s.read < P.maxPending →
      Step P wakes returns s { s with pcs := s.pcs.set k .sleeping }
  /-- `produce` up to the unlock (329-334). -/
  | start (s : State α) (k j : Nat) : s.pcs[k]? = some .waiting → s.write < P.last →
      s.write - s.read < P.maxPending → slot P s.write = .ok j →
      Step P wakes returns s { s with
        write := s.write + 1
        pcs := s.pcs.set k (.producing s.write)
        produced := s.produced ++ [s.write] }
  /-- The same with an out-of-bounds slot. -/
  | startCrash (s : State α) (k : Nat) : s.pcs[k]? = some .waiting → s.write < P.last →
      s.write - s.read < P.maxPending → slot P s.write = .ub →
      Step P wakes returns s { s with crashed := true }
  /-- `produce` after the lock is taken again (336-342), then the test at 376 fails. -/
  | store (s : State α) (k j : Nat) (i : Int) : s.pcs[k]? = some (.producing i) → slot P i = .ok j →
      s.ring j = none → i ≠ s.consumerWait →
      Step P wakes returns s { s with ring := setRing s.ring j (some (P.produce i)), pcs := s.pcs.set k .waiting }
  /-- As `store`, but the test at 376 succeeds and the worker enters `consume_many` (346-349). -/
  | storeConsume (s : State α) (k j : Nat) (i : Int) : s.pcs[k]? = some (.producing i) → slot P i = .ok j →
      s.ring j = none → i = s.consumerWait →
      Step P wakes returns s (consumeTest P { s with ring := setRing s.ring j (some (P.produce i)) } k)
  /-- The `assert(! *slot)` at 338 fails: an item not yet consumed would be overwritten. -/
  | storeCrash (s : State α) (k j : Nat) (i : Int) : s.pcs[k]? = some (.producing i) → slot P i = .ok j →
      s.ring j ≠ none → Step P wakes returns s { s with crashed := true }
  /-- `consumer_(std::move(*slot)); *slot = {};` (353-354), done without the mutex. The model does both in one step;
  theorem `C05_no_concurrent_slot_access` justifies this. -/
  | consume (s : State α) (k j : Nat) (v : α) : s.pcs[k]? = some .consuming → slot P s.read = .ok j →
      s.ring j = some v →
      Step P wakes returns s { s with
        ring := setRing s.ring j none
        pcs := s.pcs.set k .cleared
        consumed := s.consumed ++ [v] }
  /-- Lock, increment the read index, signal a producer if the queue was full (355-365), test the next slot. -/
  | advance (s : State α) (k : Nat) (pcs' : List PC) : s.pcs[k]? = some .cleared →
      (if P.maxPending ≤ s.write - s.read then NotifyOne s.pcs pcs' else pcs' = s.pcs) →
      Step P wakes returns s (consumeTest P { s with read := s.read + 1, pcs := pcs' } k)
  /-- Spurious wake-up of a producer waiting for a slot. -/
  | spuriousWake (s : State α) (k : Nat) : wakes = true → s.pcs[k]? = some .sleeping →
      Step P wakes returns s { s with pcs := s.pcs.set k .waiting }
  /-- Spurious wake-up of `run`: the wait at 301 is in an `if`, so `run` returns. -/
  | spuriousReturn (s : State α) : returns = true → s.main = .waitDone →
      Step P wakes returns s { s with main := .returned }

/-- States reachable by any interleaving. -/
inductive Reach (P : Params α) (wakes returns : Bool) (s₀ : State α) : State α → Prop where
  | refl : Reach P wakes returns s₀ s₀
  | step {s s' : State α} : Reach P wakes returns s₀ s → Step P wakes returns s s' → Reach P wakes returns s₀ s'

end Verif.ThreadPool.Ordered
