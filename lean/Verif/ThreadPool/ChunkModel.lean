import Verif.Basic

/-!
# Model of `parallel_for` (include/utils/ThreadPool.h:122-208)

The index type is `Int` (the template is instantiated with integers or random access iterators; iterators are
identified with their offset).
-/

namespace Verif.ThreadPool
open Verif

/-- `round_up_divide`, include/utils/math.h:103-106, on unbounded naturals; division by zero is undefined. -/
def roundUpDivide (dividend divisor : Nat) : Outcome Nat :=
  if divisor = 0 then .ub else .ok ((dividend + divisor - 1) / divisor)

/-- The chunk arithmetic of `parallel_for`, ThreadPool.h:137-153: from the number of items, the number of pool
threads, `chunk_size_factor` and `chunks_per_worker` to (chunk size, number of chunks). -/
def planChunks (nitems threads factor chunksPerWorker : Nat) : Outcome (Nat × Nat) := do
  let nworkers := threads + 1
  let factor' := if factor ≤ 1 then 1 else factor
  let blocks ← if factor ≤ 1 then pure nitems else roundUpDivide nitems factor'
  let maxChunks := min (chunksPerWorker * nworkers) blocks
  let q ← roundUpDivide blocks maxChunks
  let chunkSize := factor' * q
  let chunks ← roundUpDivide nitems chunkSize
  pure (chunkSize, chunks)

/-- The loop that creates the chunks `[chunk_first, chunk_last)`, ThreadPool.h:168-195. The loop only terminates
for a positive increment; `planChunks` guarantees one (theorem `C03_plan`), otherwise the model returns `[]`. -/
def chunkList (inc : Int) (first last : Int) : List (Int × Int) :=
  if _h : 0 < inc ∧ first < last then
    let chunkLast := if last - first > inc then first + inc else last
    (first, chunkLast) :: chunkList inc chunkLast last
  else []
termination_by (last - first).toNat
decreasing_by
  split <;> omega

/-- A task in the pool's queue: one of this loop's chunks, or a task of somebody else. -/
inductive Task where
  | chunk (first last : Int)
  | other
  deriving DecidableEq

/-- What a thread is doing: nothing, or running a task; a chunk task is running its loop body for index `i`
next (ThreadPool.h:185-188). -/
inductive Thread where
  | idle
  | running (i last : Int)
  | runningOther
  deriving DecidableEq

/-- The thread that called `parallel_for`: in `work_while` (ThreadPool.h:198-203, maybe inside a task), in
`work_done.wait` (206), at the loop test before or after a wait (204), or returned. -/
inductive Main where
  | working (t : Thread)
  | sleeping
  | awake
  | returned
  deriving DecidableEq

/-- Pool queue, `chunks_remaining`, pool threads, calling thread and the log of loop-body executions. -/
structure PF where
  queue : List Task
  remaining : Nat
  threads : List Thread
  main : Main
  log : List Int

/-- How a thread state starts on a popped task (ThreadPool.h:77-80, 182-185). -/
def Thread.start : Task → Thread
  | .chunk a b => .running a b
  | .other => .runningOther

/-- State after all chunk tasks were pushed (FIFO, behind whatever `pre` was queued already) while the lock is
held (ThreadPool.h:167-195). -/
def PF.init (pre : List Task) (first last inc : Int) (chunks : Nat) (nthreads : Nat) : PF where
  queue := pre ++ (chunkList inc first last).map (fun c => .chunk c.1 c.2)
  remaining := chunks
  threads := List.replicate nthreads .idle
  main := .working .idle
  log := []

/-- The end of a chunk task, ThreadPool.h:189-193: decrement the counter and notify the caller if it reaches 0. -/
def PF.chunkDone (s : PF) : PF :=
  { s with
    remaining := s.remaining - 1
    main := if s.remaining - 1 = 0 ∧ s.main = .sleeping then .awake else s.main }

/-- One atomic step of any thread. Between two lock operations a thread runs alone; the loop bodies run unlocked
and are interleaved index by index. `foreign` says whether other code may push tasks to the pool meanwhile,
`spurious` whether `work_done.wait` may return without a notification (the C++ standard allows it). -/
inductive PF.Step (foreign spurious : Bool) : PF → PF → Prop where
  /-- a foreign task is pushed -/
  | pushOther (s : PF) : foreign = true → PF.Step foreign spurious s { s with queue := s.queue ++ [.other] }
  /-- a pool thread pops the front task (work_while, ThreadPool.h:74-80) -/
  | pop (s : PF) (k : Nat) (t : Task) (q : List Task) : s.queue = t :: q → s.threads[k]? = some .idle →
      PF.Step foreign spurious s { s with queue := q, threads := s.threads.set k (.start t) }
  /-- a pool thread runs the loop body once (185-188) -/
  | body (s : PF) (k : Nat) (i l : Int) : s.threads[k]? = some (.running i l) → i < l →
      PF.Step foreign spurious s { s with threads := s.threads.set k (.running (i + 1) l), log := s.log ++ [i] }
  /-- a pool thread finishes its chunk (189-193) -/
  | finish (s : PF) (k : Nat) (i l : Int) : s.threads[k]? = some (.running i l) → ¬ i < l →
      PF.Step foreign spurious s { s.chunkDone with threads := s.threads.set k .idle }
  | finishOther (s : PF) (k : Nat) : s.threads[k]? = some .runningOther →
      PF.Step foreign spurious s { s with threads := s.threads.set k .idle }
  /-- the caller pops a task: predicate `chunks_remaining > 0` and queue not empty (74, 198-203) -/
  | mainPop (s : PF) (t : Task) (q : List Task) : s.queue = t :: q → s.main = .working .idle → 0 < s.remaining →
      PF.Step foreign spurious s { s with queue := q, main := .working (.start t) }
  | mainBody (s : PF) (i l : Int) : s.main = .working (.running i l) → i < l →
      PF.Step foreign spurious s { s with main := .working (.running (i + 1) l), log := s.log ++ [i] }
  | mainFinish (s : PF) (i l : Int) : s.main = .working (.running i l) → ¬ i < l →
      PF.Step foreign spurious s { s.chunkDone with main := .working .idle }
  | mainFinishOther (s : PF) : s.main = .working .runningOther →
      PF.Step foreign spurious s { s with main := .working .idle }
  /-- work_while ends (74): nothing remains, or the queue is empty -/
  | mainLeave (s : PF) : s.main = .working .idle → (s.remaining = 0 ∨ s.queue = []) →
      PF.Step foreign spurious s { s with main := .awake }
  /-- the loop test succeeds: start waiting (204-206) -/
  | mainWait (s : PF) : s.main = .awake → 0 < s.remaining →
      PF.Step foreign spurious s { s with main := .sleeping }
  /-- the loop test fails: return (204-208) -/
  | mainDone (s : PF) : s.main = .awake → s.remaining = 0 →
      PF.Step foreign spurious s { s with main := .returned }
  /-- the wait ends without a notification -/
  | mainWake (s : PF) : spurious = true → s.main = .sleeping →
      PF.Step foreign spurious s { s with main := .awake }

/-- States reachable from a given one. -/
inductive PF.Reach (foreign spurious : Bool) (s₀ : PF) : PF → Prop where
  | refl : PF.Reach foreign spurious s₀ s₀
  | step {s s' : PF} : PF.Reach foreign spurious s₀ s → PF.Step foreign spurious s s' →
      PF.Reach foreign spurious s₀ s'

end Verif.ThreadPool
