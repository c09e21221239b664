import Verif.ThreadPool.OrderedLemmas

/-! # C04–C07: the ordered producer/consumer used for slicing layers

The specification: `items P n` is the list of the first `n` items of the range, in index order. -/

namespace Verif.ThreadPool.Ordered
open Verif Verif.Util

variable {α : Type}

/-- Specification: `produce first, produce (first+1), …` (`n` items). -/
def items (P : Params α) (n : Nat) : List α := (List.range n).map fun (k : Nat) => P.produce (P.first + k)

/-- What the code needs from its caller: a ring with at least one slot, at least the main thread as worker,
a non-empty range (`run` returns at once for an empty one), and a first index not below `-maxPending`
(below that, the slot computation addresses memory before the array — theorem `C05_negative_start_out_of_bounds`). -/
structure Pre (P : Params α) : Prop where
  ring : 0 < P.maxPending
  workers : 0 < P.workers
  range : P.first < P.last
  start : -(P.maxPending : Int) ≤ P.first

theorem inv_of_reach {P : Params α} {w r : Bool} {s : State α} (pre : Pre P) (h : Reach P w r (State.init P) s) :
    RingInv P s ∧ LifeInv P r s := by
  induction h with
  | refl => exact ⟨RingInv.init P (Int.le_of_lt pre.range), LifeInv.init P r pre.workers⟩
  | step _ st ih => exact ⟨ih.1.step pre.ring pre.start st, ih.2.step st⟩

theorem idxs_items (P : Params α) (n : Int) : (idxs P n).map P.produce = items P (n - P.first).toNat := by
  simp [idxs, items]

/-- **C04 (order).** In every reachable state of every interleaving (with any spurious wake-ups), the items the
consumer has received so far are exactly the first items of the range, in index order, none missing, none twice;
every index below the write index has been handed to the producer exactly once and in order; and at most one thread
is in the consumer. -/
theorem C04_consumed_in_order (P : Params α) (pre : Pre P) (w r : Bool) (s : State α)
    (h : Reach P w r (State.init P) s) :
    s.consumed = items P s.consumed.length ∧ s.consumed.length ≤ (P.last - P.first).toNat ∧
    s.produced = (List.range s.produced.length).map (fun (k : Nat) => P.first + k) ∧
    s.produced.length ≤ (P.last - P.first).toNat ∧
    s.consumed.length ≤ s.produced.length ∧
    (∀ j k : Nat, s.pcs[j]? = some .consuming → s.pcs[k]? = some .consuming → j = k) := by
  obtain ⟨ri, li⟩ := inv_of_reach pre h
  have h1 := ri.r0; have h2 := ri.rw'; have h3 := ri.wl
  have hc : ∃ n : Nat, s.consumed = items P n ∧ n ≤ (s.write - P.first).toNat := by
    rw [ri.consumed]
    split
    · rename_i g
      have := (ri.clr g).1
      refine ⟨(s.read + 1 - P.first).toNat, ?_, by omega⟩
      rw [← idxs_items, idxs_succ P _ h1]; simp
    · exact ⟨(s.read - P.first).toNat, by rw [← idxs_items]; simp, by omega⟩
  obtain ⟨n, hn, hle⟩ := hc
  have hlen : s.consumed.length = n := by rw [hn]; simp [items]
  have hpl : s.produced.length = (s.write - P.first).toNat := by rw [ri.produced]; simp [idxs]
  refine ⟨by rw [hlen]; exact hn, by omega, ?_, by omega, by omega, ?_⟩
  · rw [hpl, ri.produced]; rfl
  · intro j k hj hk
    by_cases e : j = k
    · exact e
    · exfalso
      have hone := ri.one
      have e1 := sum_set isCons s.pcs j _ .waiting hj
      have hk' : (s.pcs.set j .waiting)[k]? = some .consuming := by rw [List.getElem?_set_ne e]; exact hk
      have e2 := le_sum_of_getElem? isCons _ k _ hk'
      simp only [isCons, nCons] at *
      omega

/-- **C04 (completeness).** When `run` returns (and its wait was not woken spuriously), the consumer has received
every item of the range, in order, every index was produced exactly once, and no worker is still active. -/
theorem C04_all_consumed_on_return (P : Params α) (pre : Pre P) (w : Bool) (s : State α)
    (h : Reach P w false (State.init P) s) (hr : s.main = .returned) :
    s.consumed = items P (P.last - P.first).toNat ∧
    s.produced = (List.range (P.last - P.first).toNat).map (fun (k : Nat) => P.first + k) ∧
    ∀ p ∈ s.pcs, p = .exited := by
  obtain ⟨ri, li⟩ := inv_of_reach pre h
  have h1 := ri.r0; have h2 := ri.rw'; have h3 := ri.wl
  have hc0 := (li.ret rfl hr).2
  have hcnt := li.count
  have hlen := li.len
  have hall : ∀ l : List PC, nExit l = l.length → ∀ p ∈ l, p = .exited := by
    intro l
    have hle : ∀ l : List PC, nExit l ≤ l.length := by
      intro l; induction l with
      | nil => simp [nExit]
      | cons x l ih => cases x <;> simp [isExit, nExit] at * <;> omega
    induction l with
    | nil => intro _ p hp; cases hp
    | cons x l ih =>
      intro hx p hp
      have := hle l
      have hx1 : isExit x = 1 ∧ nExit l = l.length := by
        have : isExit x ≤ 1 := by cases x <;> simp [isExit]
        simp only [nExit, List.map_cons, List.sum_cons, List.length_cons] at *; omega
      rcases List.mem_cons.1 hp with e | e
      · subst e; cases p <;> simp [isExit] at hx1 ⊢
      · exact ih hx1.2 p e
  have hex := hall s.pcs (by omega)
  have zero : ∀ f : PC → Nat, f .exited = 0 → (s.pcs.map f).sum = 0 := by
    intro f hf
    apply sum_map_eq_zero
    intro x hx; rw [hex x hx, hf]
  have z1 : nCons s.pcs = 0 := zero _ rfl
  have z2 : nClr s.pcs = 0 := zero _ rfl
  have hwl := (li.exitSleep (by have := pre.workers; omega)).1
  have hrw : s.read = s.write := by
    by_cases g : s.read < s.write
    · rcases ri.win s.read (Int.le_refl _) g with q | q | q
      · have : nProd s.pcs s.read = 0 := zero _ rfl
        omega
      · have := (ri.idle (by omega)).2; rw [q.2] at this; cases this
      · omega
    · omega
  have hw : s.write = P.last := by omega
  refine ⟨?_, ?_, hex⟩
  · rw [ri.consumed, if_neg (by omega), List.append_nil, idxs_items, hrw, hw]
  · rw [ri.produced, hw]; rfl

/-- **C05 (the ring is never overrun).** In every reachable state: no assertion of the code has failed and no slot
outside the array was addressed; at most `maxPending` produced-but-not-consumed items exist; and a worker about to
store its item finds its slot in the array and empty, so no unconsumed item is ever overwritten. -/
theorem C05_ring_never_overrun (P : Params α) (pre : Pre P) (w r : Bool) (s : State α)
    (h : Reach P w r (State.init P) s) :
    s.crashed = false ∧ s.produced.length ≤ s.consumed.length + P.maxPending ∧
    (∀ (k : Nat) (i : Int), s.pcs[k]? = some (.producing i) →
      ∃ j, slot P i = .ok j ∧ j < P.maxPending ∧ s.ring j = none) := by
  obtain ⟨ri, li⟩ := inv_of_reach pre h
  have h1 := ri.r0; have h2 := ri.rw'; have h3 := ri.wl; have h4 := ri.full; have hm := pre.ring; have hs := pre.start
  refine ⟨ri.nocrash, ?_, ?_⟩
  · rw [ri.produced, ri.consumed]
    simp only [idxs, List.length_append, List.length_map, List.length_range]
    omega
  · intro k i hk
    obtain ⟨g1, g2, g3, g4⟩ := ri.producing_range hk
    refine ⟨sl P i, slot_ok P hm i (by omega), ?_, g4⟩
    unfold sl
    have a := Int.emod_nonneg (i + (P.maxPending : Int)) (b := P.maxPending) (by omega)
    have b := Int.emod_lt_of_pos (i + (P.maxPending : Int)) (b := P.maxPending) (by omega)
    omega

/-- **C05 (no data race on a slot).** While a thread uses the slot at the read index without holding the mutex
(in the consumer, or clearing it), no other thread is producing into that slot, and two producers never share one. -/
theorem C05_no_concurrent_slot_access (P : Params α) (pre : Pre P) (w r : Bool) (s : State α)
    (h : Reach P w r (State.init P) s) :
    (∀ (k k' : Nat) (i : Int), (s.pcs[k]? = some .consuming ∨ s.pcs[k]? = some .cleared) →
      s.pcs[k']? = some (.producing i) → slot P i ≠ slot P s.read) ∧
    (∀ (k k' : Nat) (i i' : Int), k ≠ k' → s.pcs[k]? = some (.producing i) → s.pcs[k']? = some (.producing i') →
      slot P i ≠ slot P i') := by
  obtain ⟨ri, li⟩ := inv_of_reach pre h
  have h1 := ri.r0; have h2 := ri.rw'; have h3 := ri.wl; have h4 := ri.full; have hm := pre.ring; have hs := pre.start
  have hone := ri.one
  refine ⟨?_, ?_⟩
  · intro k k' i hk hk' e
    obtain ⟨g1, g2, g3, g4⟩ := ri.producing_range hk'
    rw [slot_ok P hm i (by omega), slot_ok P hm s.read (by omega)] at e
    have e' : i = s.read := sl_inj P hm (by simpa using e) (by omega) (by omega)
    subst e'
    rcases hk with hk | hk
    · have := le_sum_of_getElem? isCons s.pcs k _ hk
      simp only [isCons] at this
      have := (ri.cons (by simp only [nCons] at *; omega)).2
      rw [g4] at this; cases this
    · have := le_sum_of_getElem? isClr s.pcs k _ hk
      simp only [isClr] at this
      have := (ri.clr (by simp only [nClr] at *; omega)).2.2
      omega
  · intro k k' i i' hne hk hk' e
    obtain ⟨g1, g2, g3, g4⟩ := ri.producing_range hk
    obtain ⟨g1', g2', g3', g4'⟩ := ri.producing_range hk'
    rw [slot_ok P hm i (by omega), slot_ok P hm i' (by omega)] at e
    have e' : i = i' := sl_inj P hm (by simpa using e) (by omega) (by omega)
    subst e'
    have e1 := sum_set (isProd i) s.pcs k _ .waiting hk
    have hk2 : (s.pcs.set k .waiting)[k']? = some (.producing i) := by rw [List.getElem?_set_ne hne]; exact hk'
    have e2 := le_sum_of_getElem? (isProd i) _ k' _ hk2
    simp only [isProd, nProd, if_true] at *
    omega

/-- **C05 (finding).** Without the precondition on the first index the very first step addresses a slot before the
start of the array: for every ring size and every start below `-maxPending` that is not a multiple of it. -/
theorem C05_negative_start_out_of_bounds (P : Params α) (hm : 0 < P.maxPending) (hw : 0 < P.workers)
    (hr : P.first < P.last) (hs : P.first < -(P.maxPending : Int)) (hd : ¬ (P.maxPending : Int) ∣ P.first) :
    ∃ s, Reach P false false (State.init P) s ∧ s.crashed = true := by
  refine ⟨_, Reach.refl.step (.startCrash _ 0 ?_ hr ?_ ?_), rfl⟩
  · simp [State.init, hw]
  · simp [State.init]; omega
  · unfold slot
    rw [if_neg (by omega)]
    have h1 : (P.first + (P.maxPending : Int)).tmod P.maxPending =
        -((-(P.first + (P.maxPending : Int))) % P.maxPending) := by
      have : P.first + (P.maxPending : Int) = -(-(P.first + P.maxPending)) := by omega
      rw [this, Int.neg_tmod, Int.tmod_eq_emod_of_nonneg (by omega)]; simp
    have h2 := Int.emod_nonneg (-(P.first + (P.maxPending : Int))) (b := P.maxPending) (by omega)
    have h3 : (-(P.first + (P.maxPending : Int))) % P.maxPending ≠ 0 := by
      intro e
      have := Int.dvd_of_emod_eq_zero e
      rw [Int.dvd_neg] at this
      exact hd ((Int.dvd_add_left (Int.dvd_refl _)).1 this)
    simp only [State.init, h1]
    rw [if_pos (by omega)]

/-- **C06 (no deadlock).** From every reachable state in which `run` has not returned, some thread can take a step,
even if condition variables never wake up spuriously. -/
theorem C06_no_deadlock (P : Params α) (pre : Pre P) (w : Bool) (s : State α)
    (h : Reach P w false (State.init P) s) (hr : s.main ≠ .returned) : ∃ s', Step P false false s s' := by
  obtain ⟨ri, li⟩ := inv_of_reach pre h
  apply exists_step pre.ring pre.start ri li
  have hcnt := li.count
  cases hm : s.main with
  | returned => exact absurd hm hr
  | waitDone => exact (li.waitDone hm).2
  | working =>
    have h0 := li.working hm
    by_cases hz : 0 < s.count
    · exact hz
    · exfalso
      -- everybody exited, including worker 0
      have hlen := li.len
      have hw := pre.workers
      have : ∀ l : List PC, nExit l = l.length → 0 < l.length → l[0]? = some .exited := by
        intro l hl hp
        have hle : ∀ l : List PC, nExit l ≤ l.length := by
          intro l; induction l with
          | nil => simp [nExit]
          | cons x l ih => cases x <;> simp [isExit, nExit] at * <;> omega
        cases l with
        | nil => simp at hp
        | cons x l =>
          have := hle l
          cases x <;> simp [isExit, nExit] at * <;> omega
      exact h0 (this s.pcs (by omega) (by omega))

/-- **C06 (termination).** There is no infinite execution without spurious wake-ups: together with
`C06_no_deadlock`, `run` always returns (if the producer and the consumer do). -/
theorem C06_terminates (P : Params α) (pre : Pre P) (run : Nat → State α) (h0 : run 0 = State.init P)
    (hs : ∀ n, Step P false false (run n) (run (n + 1))) : False := by
  have reach : ∀ n, Reach P false false (State.init P) (run n) := by
    intro n
    induction n with
    | zero => rw [h0]; exact .refl
    | succ n ih => exact ih.step (hs n)
  have dec : ∀ n, (run (n + 1)).work P < (run n).work P := fun n =>
    (hs n).work_lt (inv_of_reach pre (reach n)).1 (inv_of_reach pre (reach (n + 1))).1 (inv_of_reach pre (reach n)).2
  have : ∀ n, (run n).work P + n ≤ (run 0).work P := by
    intro n
    induction n with
    | zero => simp
    | succ n ih => have := dec n; omega
  have := this ((run 0).work P + 1)
  omega

/-- **C07 (partial).** `run` returns only after every worker has finished — provided its condition variable does not
wake up spuriously. Missing for the full property: spurious wake-ups, for which it is false (next theorem). -/
theorem C07_returns_after_workers_partial (P : Params α) (pre : Pre P) (w : Bool) (s : State α)
    (h : Reach P w false (State.init P) s) (hr : s.main = .returned) : ∀ p ∈ s.pcs, p = .exited :=
  (C04_all_consumed_on_return P pre w s h hr).2.2

/-- Two workers, two slots, indices 0 and 1. -/
def demo : Params Int := ⟨0, 2, 2, 2, fun i => 10 * i⟩

theorem demo_pre : Pre demo := by constructor <;> decide

/-- **C07 (finding).** The full property is false: the wait in `run` is guarded by `if`, not `while`, so a spurious
wake-up lets `run` return — destroying the object — while a worker is still producing and nothing is consumed. -/
theorem C07_spurious_wakeup_returns_early : ∃ s, Reach demo false true (State.init demo) s ∧ s.main = .returned ∧
    s.pcs[1]? = some (.producing 0) ∧ s.consumed = [] := by
  have r1 := (Reach.refl (P := demo) (wakes := false) (returns := true) (s₀ := State.init demo)).step
    (.start _ 1 0 rfl (by decide) (by decide) rfl)
  have r2 := r1.step (.start _ 0 1 rfl (by decide) (by decide) rfl)
  have r3 := r2.step (.store _ 0 1 1 rfl rfl rfl (by decide))
  have r4 := r3.step (.exit _ 0 rfl (by decide))
  have r5 := r4.step (.spuriousReturn _ rfl rfl)
  exact ⟨_, r5, rfl, rfl, rfl⟩

/-- One worker, one slot, indices -1 and 0. -/
def demo1 : Params Int := ⟨-1, 1, 1, 1, fun i => 10 * i⟩

theorem demo1_pre : Pre demo1 := by constructor <;> decide

/-- Non-vacuity of C04–C07: an execution over the indices -1 and 0 with one worker and one slot runs to its end. -/
example : ∃ s, Reach demo1 false false (State.init demo1) s ∧
    s.main = .returned ∧ s.consumed = [-10, 0] := by
  have r1 := (Reach.refl (P := demo1) (wakes := false) (returns := false) (s₀ := State.init demo1)).step (.start _ 0 0 rfl (by decide) (by decide) rfl)
  have r2 := r1.step (.storeConsume _ 0 0 (-1) rfl rfl rfl rfl)
  have r3 := r2.step (.consume _ 0 0 (-10) rfl rfl rfl)
  have r4 := r3.step (.advance _ 0 _ rfl (.nobody _ (by decide)))
  have r5 := r4.step (.start _ 0 0 rfl (by decide) (by decide) rfl)
  have r6 := r5.step (.storeConsume _ 0 0 0 rfl rfl rfl rfl)
  have r7 := r6.step (.consume _ 0 0 0 rfl rfl rfl)
  have r8 := r7.step (.advance _ 0 _ rfl (.nobody _ (by decide)))
  have r9 := r8.step (.exit _ 0 rfl (by decide))
  exact ⟨_, r9, rfl, rfl⟩

/-- Non-vacuity of the finding on negative starts: 2 slots, start -3. -/
example : (⟨-3, 5, 2, 1, id⟩ : Params Int).first < -2 ∧ ¬ (2 : Int) ∣ (⟨-3, 5, 2, 1, id⟩ : Params Int).first := by
  decide

end Verif.ThreadPool.Ordered
