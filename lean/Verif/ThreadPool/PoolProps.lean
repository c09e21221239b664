import Verif.ThreadPool.PoolModel
import Verif.Util.Sum

/-! # C08: the thread pool starts tasks in push order and `join` drains it -/

namespace Verif.ThreadPool.Pool
open Verif.Util

def runs (t : Nat) : PT → Nat
  | .running u => if u = t then 1 else 0
  | _ => 0

def jruns (t : Nat) : JT → Nat
  | .running u => if u = t then 1 else 0
  | _ => 0

structure Inv (s : State) : Prop where
  fifo : s.started ++ s.queue = List.range s.next
  cnt : ∀ t, s.finished.count t + (s.threads.map (runs t)).sum + jruns t s.joiner = s.started.count t
  nosleep : s.waitForNew = false → ∀ p ∈ s.threads, p ≠ .sleeping
  flag : s.joiner = .outside ↔ s.waitForNew = true
  drained : (s.joiner = .joining ∨ s.joiner = .returned) → (∀ p ∈ s.threads, p = .exited) → s.queue = []
  noexit : s.waitForNew = true → ∀ p ∈ s.threads, p ≠ .exited
  ret : s.joiner = .returned → ∀ p ∈ s.threads, p = .exited
  allsleep : s.threads ≠ [] → (∀ p ∈ s.threads, p = .sleeping) → s.queue = []

theorem count_snoc (l : List Nat) (i v : Nat) : (l ++ [i]).count v = l.count v + if i = v then 1 else 0 := by
  rw [List.count_append, List.count_singleton]
  by_cases h : i = v
  · subst h; simp
  · simp [h]

theorem mem_set_of {l : List PT} {k : Nat} {old new : PT} (h : l[k]? = some old) : new ∈ l.set k new := by
  apply List.mem_of_getElem? (i := k)
  rw [List.getElem?_set_self', h]; rfl

theorem mem_set_cases {l : List PT} {k : Nat} {new p : PT} (h : p ∈ l.set k new) : p ∈ l ∨ p = new :=
  List.mem_or_eq_of_mem_set h

theorem mem_set_other {l : List PT} {k : Nat} {old new p : PT} (h : l[k]? = some old) (hp : p ∈ l) (hne : p ≠ old) :
    p ∈ l.set k new := by
  obtain ⟨j, hj⟩ := List.getElem?_of_mem hp
  have : k ≠ j := by intro e; subst e; rw [h] at hj; cases hj; exact hne rfl
  apply List.mem_of_getElem? (i := j)
  rw [List.getElem?_set_ne this]; exact hj

theorem NotifyOne.runs {l l' : List PT} (h : NotifyOne l l') (t : Nat) :
    (l'.map (runs t)).sum = (l.map (Pool.runs t)).sum := by
  cases h with
  | nobody h => rfl
  | wake k hk => have := sum_set (Pool.runs t) l k _ .awake hk; simp only [Pool.runs] at this; omega

theorem NotifyOne.mem {l l' : List PT} (h : NotifyOne l l') {p : PT} (hp : p ∈ l') : p ∈ l ∨ p = .awake := by
  cases h with
  | nobody h => exact .inl hp
  | wake k hk => exact mem_set_cases hp

theorem NotifyOne.keep {l l' : List PT} (h : NotifyOne l l') {p : PT} (hp : p ∈ l) (hne : p ≠ .sleeping) : p ∈ l' := by
  cases h with
  | nobody h => exact hp
  | wake k hk => exact mem_set_other hk hp hne

theorem NotifyOne.not_all {l l' : List PT} (h : NotifyOne l l') (hl : l' ≠ []) : ¬ ∀ p ∈ l', p = .sleeping := by
  intro hall
  cases h with
  | nobody h =>
    cases hl' : l with
    | nil => exact hl hl'
    | cons x xs =>
      have hx : x ∈ l := by rw [hl']; exact List.mem_cons_self ..
      exact h x hx (hall x hx)
  | wake k hk => have := hall _ (mem_set_of (new := .awake) hk); cases this

theorem Inv.init (n : Nat) : Inv (State.init n) := by
  constructor <;> simp only [State.init]
  · rfl
  · intro t
    have : ((List.replicate n PT.awake).map (Pool.runs t)).sum = 0 :=
      sum_map_eq_zero _ _ fun x hx => by rw [List.eq_of_mem_replicate hx]; rfl
    simp [jruns, Pool.runs]
  · intro h; cases h
  · intros; trivial
  · intro _ p hp; rw [List.eq_of_mem_replicate hp]; simp
  · intro h; cases h
  · intros; trivial

theorem Inv.step {s s' : State} (inv : Inv s) (st : Step s s') : Inv s' := by
  have running_mem : ∀ {k t : Nat}, s.threads[k]? = some (.running t) → PT.running t ∈ s.threads :=
    fun h => List.mem_of_getElem? h
  cases st with
  | push th hm hn =>
    constructor <;> simp only []
    · rw [← List.append_assoc, inv.fifo, List.range_succ]
    · intro t; rw [hn.runs t]; exact inv.cnt t
    · intro h p hp e
      subst e
      rcases hn.mem hp with g | g
      · exact inv.nosleep h _ g rfl
      · cases g
    · exact inv.flag
    · intro hj hall
      exfalso
      rcases hm with g | ⟨t, g⟩ | ⟨k, t, g⟩
      · rcases hj with q | q <;> rw [g] at q <;> cases q
      · rcases hj with q | q <;> rw [g] at q <;> cases q
      · have := hall _ (hn.keep (running_mem g) (by simp)); cases this
    · intro h p hp e
      subst e
      rcases hn.mem hp with g | g
      · exact inv.noexit h _ g rfl
      · cases g
    · intro h p hp
      rcases hn.mem hp with g | g
      · exact inv.ret h _ g
      · subst g
        exfalso
        cases hn with
        | nobody _ => have := inv.ret h _ hp; cases this
        | wake k hk => have := inv.ret h _ (List.mem_of_getElem? hk); cases this
    · intro h1 h2; exact absurd h2 (hn.not_all h1)
  | pop k t q hk hq =>
    constructor <;> simp only []
    · rw [List.append_assoc, List.singleton_append, ← hq]; exact inv.fifo
    · intro u
      have e := sum_set (runs u) s.threads k _ (.running t) hk
      have := inv.cnt u
      rw [count_snoc]
      simp only [runs] at *; omega
    · intro h p hp
      rcases mem_set_cases hp with g | g
      · exact inv.nosleep h p g
      · subst g; simp
    · exact inv.flag
    · intro _ hall; have := hall _ (mem_set_of hk); cases this
    · intro h p hp
      rcases mem_set_cases hp with g | g
      · exact inv.noexit h p g
      · subst g; simp
    · intro h; have := inv.ret h _ (List.mem_of_getElem? hk); cases this
    · intro _ hall; have := hall _ (mem_set_of hk); cases this
  | sleep k hk hq hw =>
    constructor <;> simp only []
    · exact inv.fifo
    · intro u
      have e := sum_set (runs u) s.threads k _ .sleeping hk
      have := inv.cnt u
      simp only [runs] at *; omega
    · intro h; rw [hw] at h; cases h
    · exact inv.flag
    · intros; exact hq
    · intro h p hp
      rcases mem_set_cases hp with g | g
      · exact inv.noexit h p g
      · subst g; simp
    · intro h; have := inv.ret h _ (List.mem_of_getElem? hk); cases this
    · intros; exact hq
  | exit k hk hq hw =>
    constructor <;> simp only []
    · exact inv.fifo
    · intro u
      have e := sum_set (runs u) s.threads k _ .exited hk
      have := inv.cnt u
      simp only [runs] at *; omega
    · intro h p hp
      rcases mem_set_cases hp with g | g
      · exact inv.nosleep h p g
      · subst g; simp
    · exact inv.flag
    · intros; exact hq
    · intro h; rw [hw] at h; cases h
    · intro h; have := inv.ret h _ (List.mem_of_getElem? hk); cases this
    · intros; exact hq
  | finish k t hk =>
    constructor <;> simp only []
    · exact inv.fifo
    · intro u
      have e := sum_set (runs u) s.threads k _ .awake hk
      have := inv.cnt u
      rw [count_snoc]
      simp only [runs] at *; omega
    · intro h p hp
      rcases mem_set_cases hp with g | g
      · exact inv.nosleep h p g
      · subst g; simp
    · exact inv.flag
    · intro _ hall; have := hall _ (mem_set_of hk); cases this
    · intro h p hp
      rcases mem_set_cases hp with g | g
      · exact inv.noexit h p g
      · subst g; simp
    · intro h; have := inv.ret h _ (List.mem_of_getElem? hk); cases this
    · intro _ hall; have := hall _ (mem_set_of hk); cases this
  | spurious k hk =>
    constructor <;> simp only []
    · exact inv.fifo
    · intro u
      have e := sum_set (runs u) s.threads k _ .awake hk
      have := inv.cnt u
      simp only [runs] at *; omega
    · intro h p hp
      rcases mem_set_cases hp with g | g
      · exact inv.nosleep h p g
      · subst g; simp
    · exact inv.flag
    · intro _ hall; have := hall _ (mem_set_of hk); cases this
    · intro h p hp
      rcases mem_set_cases hp with g | g
      · exact inv.noexit h p g
      · subst g; simp
    · intro h; have := inv.ret h _ (List.mem_of_getElem? hk); cases this
    · intro _ hall; have := hall _ (mem_set_of hk); cases this
  | join hj =>
    have hmem : ∀ p ∈ s.threads.map (fun p => if p = PT.sleeping then .awake else p), p ≠ .sleeping := by
      intro p hp
      simp only [List.mem_map] at hp
      obtain ⟨x, -, rfl⟩ := hp
      split
      · simp
      · assumption
    constructor <;> simp only []
    · exact inv.fifo
    · intro u
      have : ∀ l : List PT, ((l.map (fun p => if p = PT.sleeping then .awake else p)).map (runs u)).sum =
          (l.map (runs u)).sum := by
        intro l
        induction l with
        | nil => rfl
        | cons x l ih =>
          simp only [List.map_cons, List.sum_cons, ih]
          cases x <;> simp [runs]
      rw [this]
      have := inv.cnt u
      simp only [hj, jruns] at *; omega
    · intro _; exact hmem
    · simp
    · intro h; rcases h with h | h <;> cases h
    · intro h; cases h
    · intro h; cases h
    · intro h1 h2
      exfalso
      cases hl : s.threads.map (fun p => if p = PT.sleeping then .awake else p) with
      | nil => exact h1 hl
      | cons x xs =>
        have hx : x ∈ s.threads.map (fun p => if p = PT.sleeping then .awake else p) := by
          rw [hl]; exact List.mem_cons_self ..
        exact hmem x hx (h2 x hx)
  | joinPop t q hj hq =>
    constructor <;> simp only []
    · rw [List.append_assoc, List.singleton_append, ← hq]; exact inv.fifo
    · intro u
      have := inv.cnt u
      rw [count_snoc]
      simp only [hj, jruns] at *; omega
    · exact inv.nosleep
    · have := inv.flag; rw [hj] at this; simp at this ⊢; exact this
    · intro h; rcases h with h | h <;> cases h
    · exact inv.noexit
    · intro h; cases h
    · intro h1 h2
      have := inv.allsleep h1 h2
      rw [hq] at this; cases this
  | joinFinish t hj =>
    constructor <;> simp only []
    · exact inv.fifo
    · intro u
      have := inv.cnt u
      rw [count_snoc]
      simp only [hj, jruns] at *; omega
    · exact inv.nosleep
    · have := inv.flag; rw [hj] at this; simp at this ⊢; exact this
    · intro h; rcases h with h | h <;> cases h
    · exact inv.noexit
    · intro h; cases h
    · exact inv.allsleep
  | joinWait hj hq =>
    constructor <;> simp only []
    · exact inv.fifo
    · intro u; have := inv.cnt u; simp only [hj, jruns] at *; omega
    · exact inv.nosleep
    · have := inv.flag; rw [hj] at this; simp at this ⊢; exact this
    · intros; exact hq
    · exact inv.noexit
    · intro h; cases h
    · exact inv.allsleep
  | joinDone hj hall =>
    constructor <;> simp only []
    · exact inv.fifo
    · intro u; have := inv.cnt u; simp only [hj, jruns] at *; omega
    · exact inv.nosleep
    · have := inv.flag; rw [hj] at this; simp at this ⊢; exact this
    · intro _ _; exact inv.drained (.inl hj) hall
    · exact inv.noexit
    · intro _; exact hall
    · exact inv.allsleep

theorem inv_of_reach {n : Nat} {s : State} (h : Reach (State.init n) s) : Inv s := by
  induction h with
  | refl => exact Inv.init n
  | step _ st ih => exact ih.step st

/-! ## Property theorems -/

/-- **C08 (FIFO, at most once).** At any moment, with any number of threads and any interleaving, the tasks started so
far are exactly the first pushed ones, in push order, and no task has finished more often than it was started
(once). -/
theorem C08_fifo (n : Nat) (s : State) (h : Reach (State.init n) s) :
    s.started = List.range s.started.length ∧ s.started.length ≤ s.next ∧
    ∀ t, s.finished.count t ≤ s.started.count t ∧ s.started.count t ≤ 1 := by
  have inv := inv_of_reach h
  have h1 : s.started = List.range s.started.length := by
    have := congrArg (List.take s.started.length) inv.fifo
    rw [List.take_left, List.take_range] at this
    have hl := congrArg List.length inv.fifo
    simp at hl
    rwa [Nat.min_eq_left (by omega)] at this
  have hl := congrArg List.length inv.fifo
  simp at hl
  refine ⟨h1, by omega, fun t => ⟨by have := inv.cnt t; omega, ?_⟩⟩
  rw [h1]
  exact List.nodup_iff_count.1 List.nodup_range t

/-- **C08 (join drains).** When the pool's destructor has returned, every task that was ever pushed — including tasks
pushed by other tasks while the pool was being joined — has been run to completion exactly once, and all threads
have ended. -/
theorem C08_join_drains (n : Nat) (s : State) (h : Reach (State.init n) s) (hr : s.joiner = .returned) :
    s.queue = [] ∧ (∀ t, s.finished.count t = if t < s.next then 1 else 0) ∧ ∀ p ∈ s.threads, p = .exited := by
  have inv := inv_of_reach h
  have hx := inv.ret hr
  have hq := inv.drained (.inr hr) hx
  refine ⟨hq, fun t => ?_, hx⟩
  have hz : (s.threads.map (runs t)).sum = 0 := sum_map_eq_zero _ _ fun x hx' => by rw [hx x hx']; rfl
  have hc := inv.cnt t
  rw [hz, hr] at hc
  have hf := inv.fifo
  rw [hq, List.append_nil] at hf
  simp only [jruns, Nat.add_zero] at hc
  rw [hc, hf]
  by_cases ht : t < s.next
  · rw [if_pos ht]
    have h1 := List.nodup_iff_count.1 (List.nodup_range (n := s.next)) t
    have h2 : 0 < (List.range s.next).count t := List.count_pos_iff.2 (List.mem_range.2 ht)
    omega
  · rw [if_neg ht]
    exact List.count_eq_zero.2 fun hm => ht (List.mem_range.1 hm)

/-- **C08 (no stranded task, no deadlock).** A queued task is never stranded: if the queue is non-empty and the pool
has threads, or is being joined, some thread can take a task or is running one. And once `join` was called, until it
returns some thread can always move. -/
theorem C08_no_lost_wakeup (n : Nat) (s : State) (h : Reach (State.init n) s) :
    (s.queue ≠ [] → s.waitForNew = true → s.threads ≠ [] →
      ∃ (k : Nat) (p : PT), s.threads[k]? = some p ∧ (p = .awake ∨ ∃ t, p = .running t)) ∧
    (s.joiner ≠ .outside → s.joiner ≠ .returned → ∃ s', Step s s' ∧ s'.next = s.next) := by
  have inv := inv_of_reach h
  refine ⟨fun hq hw ht => ?_, fun h1 h2 => ?_⟩
  · by_cases hall : ∀ p ∈ s.threads, p = .sleeping
    · exact absurd (inv.allsleep ht hall) hq
    · rw [Classical.not_forall] at hall
      obtain ⟨p, hp⟩ := hall
      rw [Classical.not_imp] at hp
      obtain ⟨k, hk⟩ := List.getElem?_of_mem hp.1
      refine ⟨k, p, hk, ?_⟩
      cases p with
      | awake => exact .inl rfl
      | sleeping => exact absurd rfl hp.2
      | running t => exact .inr ⟨t, rfl⟩
      | exited => exact absurd rfl (inv.noexit hw _ hp.1)
  · have hw : s.waitForNew = false := by
      cases hw : s.waitForNew with
      | false => rfl
      | true => exact absurd (inv.flag.2 hw) h1
    cases hj : s.joiner with
    | outside => exact absurd hj h1
    | returned => exact absurd hj h2
    | running t => exact ⟨_, .joinFinish s t hj, rfl⟩
    | draining =>
      cases hq : s.queue with
      | nil => exact ⟨_, .joinWait s hj hq, rfl⟩
      | cons t q => exact ⟨_, .joinPop s t q hj hq, rfl⟩
    | joining =>
      by_cases hall : ∀ p ∈ s.threads, p = .exited
      · exact ⟨_, .joinDone s hj hall, rfl⟩
      · rw [Classical.not_forall] at hall
        obtain ⟨p, hp⟩ := hall
        rw [Classical.not_imp] at hp
        obtain ⟨k, hk⟩ := List.getElem?_of_mem hp.1
        cases p with
        | awake =>
          cases hq : s.queue with
          | nil => exact ⟨_, .exit s k hk hq hw, rfl⟩
          | cons t q => exact ⟨_, .pop s k t q hk hq, rfl⟩
        | sleeping => exact absurd rfl (inv.nosleep hw _ hp.1)
        | running t => exact ⟨_, .finish s k t hk, rfl⟩
        | exited => exact absurd rfl hp.2

/-- Non-vacuity: a pool of one thread; a task runs on the pool thread, pushes another while the pool is being joined,
which the joining thread runs; then everything ends. -/
example : ∃ s, Reach (State.init 1) s ∧ s.joiner = .returned ∧ s.next = 2 ∧ s.finished = [1, 0] := by
  have r1 := (Reach.refl (s₀ := State.init 1)).step (.push _ _ (.inl rfl) (.nobody _ (by decide)))
  have r2 := r1.step (.pop _ 0 0 [] rfl rfl)
  have r3 := r2.step (.join _ rfl)
  have r4 := r3.step (.push _ _ (.inr (.inr ⟨0, 0, rfl⟩)) (.nobody _ (by decide)))
  have r5 := r4.step (.joinPop _ 1 [] rfl rfl)
  have r6 := r5.step (.joinFinish _ 1 rfl)
  have r7 := r6.step (.finish _ 0 0 rfl)
  have r8 := r7.step (.exit _ 0 rfl rfl rfl)
  have r9 := r8.step (.joinWait _ rfl rfl)
  have r10 := r9.step (.joinDone _ rfl (by decide))
  exact ⟨_, r10, rfl, rfl, rfl⟩

end Verif.ThreadPool.Pool
