import Verif.ThreadPool.ChunkModel
import Verif.Util.Sum

/-! # C03: `parallel_for` runs its body exactly once per index -/

namespace Verif.ThreadPool
open Verif Verif.Util

/-! ## Helper lemmas -/

/-- 1 if `v` lies in `[a, b)`, else 0. -/
def ind (a b v : Int) : Nat := if a ≤ v ∧ v < b then 1 else 0

theorem ind_split {a b c v : Int} (h1 : a ≤ b) (h2 : b ≤ c) : ind a b v + ind b c v = ind a c v := by
  unfold ind; split <;> split <;> split <;> omega

theorem chunkList_nil {inc first last : Int} (h : ¬ first < last) : chunkList inc first last = [] := by
  rw [chunkList]; simp [h]

theorem chunkList_cons {inc first last : Int} (h : 0 < inc) (h2 : first < last) :
    chunkList inc first last =
      (first, if last - first > inc then first + inc else last) ::
        chunkList inc (if last - first > inc then first + inc else last) last := by
  rw [chunkList]; simp [h, h2]

/-- Strong induction over the chunk loop. -/
theorem chunk_induct (inc last : Int) (hinc : 0 < inc) (P : Int → Prop)
    (base : ∀ f, ¬ f < last → P f)
    (step : ∀ f, f < last → P (if last - f > inc then f + inc else last) → P f) (f : Int) : P f := by
  have key : ∀ n : Nat, ∀ f, (last - f).toNat ≤ n → P f := by
    intro n
    induction n with
    | zero => intro f hf; exact base f (by omega)
    | succ n ih =>
      intro f hf
      by_cases h : f < last
      · refine step f h ?_
        split
        · exact ih _ (by omega)
        · exact base _ (by omega)
      · exact base f h
  exact key _ f (Nat.le_refl _)

theorem chunkList_sum (inc last v : Int) (hinc : 0 < inc) (first : Int) :
    ((chunkList inc first last).map (fun c => ind c.1 c.2 v)).sum = ind first last v := by
  revert first
  apply chunk_induct inc last hinc
  · intro f h; rw [chunkList_nil h]; simp [ind]; omega
  · intro f h ih
    rw [chunkList_cons hinc h]
    simp only [List.map_cons, List.sum_cons, ih]
    exact ind_split (by split <;> omega) (by split <;> omega)

theorem chunkList_length (inc last : Int) (hinc : 0 < inc) (first : Int) :
    ((chunkList inc first last).length : Int) = if first < last then (last - first + inc - 1) / inc else 0 := by
  revert first
  apply chunk_induct inc last hinc
  · intro f h; rw [chunkList_nil h]; simp [h]
  · intro f h ih
    rw [chunkList_cons hinc h, List.length_cons, Int.natCast_add, ih]
    by_cases hc : last - f > inc
    · have h3 : f + inc < last := by omega
      have e : last - f + inc - 1 = (last - (f + inc) + inc - 1) + 1 * inc := by omega
      simp only [hc, h, h3, if_true]
      rw [e, Int.add_mul_ediv_right _ _ (by omega)]
      rfl
    · have e : last - f + inc - 1 = (last - f - 1) + 1 * inc := by omega
      simp only [hc, h, if_true, if_false, Int.lt_irrefl]
      rw [e, Int.add_mul_ediv_right _ _ (by omega), Int.ediv_eq_zero_of_lt (by omega) (by omega)]
      rfl

theorem chunkList_mem (inc last : Int) (hinc : 0 < inc) (first : Int) :
    ∀ a b, (a, b) ∈ chunkList inc first last → first ≤ a ∧ a < b ∧ b ≤ last ∧ b - a ≤ inc ∧
      inc ∣ (a - first) ∧ (b = last ∨ b = a + inc) := by
  revert first
  apply chunk_induct inc last hinc
  · intro f h a b; rw [chunkList_nil h]; simp
  · intro f h ih a b hab
    rw [chunkList_cons hinc h] at hab
    rcases List.mem_cons.1 hab with e | e
    · cases e
      refine ⟨Int.le_refl _, ?_, ?_, ?_, by simp, ?_⟩ <;> split <;> first | omega | exact .inr rfl | exact .inl rfl
    · obtain ⟨h1, h2, h3, h4, h5, h6⟩ := ih a b e
      by_cases hc : last - f > inc
      · simp only [hc, if_true] at h1 h5
        refine ⟨by omega, h2, h3, h4, ?_, h6⟩
        have : a - f = (a - (f + inc)) + inc := by omega
        rw [this]; exact Int.dvd_add h5 (Int.dvd_refl _)
      · simp only [hc, if_false] at h1; omega

/-! ## Chunk arithmetic -/

/-- **C03 (chunk plan).** For a non-empty range, any number of pool threads, any `chunk_size_factor` and any
positive `chunks_per_worker`: the plan is defined (no division by zero), the chunk size is a positive multiple of
the effective factor `max factor 1`, the number of chunks is exactly the number of pieces needed, and it respects
both limits (`chunks_per_worker` per worker, and one chunk per block) — i.e. the two `assert`s in the code hold. -/
theorem C03_plan (nitems threads factor cpw : Nat) (hn : 0 < nitems) (hc : 0 < cpw) :
    ∃ size chunks, planChunks nitems threads factor cpw = .ok (size, chunks) ∧
      0 < size ∧ max factor 1 ∣ size ∧
      nitems ≤ chunks * size ∧ (chunks - 1) * size < nitems ∧ 0 < chunks ∧
      chunks ≤ cpw * (threads + 1) ∧ (chunks - 1) * max factor 1 < nitems := by
  -- general facts about rounding up
  have rud : ∀ a b, 0 < b → roundUpDivide a b = .ok ((a + b - 1) / b) := by
    intro a b hb; simp [roundUpDivide, Nat.ne_of_gt hb]
  have cdiv : ∀ a b : Nat, 0 < a → 0 < b → a ≤ (a + b - 1) / b * b ∧ ((a + b - 1) / b - 1) * b < a ∧
      0 < (a + b - 1) / b := by
    intro a b ha hb
    have h1 := Nat.div_add_mod (a + b - 1) b
    have h2 := Nat.mod_lt (a + b - 1) hb
    rw [Nat.mul_comm] at h1
    have h3 : 0 < (a + b - 1) / b := Nat.div_pos (by omega) hb
    refine ⟨by omega, ?_, h3⟩
    rw [Nat.sub_mul]; omega
  obtain ⟨f, hf⟩ : ∃ f, f = max factor 1 := ⟨_, rfl⟩
  have hfpos : 0 < f := by omega
  have hf' : (if factor ≤ 1 then 1 else factor) = f := by split <;> omega
  obtain ⟨blocks, hblk, hb1, hb2, hb3⟩ : ∃ blocks,
      (if factor ≤ 1 then (pure nitems : Outcome Nat) else roundUpDivide nitems f) = .ok blocks ∧
      nitems ≤ blocks * f ∧ (blocks - 1) * f < nitems ∧ 0 < blocks := by
    by_cases h : factor ≤ 1
    · refine ⟨nitems, by simp [h], ?_, ?_, hn⟩ <;> (have : f = 1 := by omega) <;> subst this <;> omega
    · obtain ⟨a, b, c⟩ := cdiv nitems f hn hfpos
      exact ⟨_, by rw [if_neg h, rud _ _ hfpos], a, b, c⟩
  obtain ⟨m, hm⟩ : ∃ m, m = min (cpw * (threads + 1)) blocks := ⟨_, rfl⟩
  have hmw : 0 < cpw * (threads + 1) := Nat.mul_pos hc (by omega)
  have hmpos : 0 < m := by omega
  obtain ⟨q1, q2, q3⟩ := cdiv blocks m hb3 hmpos
  obtain ⟨q, hq⟩ : ∃ q, q = (blocks + m - 1) / m := ⟨_, rfl⟩
  rw [← hq] at q1 q2 q3
  have hspos : 0 < f * q := Nat.mul_pos hfpos q3
  obtain ⟨c1, c2, c3⟩ := cdiv nitems (f * q) hn hspos
  obtain ⟨c, hcdef⟩ : ∃ c, c = (nitems + f * q - 1) / (f * q) := ⟨_, rfl⟩
  rw [← hcdef] at c1 c2 c3
  refine ⟨f * q, c, ?_, hspos, ⟨q, by rw [hf]⟩, c1, c2, c3, ?_, ?_⟩
  · by_cases h : factor ≤ 1
    · rw [if_pos h] at hblk
      cases hblk
      simp only [planChunks, hf', if_pos h, Outcome.bind_ok, ← hm, rud _ _ hmpos, rud _ _ hspos, ← hq, ← hcdef,
        Outcome.pure_eq]
    · rw [if_neg h] at hblk
      simp only [planChunks, hf', if_neg h, hblk, Outcome.bind_ok, ← hm, rud _ _ hmpos, rud _ _ hspos, ← hq,
        ← hcdef, Outcome.pure_eq]
  · -- (c-1)*f*q < nitems ≤ blocks*f ≤ m*q*f  ⇒  c-1 < m
    have : (c - 1) * (f * q) < m * (f * q) := by
      calc (c - 1) * (f * q) < nitems := c2
        _ ≤ blocks * f := hb1
        _ ≤ q * m * f := Nat.mul_le_mul_right _ q1
        _ = m * (f * q) := by rw [Nat.mul_comm q m, Nat.mul_assoc, Nat.mul_comm q f]
    have := Nat.lt_of_mul_lt_mul_right this
    omega
  · rw [← hf]
    calc (c - 1) * f ≤ (c - 1) * (f * q) := Nat.mul_le_mul_left _ (Nat.le_mul_of_pos_right _ q3)
      _ < nitems := c2

example : planChunks 1000 7 16 8 = .ok (16, 63) := by decide
/-- Outside the precondition: `chunks_per_worker = 0` divides by zero. -/
example : planChunks 10 3 1 0 = .ub := by decide

/-- **C03 (chunk list).** The created chunks are as many as the counter `chunks_remaining` starts with; every
index of the range lies in exactly one chunk and no other index lies in any; every chunk is non-empty, starts at a
multiple of the effective factor, and has the full chunk size unless it is the last. -/
theorem C03_chunks (first last : Int) (threads factor cpw : Nat) (hlt : first < last) (hc : 0 < cpw) :
    ∃ size chunks, planChunks (last - first).toNat threads factor cpw = .ok (size, chunks) ∧
      (chunkList size first last).length = chunks ∧
      (∀ v, ((chunkList size first last).map (fun c => if c.1 ≤ v ∧ v < c.2 then 1 else 0)).sum =
        if first ≤ v ∧ v < last then 1 else 0) ∧
      ∀ a b, (a, b) ∈ chunkList size first last →
        a < b ∧ ((max factor 1 : Nat) : Int) ∣ (a - first) ∧ (b = last ∨ b = a + size) := by
  obtain ⟨size, chunks, hp, hs, hd, h1, h2, h3, -, -⟩ :=
    C03_plan (last - first).toNat threads factor cpw (by omega) hc
  refine ⟨size, chunks, hp, ?_, fun v => chunkList_sum size last v (by omega) first, ?_⟩
  · have hl := chunkList_length size last (by omega) first
    rw [if_pos hlt] at hl
    have : ((last - first + size - 1) / size : Int) = chunks := by
      have hs' : (0 : Int) < size := by omega
      have h1' : (last - first) ≤ (chunks : Int) * size := by
        have : (((last - first).toNat : Nat) : Int) ≤ ((chunks * size : Nat) : Int) := by exact_mod_cast h1
        rw [Int.natCast_mul] at this; omega
      have h2' : ((chunks : Int) - 1) * size < last - first := by
        have : (((chunks - 1) * size : Nat) : Int) < (((last - first).toNat : Nat) : Int) := by exact_mod_cast h2
        rw [Int.natCast_mul, Int.natCast_sub (by omega)] at this
        simp at this; omega
      have e : (chunks : Int) * size = ((chunks : Int) - 1) * size + size := by
        rw [Int.sub_mul]; omega
      apply Int.le_antisymm
      · apply Int.le_of_lt_add_one
        rw [Int.ediv_lt_iff_lt_mul hs', Int.add_mul]; omega
      · rw [Int.le_ediv_iff_mul_le hs']; omega
    omega
  · intro a b hab
    obtain ⟨_, g2, _, _, g5, g6⟩ := chunkList_mem size last (by omega) first a b hab
    exact ⟨g2, Int.dvd_trans (by exact_mod_cast hd) g5, g6⟩

example : chunkList 4 (-1) 8 = [(-1, 3), (3, 7), (7, 8)] := by
  rw [chunkList_cons (by decide) (by decide)]
  simp only [show ((8 : Int) - -1 > 4) by decide, if_true, show (-1 + 4 : Int) = 3 by decide]
  rw [chunkList_cons (by decide) (by decide)]
  simp only [show ((8 : Int) - 3 > 4) by decide, if_true, show (3 + 4 : Int) = 7 by decide]
  rw [chunkList_cons (by decide) (by decide)]
  simp only [show ¬ ((8 : Int) - 7 > 4) by decide, if_false]
  rw [chunkList_nil (by decide)]

/-! ## Execution -/

def cntTask (v : Int) : Task → Nat
  | .chunk a b => ind a b v
  | .other => 0

def cntThread (v : Int) : Thread → Nat
  | .running a b => ind a b v
  | _ => 0

def cntMain (v : Int) : Main → Nat
  | .working t => cntThread v t
  | _ => 0

def numTask : Task → Nat
  | .chunk _ _ => 1
  | .other => 0

def numThread : Thread → Nat
  | .running _ _ => 1
  | _ => 0

def numMain : Main → Nat
  | .working t => numThread t
  | _ => 0

/-- Invariant of the parallel loop over `[first, last)`. -/
structure PFInv (first last : Int) (s : PF) : Prop where
  cnt : ∀ v, s.log.count v + (s.threads.map (cntThread v)).sum + cntMain v s.main +
    (s.queue.map (cntTask v)).sum = ind first last v
  num : s.remaining = (s.threads.map numThread).sum + numMain s.main + (s.queue.map numTask).sum
  wait : (s.main = .sleeping ∨ s.main = .awake) → (s.queue.map numTask).sum = 0
  asleep : s.main = .sleeping → 0 < s.remaining
  ret : s.main = .returned → s.remaining = 0

theorem cntThread_start (v : Int) (t : Task) : cntThread v (.start t) = cntTask v t := by
  cases t <;> rfl

theorem numThread_start (t : Task) : numThread (.start t) = numTask t := by
  cases t <;> rfl

theorem ind_succ {i l v : Int} (h : i < l) : ind i l v = ind (i + 1) l v + if v = i then 1 else 0 := by
  unfold ind; split <;> split <;> split <;> omega

theorem ind_empty {i l v : Int} (h : ¬ i < l) : ind i l v = 0 := by
  unfold ind; split <;> omega

theorem count_snoc (l : List Int) (i v : Int) : (l ++ [i]).count v = l.count v + if v = i then 1 else 0 := by
  rw [List.count_append, List.count_singleton]
  by_cases h : v = i
  · subst h; simp
  · have : ¬ (i = v) := fun e => h e.symm
    simp [h, this]

theorem cntMain_chunkDone (v : Int) (s : PF) : cntMain v s.chunkDone.main = cntMain v s.main := by
  simp only [PF.chunkDone]
  split
  · rename_i h; rw [h.2]; rfl
  · rfl

theorem numMain_chunkDone (s : PF) : numMain s.chunkDone.main = numMain s.main := by
  simp only [PF.chunkDone]
  split
  · rename_i h; rw [h.2]; rfl
  · rfl

theorem PFInv.step {first last : Int} {f sp : Bool} {s s' : PF} (i : PFInv first last s) (st : PF.Step f sp s s') :
    PFInv first last s' := by
  have hc := i.cnt
  have hn := i.num
  cases st with
  | pushOther _ =>
    refine ⟨fun v => ?_, ?_, fun h => ?_, i.asleep, i.ret⟩
    · have := hc v; simp [cntTask] at *; omega
    · simp [numTask] at *; omega
    · have := i.wait h; simp [numTask] at *; omega
  | pop k t q hq hk =>
    refine ⟨fun v => ?_, ?_, fun h => ?_, i.asleep, i.ret⟩
    · have := hc v
      have e := sum_set (cntThread v) s.threads k _ (.start t) hk
      rw [cntThread_start] at e
      simp [hq, cntThread] at *; omega
    · have e := sum_set numThread s.threads k _ (.start t) hk
      rw [numThread_start] at e
      simp [hq, numThread] at *; omega
    · have := i.wait h; simp [hq] at *; omega
  | body k a l hk hlt =>
    refine ⟨fun v => ?_, ?_, i.wait, i.asleep, i.ret⟩
    · have := hc v
      have e := sum_set (cntThread v) s.threads k _ (.running (a + 1) l) hk
      have e2 := count_snoc s.log a v
      have e3 := ind_succ (v := v) hlt
      simp only [cntThread] at *; omega
    · have e := sum_set numThread s.threads k _ (.running (a + 1) l) hk
      simp only [numThread] at *; omega
  | finish k a l hk hlt =>
    have e := sum_set numThread s.threads k _ .idle hk
    have e4 := le_sum_of_getElem? numThread s.threads k _ hk
    have m2 := numMain_chunkDone s
    refine ⟨fun v => ?_, ?_, fun h => ?_, fun h => ?_, fun h => ?_⟩
    · have := hc v
      have e := sum_set (cntThread v) s.threads k _ .idle hk
      have e3 := ind_empty (v := v) hlt
      have m1 := cntMain_chunkDone v s
      simp only [cntThread] at *
      rw [m1]
      simp only [PF.chunkDone]; omega
    · simp only [numThread] at *
      rw [m2]
      simp only [PF.chunkDone]; omega
    · apply i.wait
      simp only [PF.chunkDone] at h
      split at h
      · rename_i g; exact .inl g.2
      · exact h
    · simp only [PF.chunkDone] at h ⊢
      split at h
      · cases h
      · rename_i g
        have g3 : ¬ s.remaining - 1 = 0 := fun q => g ⟨q, h⟩
        omega
    · simp only [PF.chunkDone] at h ⊢
      split at h
      · cases h
      · have := i.ret h; omega
  | finishOther k hk =>
    refine ⟨fun v => ?_, ?_, i.wait, i.asleep, i.ret⟩
    · have := hc v
      have e := sum_set (cntThread v) s.threads k _ .idle hk
      simp only [cntThread] at *; omega
    · have e := sum_set numThread s.threads k _ .idle hk
      simp only [numThread] at *; omega
  | mainPop t q hq hm hr =>
    refine ⟨fun v => ?_, ?_, by simp, by simp, by simp⟩
    · have := hc v
      have e := cntThread_start v t
      have e0 : cntThread v .idle = 0 := rfl
      simp [hq, hm, cntMain] at *; omega
    · have e := numThread_start t
      have e0 : numThread .idle = 0 := rfl
      simp [hq, hm, numMain] at *; omega
  | mainBody a l hm hlt =>
    refine ⟨fun v => ?_, ?_, by simp, by simp, by simp⟩
    · have := hc v
      have e2 := count_snoc s.log a v
      have e3 := ind_succ (v := v) hlt
      simp only [hm, cntMain, cntThread] at *; omega
    · simp only [hm, numMain, numThread] at *; omega
  | mainFinish a l hm hlt =>
    refine ⟨fun v => ?_, ?_, by simp, by simp, by simp⟩
    · have := hc v
      have e3 := ind_empty (v := v) hlt
      simp only [hm, cntMain, cntThread, PF.chunkDone] at *; omega
    · simp only [hm, numMain, numThread, PF.chunkDone] at *; omega
  | mainFinishOther hm =>
    refine ⟨fun v => ?_, ?_, by simp, by simp, by simp⟩
    · have := hc v; simp only [hm, cntMain, cntThread] at *; omega
    · simp only [hm, numMain, numThread] at *; omega
  | mainLeave hm hr =>
    have q0 : (s.queue.map numTask).sum = 0 := by
      rcases hr with h | h
      · omega
      · rw [h]; rfl
    refine ⟨fun v => ?_, ?_, fun _ => q0, by simp, by simp⟩
    · have := hc v; simp only [hm, cntMain, cntThread] at *; omega
    · simp only [hm, numMain, numThread] at *; omega
  | mainWait hm hr =>
    refine ⟨fun v => ?_, ?_, fun _ => i.wait (.inr hm), fun _ => hr, by simp⟩
    · have := hc v; simp only [hm, cntMain] at *; omega
    · simp only [hm, numMain] at *; omega
  | mainDone hm hr =>
    refine ⟨fun v => ?_, ?_, by simp, by simp, fun _ => hr⟩
    · have := hc v; simp only [hm, cntMain] at *; omega
    · simp only [hm, numMain] at *; omega
  | mainWake _ hm =>
    refine ⟨fun v => ?_, ?_, fun _ => i.wait (.inl hm), by simp, by simp⟩
    · have := hc v; simp only [hm, cntMain] at *; omega
    · simp only [hm, numMain] at *; omega

theorem PFInv.init (pre : List Task) (hpre : ∀ t ∈ pre, t = .other) (first last inc : Int) (chunks n : Nat)
    (hinc : 0 < inc) (hl : (chunkList inc first last).length = chunks) :
    PFInv first last (PF.init pre first last inc chunks n) := by
  refine ⟨fun v => ?_, ?_, by simp [PF.init], by simp [PF.init], by simp [PF.init]⟩
  · have h0 : (pre.map (cntTask v)).sum = 0 := by
      apply sum_map_eq_zero; intro t ht; rw [hpre t ht]; rfl
    have h1 := chunkList_sum inc last v hinc first
    have h2 : ((List.replicate n Thread.idle).map (cntThread v)).sum = 0 := by
      apply sum_map_eq_zero; intro t ht; rw [List.eq_of_mem_replicate ht]; rfl
    have h3 : ((cntTask v) ∘ fun (c : Int × Int) => Task.chunk c.1 c.2) = fun c => ind c.1 c.2 v := rfl
    simp [PF.init, h0, cntMain, cntThread, h3, h1]
  · have h0 : (pre.map numTask).sum = 0 := by
      apply sum_map_eq_zero; intro t ht; rw [hpre t ht]; rfl
    have h2 : ((List.replicate n Thread.idle).map numThread).sum = 0 := by
      apply sum_map_eq_zero; intro t ht; rw [List.eq_of_mem_replicate ht]; rfl
    have h3 : (numTask ∘ fun (c : Int × Int) => Task.chunk c.1 c.2) = fun _ => 1 := rfl
    have h4 : ((chunkList inc first last).map fun _ => 1).sum = chunks := by
      rw [← hl]; generalize chunkList inc first last = l
      induction l with
      | nil => rfl
      | cons a l ih => simp only [List.map_cons, List.sum_cons, ih, List.length_cons]; omega
    simp [PF.init, h0, numMain, numThread, h3, h4]

theorem PFInv.reach {first last : Int} {f sp : Bool} {s₀ s : PF} (i : PFInv first last s₀)
    (r : PF.Reach f sp s₀ s) : PFInv first last s := by
  induction r with
  | refl => exact i
  | step _ st ih => exact ih.step st

/-- Work left. -/
def Task.work : Task → Nat
  | .chunk a b => (b - a).toNat + 3
  | .other => 3

def Thread.work : Thread → Nat
  | .idle => 0
  | .running i l => (l - i).toNat + 2
  | .runningOther => 2

def Main.work : Main → Nat
  | .working t => t.work + 3
  | .sleeping => 1
  | .awake => 2
  | .returned => 0

def PF.work (s : PF) : Nat :=
  (s.queue.map Task.work).sum + (s.threads.map Thread.work).sum + s.main.work

theorem work_start (t : Task) : (Thread.start t).work < t.work := by
  cases t <;> simp [Thread.start, Thread.work, Task.work]

theorem work_chunkDone (s : PF) : s.chunkDone.main.work ≤ s.main.work + 1 := by
  simp only [PF.chunkDone]
  split
  · rename_i h; rw [h.2]; simp [Main.work]
  · omega

theorem PF.Step.work_lt {s s' : PF} (st : PF.Step false false s s') : s'.work < s.work := by
  cases st with
  | pushOther h => cases h
  | pop k t q hq hk =>
    have e := sum_set Thread.work s.threads k _ (.start t) hk
    have := work_start t
    simp [PF.work, hq, Thread.work] at *; omega
  | body k a l hk hlt =>
    have e := sum_set Thread.work s.threads k _ (.running (a + 1) l) hk
    simp only [PF.work, Thread.work] at *; omega
  | finish k a l hk hlt =>
    have e := sum_set Thread.work s.threads k _ .idle hk
    have e2 := work_chunkDone s
    have e3 : s.chunkDone.queue = s.queue := rfl
    simp only [PF.work, Thread.work, e3] at *; omega
  | finishOther k hk =>
    have e := sum_set Thread.work s.threads k _ .idle hk
    simp only [PF.work, Thread.work] at *; omega
  | mainPop t q hq hm hr =>
    have := work_start t
    simp [PF.work, hq, hm, Main.work, Thread.work] at *; omega
  | mainBody a l hm hlt => simp only [PF.work, hm, Main.work, Thread.work] at *; omega
  | mainFinish a l hm hlt => simp only [PF.work, PF.chunkDone, hm, Main.work, Thread.work] at *; omega
  | mainFinishOther hm => simp only [PF.work, hm, Main.work, Thread.work] at *; omega
  | mainLeave hm hr => simp only [PF.work, hm, Main.work, Thread.work] at *; omega
  | mainWait hm hr => simp only [PF.work, hm, Main.work] at *; omega
  | mainDone hm hr => simp only [PF.work, hm, Main.work] at *; omega
  | mainWake h _ => cases h

/-! ## Property theorems -/

/-- **C03.** For every range, pool size, chunk factor, `chunks_per_worker > 0`, foreign tasks queued before or
meanwhile, and for *every* interleaving and any spurious wake-ups: at any moment no index has been run more than once
and no index outside the range at all; and when `parallel_for` has returned, every index of the range has been run
exactly once. -/
theorem C03_parallel_for_exactly_once (first last : Int) (threads factor cpw : Nat) (pre : List Task)
    (hpre : ∀ t ∈ pre, t = .other) (hlt : first < last) (hc : 0 < cpw) :
    ∃ size chunks, planChunks (last - first).toNat threads factor cpw = .ok (size, chunks) ∧
      ∀ s, PF.Reach true true (PF.init pre first last size chunks threads) s →
        (∀ v, s.log.count v ≤ if first ≤ v ∧ v < last then 1 else 0) ∧
        (s.main = .returned → ∀ v, s.log.count v = if first ≤ v ∧ v < last then 1 else 0) := by
  obtain ⟨size, chunks, hp, hl, _, _⟩ := C03_chunks first last threads factor cpw hlt hc
  obtain ⟨_, _, hp', hs, _⟩ := C03_plan (last - first).toNat threads factor cpw (by omega) hc
  rw [hp] at hp'; cases hp'
  refine ⟨size, chunks, hp, fun s r => ?_⟩
  have i := (PFInv.init pre hpre first last size chunks threads (by omega) hl).reach r
  refine ⟨fun v => ?_, fun hm v => ?_⟩
  · have := i.cnt v; unfold ind at this; omega
  · have h0 := i.ret hm
    have hn := i.num
    have t0 : (s.threads.map (cntThread v)).sum = 0 := by
      apply Nat.eq_zero_of_not_pos
      intro h
      obtain ⟨k, x, hk, hx⟩ := exists_of_sum_pos _ _ h
      have := le_sum_of_getElem? numThread s.threads k x hk
      cases x <;> simp_all [cntThread, numThread]
    have q0 : (s.queue.map (cntTask v)).sum = 0 := by
      apply Nat.eq_zero_of_not_pos
      intro h
      obtain ⟨k, x, hk, hx⟩ := exists_of_sum_pos _ _ h
      have := le_sum_of_getElem? numTask s.queue k x hk
      cases x <;> simp_all [cntTask, numTask]
    have := i.cnt v
    simp [hm, cntMain, t0, q0] at this
    exact this

/-- **C03 (no deadlock).** As long as `parallel_for` has not returned, some thread can take a step that is neither the
arrival of a foreign task nor a spurious wake-up — in particular the caller's wait cannot miss its notification. -/
theorem C03_parallel_for_no_deadlock (first last : Int) (threads factor cpw : Nat) (pre : List Task)
    (hpre : ∀ t ∈ pre, t = .other) (hlt : first < last) (hc : 0 < cpw) :
    ∃ size chunks, planChunks (last - first).toNat threads factor cpw = .ok (size, chunks) ∧
      ∀ s, PF.Reach true true (PF.init pre first last size chunks threads) s → s.main ≠ .returned →
        ∃ s', PF.Step false false s s' := by
  obtain ⟨size, chunks, hp, hl, _, _⟩ := C03_chunks first last threads factor cpw hlt hc
  obtain ⟨_, _, hp', hs, _⟩ := C03_plan (last - first).toNat threads factor cpw (by omega) hc
  rw [hp] at hp'; cases hp'
  refine ⟨size, chunks, hp, fun s r hm => ?_⟩
  have i := (PFInv.init pre hpre first last size chunks threads (by omega) hl).reach r
  cases hmain : s.main with
  | returned => exact absurd hmain hm
  | awake =>
    by_cases h0 : s.remaining = 0
    · exact ⟨_, .mainDone s hmain h0⟩
    · exact ⟨_, .mainWait s hmain (by omega)⟩
  | sleeping =>
    have h0 := i.asleep hmain
    have hn := i.num
    rw [hmain, i.wait (.inl hmain)] at hn
    simp only [numMain] at hn
    obtain ⟨k, x, hk, hx⟩ := exists_of_sum_pos numThread s.threads (by omega)
    cases x with
    | idle => simp [numThread] at hx
    | runningOther => simp [numThread] at hx
    | running a l =>
      by_cases hal : a < l
      · exact ⟨_, .body s k a l hk hal⟩
      · exact ⟨_, .finish s k a l hk hal⟩
  | working t =>
    cases t with
    | idle =>
      by_cases h0 : s.remaining = 0
      · exact ⟨_, .mainLeave s hmain (.inl h0)⟩
      · cases hq : s.queue with
        | nil => exact ⟨_, .mainLeave s hmain (.inr hq)⟩
        | cons t q => exact ⟨_, .mainPop s t q hq hmain (by omega)⟩
    | runningOther => exact ⟨_, .mainFinishOther s hmain⟩
    | running a l =>
      by_cases hal : a < l
      · exact ⟨_, .mainBody s a l hmain hal⟩
      · exact ⟨_, .mainFinish s a l hmain hal⟩

/-- **C03 (termination).** There is no infinite execution in which, from some point on, no foreign task arrives and no
wait wakes up spuriously: with `C03_parallel_for_no_deadlock`, the loop returns. -/
theorem C03_parallel_for_terminates (run : Nat → PF) (hs : ∀ n, PF.Step false false (run n) (run (n + 1))) : False := by
  have : ∀ n, (run n).work + n ≤ (run 0).work := by
    intro n
    induction n with
    | zero => simp
    | succ n ih => have := (hs n).work_lt; omega
  have := this ((run 0).work + 1)
  omega

/-- Non-vacuity: the hypotheses hold for a range of 10 with 3 pool threads, factor 4 and one foreign task. -/
example : (∀ t ∈ [Task.other], t = .other) ∧ (-2 : Int) < 8 ∧ 0 < 8 := by decide

/-- Non-vacuity: a returned state is reachable (two items in two chunks, one pool thread, the caller sleeps and is
notified by the pool thread). -/
example : ∃ s, PF.Reach true true (PF.init [] 0 2 1 2 1) s ∧ s.main = .returned ∧ s.log = [1, 0] := by
  have e : PF.init [] 0 2 1 2 1 = ⟨[.chunk 0 1, .chunk 1 2], 2, [.idle], .working .idle, []⟩ := by
    have : chunkList 1 0 2 = [(0, 1), (1, 2)] := by
      rw [chunkList_cons (by decide) (by decide)]
      simp only [show ((2 : Int) - 0 > 1) by decide, if_true, show (0 + 1 : Int) = 1 by decide]
      rw [chunkList_cons (by decide) (by decide)]
      simp [chunkList_nil]
    simp [PF.init, this]
  rw [e]
  have r1 := (PF.Reach.refl (foreign := true) (spurious := true)
    (s₀ := ⟨[.chunk 0 1, .chunk 1 2], 2, [.idle], .working .idle, []⟩)).step (.pop _ 0 _ _ rfl rfl)
  have r2 := r1.step (.mainPop _ _ _ rfl rfl (by decide))
  have r3 := r2.step (.mainBody _ 1 2 rfl (by decide))
  have r4 := r3.step (.mainFinish _ 2 2 rfl (by decide))
  have r5 := r4.step (.mainLeave _ rfl (.inr rfl))
  have r6 := r5.step (.mainWait _ rfl (by decide))
  have r7 := r6.step (.body _ 0 0 1 rfl (by decide))
  have r8 := r7.step (.finish _ 0 1 1 rfl (by decide))
  have r9 := r8.step (.mainDone _ rfl rfl)
  exact ⟨_, r9, rfl, rfl⟩

end Verif.ThreadPool
