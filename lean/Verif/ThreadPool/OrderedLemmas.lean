import Verif.ThreadPool.OrderedModel
import Verif.Util.Sum

/-! # Inductive invariant of the ordered producer/consumer -/

namespace Verif.ThreadPool.Ordered
open Verif Verif.Util

variable {α : Type}

/-- Slot of an index as a number (equal to `slot` for indices from `-maxPending` up). -/
def sl (P : Params α) (i : Int) : Nat := ((i + P.maxPending) % P.maxPending).toNat

theorem slot_ok (P : Params α) (hm : 0 < P.maxPending) (i : Int) (h : -(P.maxPending : Int) ≤ i) :
    slot P i = .ok (sl P i) := by
  have h1 : (i + (P.maxPending : Int)).tmod P.maxPending = (i + P.maxPending) % P.maxPending :=
    Int.tmod_eq_emod_of_nonneg (by omega)
  have h2 := Int.emod_nonneg (i + (P.maxPending : Int)) (b := P.maxPending) (by omega)
  unfold slot sl
  rw [if_neg (by omega)]
  simp only [h1]
  rw [if_neg (by omega)]

theorem sl_inj (P : Params α) (hm : 0 < P.maxPending) {i j : Int} (h : sl P i = sl P j)
    (h1 : i - j < P.maxPending) (h2 : j - i < P.maxPending) : i = j := by
  unfold sl at h
  have a := Int.emod_nonneg (i + (P.maxPending : Int)) (b := P.maxPending) (by omega)
  have b := Int.emod_nonneg (j + (P.maxPending : Int)) (b := P.maxPending) (by omega)
  have e : (i + (P.maxPending : Int)) % P.maxPending = (j + P.maxPending) % P.maxPending := by omega
  rw [Int.emod_eq_emod_iff_emod_sub_eq_zero] at e
  obtain ⟨c, hc⟩ := Int.dvd_of_emod_eq_zero e
  have hc' : i - j = P.maxPending * c := by omega
  have : c = 0 := by
    rcases Int.lt_trichotomy c 0 with h | h | h
    · have := Int.mul_le_mul_of_nonneg_left (show c ≤ -1 by omega) (show (0 : Int) ≤ P.maxPending by omega)
      omega
    · exact h
    · have := Int.mul_le_mul_of_nonneg_left (show 1 ≤ c by omega) (show (0 : Int) ≤ P.maxPending by omega)
      omega
  subst this; omega

theorem sl_period (P : Params α) (i : Int) : sl P (i + P.maxPending) = sl P i := by
  unfold sl
  rw [Int.add_emod_right (i + (P.maxPending : Int))]

def isProd (i : Int) : PC → Nat
  | .producing j => if j = i then 1 else 0
  | _ => 0

def isCons : PC → Nat
  | .consuming => 1
  | _ => 0

def isClr : PC → Nat
  | .cleared => 1
  | _ => 0

def isSleep : PC → Nat
  | .sleeping => 1
  | _ => 0

def isExit : PC → Nat
  | .exited => 1
  | _ => 0

/-- Number of workers producing index `i`; consuming; having just cleared a slot; asleep; gone. -/
abbrev nProd (l : List PC) (i : Int) : Nat := (l.map (isProd i)).sum
abbrev nCons (l : List PC) : Nat := (l.map isCons).sum
abbrev nClr (l : List PC) : Nat := (l.map isClr).sum
abbrev nSleep (l : List PC) : Nat := (l.map isSleep).sum
abbrev nExit (l : List PC) : Nat := (l.map isExit).sum

/-- Indices handed out / items consumed when counting from `first`. -/
def idxs (P : Params α) (n : Int) : List Int := (List.range (n - P.first).toNat).map fun (k : Nat) => P.first + k

theorem idxs_self (P : Params α) : idxs P P.first = [] := by simp [idxs]

theorem idxs_succ (P : Params α) (n : Int) (h : P.first ≤ n) : idxs P (n + 1) = idxs P n ++ [n] := by
  unfold idxs
  have : (n + 1 - P.first).toNat = (n - P.first).toNat + 1 := by omega
  rw [this, List.range_succ, List.map_append]
  simp; omega

/-- The part of the invariant about the ring and the indices. -/
structure RingInv (P : Params α) (s : State α) : Prop where
  r0 : P.first ≤ s.read
  rw' : s.read ≤ s.write
  wl : s.write ≤ P.last
  full : s.write - s.read ≤ P.maxPending
  one : nCons s.pcs + nClr s.pcs ≤ 1
  win : ∀ i, s.read ≤ i → i < s.write →
    (nProd s.pcs i = 1 ∧ s.ring (sl P i) = none) ∨
    (nProd s.pcs i = 0 ∧ s.ring (sl P i) = some (P.produce i)) ∨
    (i = s.read ∧ nClr s.pcs = 1 ∧ nProd s.pcs i = 0 ∧ s.ring (sl P i) = none)
  out : ∀ i, (i < s.read ∨ s.write ≤ i) → nProd s.pcs i = 0
  free : ∀ i, s.write ≤ i → i < s.read + P.maxPending → s.ring (sl P i) = none
  cwle : s.consumerWait ≤ s.read
  idle : nCons s.pcs + nClr s.pcs = 0 → s.consumerWait = s.read ∧ s.ring (sl P s.read) = none
  cons : nCons s.pcs = 1 → s.read < s.write ∧ s.ring (sl P s.read) = some (P.produce s.read)
  clr : nClr s.pcs = 1 → s.read < s.write ∧ s.ring (sl P s.read) = none ∧ nProd s.pcs s.read = 0
  consumed : s.consumed = (idxs P s.read).map P.produce ++ if nClr s.pcs = 1 then [P.produce s.read] else []
  produced : s.produced = idxs P s.write
  nocrash : s.crashed = false

/-- The part about worker lifetimes. -/
structure LifeInv (P : Params α) (returns : Bool) (s : State α) : Prop where
  len : s.pcs.length = P.workers
  exitSleep : 0 < nExit s.pcs → P.last ≤ s.write ∧ nSleep s.pcs = 0
  asleep : nSleep s.pcs = s.pcs.length → P.maxPending ≤ s.write - s.read
  count : s.count + nExit s.pcs = P.workers
  working : s.main = .working → s.pcs[0]? ≠ some .exited
  waitDone : s.main = .waitDone → s.pcs[0]? = some .exited ∧ 0 < s.count
  ret : returns = false → s.main = .returned → s.pcs[0]? = some .exited ∧ s.count = 0

/-- What a change of one worker's state does to the counters. -/
theorem counters_set {l : List PC} {k : Nat} {old : PC} (new : PC) (h : l[k]? = some old) :
    (∀ i, nProd (l.set k new) i + isProd i old = nProd l i + isProd i new) ∧
    nCons (l.set k new) + isCons old = nCons l + isCons new ∧
    nClr (l.set k new) + isClr old = nClr l + isClr new ∧
    nSleep (l.set k new) + isSleep old = nSleep l + isSleep new ∧
    nExit (l.set k new) + isExit old = nExit l + isExit new :=
  ⟨fun i => sum_set (isProd i) l k old new h, sum_set _ l k old new h, sum_set _ l k old new h,
    sum_set _ l k old new h, sum_set _ l k old new h⟩

theorem sum_map_map_congr {α : Type} (f : α → Nat) (g : α → α) (l : List α) (h : ∀ x, f (g x) = f x) :
    ((l.map g).map f).sum = (l.map f).sum := by
  induction l with
  | nil => rfl
  | cons a l ih => simp only [List.map_cons, List.sum_cons, h, ih]

theorem counters_wakeAll (l : List PC) :
    (∀ i, nProd (wakeAll l) i = nProd l i) ∧ nCons (wakeAll l) = nCons l ∧ nClr (wakeAll l) = nClr l ∧
    nSleep (wakeAll l) = 0 ∧ nExit (wakeAll l) = nExit l := by
  refine ⟨fun i => ?_, ?_, ?_, ?_, ?_⟩
  · exact sum_map_map_congr _ _ _ fun x => by cases x <;> rfl
  · exact sum_map_map_congr _ _ _ fun x => by cases x <;> rfl
  · exact sum_map_map_congr _ _ _ fun x => by cases x <;> rfl
  · unfold nSleep wakeAll
    rw [List.map_map]
    exact sum_map_eq_zero _ _ fun x _ => by cases x <;> rfl
  · exact sum_map_map_congr _ _ _ fun x => by cases x <;> rfl

/-- `notify_one` changes nothing the ring invariant looks at. -/
theorem NotifyOne.spec {l l' : List PC} (h : NotifyOne l l') :
    (∀ i, nProd l' i = nProd l i) ∧ nCons l' = nCons l ∧ nClr l' = nClr l ∧
    nSleep l' ≤ nSleep l ∧ nExit l' = nExit l ∧ l'.length = l.length ∧
    (∀ k : Nat, l[k]? = some .exited ↔ l'[k]? = some .exited) ∧ (∀ k : Nat, l[k]? = some .cleared → l'[k]? = some .cleared) := by
  cases h with
  | nobody h =>
    exact ⟨fun _ => rfl, rfl, rfl, Nat.le_refl _, rfl, rfl, fun _ => Iff.rfl, fun _ h => h⟩
  | wake k hk =>
    obtain ⟨a, b, c, d, e⟩ := counters_set .waiting hk
    refine ⟨fun i => ?_, ?_, ?_, ?_, ?_, by simp, fun j => ?_, fun j hj => ?_⟩
    · have := a i; simp only [isProd] at this; omega
    · simp only [isCons] at b; omega
    · simp only [isClr] at c; omega
    · simp only [isSleep] at d; omega
    · simp only [isExit] at e; omega
    · by_cases h : k = j
      · subst h
        rw [hk, List.getElem?_set_self' , hk]
        simp
      · rw [List.getElem?_set_ne h]
    · by_cases h : k = j
      · subst h; rw [hk] at hj; simp at hj
      · rw [List.getElem?_set_ne h]; exact hj

theorem setRing_self (r : Nat → Option α) (j : Nat) (v : Option α) : setRing r j v j = v := by
  simp [setRing]

theorem setRing_ne (r : Nat → Option α) {j k : Nat} (v : Option α) (h : k ≠ j) : setRing r j v k = r k := by
  simp [setRing, h]

/-- The invariant only looks at the counters. -/
theorem RingInv.congr {P : Params α} {s s' : State α} (i : RingInv P s)
    (hp : ∀ i, nProd s'.pcs i = nProd s.pcs i) (hc : nCons s'.pcs = nCons s.pcs) (hd : nClr s'.pcs = nClr s.pcs)
    (h : s' = { s with pcs := s'.pcs, count := s'.count, main := s'.main }) : RingInv P s' := by
  rw [h]
  constructor <;> simp only [hp, hc, hd]
  · exact i.r0
  · exact i.rw'
  · exact i.wl
  · exact i.full
  · exact i.one
  · exact i.win
  · exact i.out
  · exact i.free
  · exact i.cwle
  · exact i.idle
  · exact i.cons
  · exact i.clr
  · exact i.consumed
  · exact i.produced
  · exact i.nocrash


theorem exists_cons_of_pos {l : List PC} {i : Int} (h : 0 < nProd l i) : ∃ k : Nat, l[k]? = some (.producing i) := by
  obtain ⟨k, x, hk, hx⟩ := exists_of_sum_pos (isProd i) l h
  cases x <;> simp only [isProd] at hx <;> first | omega | skip
  rename_i j
  by_cases e : j = i
  · subst e; exact ⟨k, hk⟩
  · simp [e] at hx

theorem nProd_pos {l : List PC} {k : Nat} {i : Int} (h : l[k]? = some (.producing i)) : 0 < nProd l i := by
  have := le_sum_of_getElem? (isProd i) l k _ h
  simp [isProd] at this
  exact this

theorem RingInv.producing_range {P : Params α} {s : State α} (inv : RingInv P s) {k : Nat} {i : Int}
    (h : s.pcs[k]? = some (.producing i)) : s.read ≤ i ∧ i < s.write ∧ nProd s.pcs i = 1 ∧ s.ring (sl P i) = none := by
  have hp := nProd_pos h
  have h1 : s.read ≤ i ∧ i < s.write := by
    by_cases hr : i < s.read ∨ s.write ≤ i
    · have := inv.out i hr; omega
    · omega
  rcases inv.win i h1.1 h1.2 with g | g | g
  · exact ⟨h1.1, h1.2, g⟩
  · omega
  · omega

theorem RingInv.init (P : Params α) (h : P.first ≤ P.last) :
    RingInv P (State.init P) := by
  have z : ∀ f : PC → Nat, f .waiting = 0 → ((List.replicate P.workers PC.waiting).map f).sum = 0 := by
    intro f hf
    exact sum_map_eq_zero _ _ fun x hx => by rw [List.eq_of_mem_replicate hx, hf]
  have zp : ∀ i, nProd (List.replicate P.workers PC.waiting) i = 0 := fun i => z _ rfl
  have zc : nCons (List.replicate P.workers PC.waiting) = 0 := z _ rfl
  have zd : nClr (List.replicate P.workers PC.waiting) = 0 := z _ rfl
  constructor <;> simp only [State.init, zp, zc, zd]
  · exact Int.le_refl _
  · exact Int.le_refl _
  · exact h
  · omega
  · omega
  · intro i h1 h2; omega
  · intros; trivial
  · intros; trivial
  · exact Int.le_refl _
  · intros; trivial
  · intro h; omega
  · intro h; omega
  · simp [idxs_self]
  · exact (idxs_self P).symm

theorem RingInv.step {P : Params α} {w r : Bool} {s s' : State α} (hm : 0 < P.maxPending)
    (hf : -(P.maxPending : Int) ≤ P.first) (inv : RingInv P s) (st : Step P w r s s') : RingInv P s' := by
  have hok : ∀ i, P.first ≤ i → slot P i = .ok (sl P i) := fun i hi => slot_ok P hm i (by omega)
  cases st with
  | exit k hk hl =>
    obtain ⟨a, b, c, d, e⟩ := counters_wakeAll s.pcs
    have hk' : (wakeAll s.pcs)[k]? = some .waiting := by
      simp [wakeAll, hk]
    obtain ⟨a', b', c', d', e'⟩ := counters_set .exited hk'
    refine inv.congr (fun i => ?_) ?_ ?_ rfl
    · have := a i; have := a' i; simp only [exitState, isProd] at *; omega
    · simp only [exitState, isCons] at *; omega
    · simp only [exitState, isClr] at *; omega
  | sleep k hk h1 h2 =>
    obtain ⟨a, b, c, d, e⟩ := counters_set .sleeping hk
    refine inv.congr (fun i => ?_) ?_ ?_ rfl
    · have := a i; simp only [isProd] at *; omega
    · simp only [isCons] at *; omega
    · simp only [isClr] at *; omega
  | spuriousWake k hw hk =>
    obtain ⟨a, b, c, d, e⟩ := counters_set .waiting hk
    refine inv.congr (fun i => ?_) ?_ ?_ rfl
    · have := a i; simp only [isProd] at *; omega
    · simp only [isCons] at *; omega
    · simp only [isClr] at *; omega
  | spuriousReturn hr hmain =>
    exact inv.congr (fun _ => rfl) rfl rfl rfl
  | startCrash k hk h1 h2 h3 =>
    rw [hok _ (by have := inv.r0; have := inv.rw'; omega)] at h3; cases h3
  | storeCrash k j i hk hj hne =>
    obtain ⟨h1, h2, h3, h4⟩ := inv.producing_range hk
    rw [hok _ (by have := inv.r0; omega)] at hj; cases hj
    exact absurd h4 hne
  | start k j hk h1 h2 h3 =>
    obtain ⟨a, b, c, d, e⟩ := counters_set (.producing s.write) hk
    have hc : nCons (s.pcs.set k (.producing s.write)) = nCons s.pcs := by simp only [isCons] at b; omega
    have hd : nClr (s.pcs.set k (.producing s.write)) = nClr s.pcs := by simp only [isClr] at c; omega
    have hp : ∀ i, nProd (s.pcs.set k (.producing s.write)) i = nProd s.pcs i + if s.write = i then 1 else 0 := by
      intro i; have := a i; simp only [isProd] at this; omega
    have := inv.rw'; have := inv.r0; have := inv.wl
    constructor <;> simp only [hc, hd]
    · exact inv.r0
    · omega
    · omega
    · omega
    · exact inv.one
    · intro i g1 g2
      rw [hp]
      by_cases hi : s.write = i
      · subst hi
        left
        refine ⟨?_, inv.free _ (Int.le_refl _) (by omega)⟩
        rw [inv.out _ (.inr (Int.le_refl _))]; simp
      · simp only [hi, if_false, Nat.add_zero]
        exact inv.win i g1 (by omega)
    · intro i g
      rw [hp, inv.out i (by omega)]
      have : s.write ≠ i := by omega
      simp [this]
    · intro i g1 g2; exact inv.free i (by omega) g2
    · exact inv.cwle
    · exact inv.idle
    · intro g; exact ⟨by have := (inv.cons g).1; omega, (inv.cons g).2⟩
    · intro g
      obtain ⟨q1, q2, q3⟩ := inv.clr g
      refine ⟨by omega, q2, ?_⟩
      rw [hp, q3]
      have : s.write ≠ s.read := by omega
      simp [this]
    · exact inv.consumed
    · rw [idxs_succ P _ (by omega), inv.produced]
    · exact inv.nocrash
  | store k j i hk hj hn hne =>
    obtain ⟨h1, h2, h3, h4⟩ := inv.producing_range hk
    have := inv.r0
    rw [hok _ (by omega)] at hj; cases hj
    obtain ⟨a, b, c, d, e⟩ := counters_set .waiting hk
    have hc : nCons (s.pcs.set k .waiting) = nCons s.pcs := by simp only [isCons] at b; omega
    have hd : nClr (s.pcs.set k .waiting) = nClr s.pcs := by simp only [isClr] at c; omega
    have hp : ∀ i', nProd (s.pcs.set k .waiting) i' + (if i = i' then 1 else 0) = nProd s.pcs i' := by
      intro i'; have := a i'; simp only [isProd] at this; omega
    have hpi : nProd (s.pcs.set k .waiting) i = 0 := by have := hp i; simp at this; omega
    have hpne : ∀ i', i' ≠ i → nProd (s.pcs.set k .waiting) i' = nProd s.pcs i' := by
      intro i' h; have := hp i'; rw [if_neg (Ne.symm h)] at this; exact this
    have hfull := inv.full
    have hsl : ∀ i', s.read ≤ i' → i' < s.read + P.maxPending → i' ≠ i → sl P i' ≠ sl P i := by
      intro i' g1 g2 g3 g4
      exact g3 (sl_inj P hm g4 (by omega) (by omega))
    have hri : i ≠ s.read ∨ 0 < nCons s.pcs + nClr s.pcs := by
      by_cases g : nCons s.pcs + nClr s.pcs = 0
      · left; rw [← (inv.idle g).1]; exact hne
      · right; omega
    have hri' : i ≠ s.read := by
      intro e; subst e
      rcases hri with g | g
      · exact g rfl
      · have := inv.one
        by_cases q : nCons s.pcs = 1
        · have := (inv.cons q).2; rw [h4] at this; cases this
        · have := (inv.clr (by omega)).2.2; omega
    constructor <;> simp only [hc, hd]
    · exact inv.r0
    · exact inv.rw'
    · exact inv.wl
    · exact inv.full
    · exact inv.one
    · intro i' g1 g2
      by_cases hi : i' = i
      · subst hi
        right; left
        exact ⟨hpi, setRing_self _ _ _⟩
      · rw [hpne _ hi, setRing_ne _ _ (hsl i' g1 (by omega) hi)]
        exact inv.win i' g1 g2
    · intro i' g
      have := hp i'; have := inv.out i' g; omega
    · intro i' g1 g2
      rw [setRing_ne _ _ (hsl i' (by omega) g2 (by omega))]
      exact inv.free i' g1 g2
    · exact inv.cwle
    · intro g
      rw [setRing_ne _ _ (hsl s.read (Int.le_refl _) (by omega) (Ne.symm hri'))]
      exact inv.idle g
    · intro g
      rw [setRing_ne _ _ (hsl s.read (Int.le_refl _) (by omega) (Ne.symm hri'))]
      exact inv.cons g
    · intro g
      rw [setRing_ne _ _ (hsl s.read (Int.le_refl _) (by omega) (Ne.symm hri')), hpne _ (Ne.symm hri')]
      exact inv.clr g
    · exact inv.consumed
    · exact inv.produced
    · exact inv.nocrash
  | storeConsume k j i hk hj hn heq =>
    obtain ⟨h1, h2, h3, h4⟩ := inv.producing_range hk
    have := inv.r0
    rw [hok _ (by omega)] at hj; cases hj
    have hcw := inv.cwle
    have hir : i = s.read := by omega
    have hz : nCons s.pcs + nClr s.pcs = 0 := by
      have := inv.one
      by_cases q : nCons s.pcs = 1
      · have := (inv.cons q).2; rw [← hir, h4] at this; cases this
      · by_cases q2 : nClr s.pcs = 1
        · have := (inv.clr q2).2.2; rw [← hir] at this; omega
        · omega
    have hct : consumeTest P { s with ring := setRing s.ring (sl P i) (some (P.produce i)) } k =
        { s with ring := setRing s.ring (sl P i) (some (P.produce i)), pcs := s.pcs.set k .consuming } := by
      simp only [consumeTest, ← hir, hok i (by omega), setRing_self]
    rw [hct]
    obtain ⟨a, b, c, d, e⟩ := counters_set .consuming hk
    have hc : nCons (s.pcs.set k .consuming) = 1 := by simp only [isCons] at b; omega
    have hd : nClr (s.pcs.set k .consuming) = 0 := by simp only [isClr] at c; omega
    have hp : ∀ i', nProd (s.pcs.set k .consuming) i' + (if i = i' then 1 else 0) = nProd s.pcs i' := by
      intro i'; have := a i'; simp only [isProd] at this; omega
    have hpi : nProd (s.pcs.set k .consuming) i = 0 := by have := hp i; simp at this; omega
    have hpne : ∀ i', i' ≠ i → nProd (s.pcs.set k .consuming) i' = nProd s.pcs i' := by
      intro i' h; have := hp i'; rw [if_neg (Ne.symm h)] at this; exact this
    have hfull := inv.full
    have hsl : ∀ i', s.read ≤ i' → i' < s.read + P.maxPending → i' ≠ i → sl P i' ≠ sl P i := by
      intro i' g1 g2 g3 g4
      exact g3 (sl_inj P hm g4 (by omega) (by omega))
    have hd0 : nClr s.pcs = 0 := by omega
    constructor <;> simp only [hc, hd]
    · exact inv.r0
    · exact inv.rw'
    · exact inv.wl
    · exact inv.full
    · omega
    · intro i' g1 g2
      by_cases hi : i' = i
      · subst hi
        right; left
        exact ⟨hpi, setRing_self _ _ _⟩
      · rw [hpne _ hi, setRing_ne _ _ (hsl i' g1 (by omega) hi)]
        have := inv.win i' g1 g2
        rw [hd0] at this
        exact this
    · intro i' g
      have := hp i'; have := inv.out i' g; omega
    · intro i' g1 g2
      rw [setRing_ne _ _ (hsl i' (by omega) g2 (by omega))]
      exact inv.free i' g1 g2
    · exact inv.cwle
    · intro g; omega
    · intro _
      rw [← hir]
      exact ⟨h2, setRing_self _ _ _⟩
    · intro g; omega
    · rw [inv.consumed, hd0]
    · exact inv.produced
    · exact inv.nocrash
  | consume k j v hk hj hv =>
    have hcp : 0 < nCons s.pcs := by
      have := le_sum_of_getElem? isCons s.pcs k _ hk
      simp only [isCons] at this; exact this
    have hone := inv.one
    have hcons := inv.cons (by omega)
    have hd0 : nClr s.pcs = 0 := by omega
    have := inv.r0
    rw [hok _ (by omega)] at hj; cases hj
    rw [hcons.2] at hv; cases hv
    obtain ⟨a, b, c, d, e⟩ := counters_set .cleared hk
    have hc : nCons (s.pcs.set k .cleared) = 0 := by simp only [isCons] at b; omega
    have hd : nClr (s.pcs.set k .cleared) = 1 := by simp only [isClr] at c; omega
    have hp : ∀ i', nProd (s.pcs.set k .cleared) i' = nProd s.pcs i' := by
      intro i'; have := a i'; simp only [isProd] at this; omega
    have hfull := inv.full
    have hsl : ∀ i', s.read ≤ i' → i' < s.read + P.maxPending → i' ≠ s.read → sl P i' ≠ sl P s.read := by
      intro i' g1 g2 g3 g4
      exact g3 (sl_inj P hm g4 (by omega) (by omega))
    have hp0 : nProd s.pcs s.read = 0 := by
      rcases inv.win s.read (Int.le_refl _) hcons.1 with g | g | g
      · rw [hcons.2] at g; cases g.2
      · exact g.1
      · exact g.2.2.1
    constructor <;> simp only [hc, hd, hp]
    · exact inv.r0
    · exact inv.rw'
    · exact inv.wl
    · exact inv.full
    · omega
    · intro i' g1 g2
      by_cases hi : i' = s.read
      · subst hi
        right; right
        exact ⟨rfl, trivial, hp0, setRing_self _ _ _⟩
      · rw [setRing_ne _ _ (hsl i' g1 (by omega) hi)]
        have := inv.win i' g1 g2
        rw [hd0] at this
        rcases this with g | g | g
        · exact .inl g
        · exact .inr (.inl g)
        · omega
    · exact inv.out
    · intro i' g1 g2
      rw [setRing_ne _ _ (hsl i' (by omega) g2 (by omega))]
      exact inv.free i' g1 g2
    · exact inv.cwle
    · intro g; omega
    · intro g; omega
    · intro _
      exact ⟨hcons.1, setRing_self _ _ _, hp0⟩
    · rw [inv.consumed, hd0]; simp
    · exact inv.produced
    · exact inv.nocrash
  | advance k pcs' hk hn =>
    have hnot : (∀ i, nProd pcs' i = nProd s.pcs i) ∧ nCons pcs' = nCons s.pcs ∧ nClr pcs' = nClr s.pcs ∧
        pcs'[k]? = some .cleared := by
      split at hn
      · obtain ⟨a, b, c, _, _, _, _, h⟩ := hn.spec
        exact ⟨a, b, c, h k hk⟩
      · subst hn; exact ⟨fun _ => rfl, rfl, rfl, hk⟩
    obtain ⟨np, nc, nd, hk'⟩ := hnot
    have hdp : 0 < nClr s.pcs := by
      have := le_sum_of_getElem? isClr s.pcs k _ hk
      simp only [isClr] at this; exact this
    have hone := inv.one
    have hd1 : nClr s.pcs = 1 := by omega
    have hc0 : nCons s.pcs = 0 := by omega
    obtain ⟨hlt, hnone, hp0⟩ := inv.clr hd1
    have hr0 := inv.r0
    have hfull := inv.full
    have hwl := inv.wl
    -- the window after the increment
    have hfree' : ∀ i, s.write ≤ i → i < s.read + 1 + P.maxPending → s.ring (sl P i) = none := by
      intro i g1 g2
      by_cases g : i < s.read + P.maxPending
      · exact inv.free i g1 g
      · have : i = s.read + P.maxPending := by omega
        rw [this, sl_period]; exact hnone
    have hwin' : ∀ i, s.read + 1 ≤ i → i < s.write →
        (nProd s.pcs i = 1 ∧ s.ring (sl P i) = none) ∨
        (nProd s.pcs i = 0 ∧ s.ring (sl P i) = some (P.produce i)) := by
      intro i g1 g2
      rcases inv.win i (by omega) g2 with g | g | g
      · exact .inl g
      · exact .inr g
      · omega
    have hout' : ∀ i, (i < s.read + 1 ∨ s.write ≤ i) → nProd s.pcs i = 0 := by
      intro i g
      by_cases e : i = s.read
      · subst e; exact hp0
      · exact inv.out i (by omega)
    have hcw := inv.cwle
    unfold consumeTest
    simp only [hok (s.read + 1) (by omega)]
    split
    · rename_i v hv
      have hlt' : s.read + 1 < s.write := by
        by_cases g : s.read + 1 < s.write
        · exact g
        · rw [hfree' (s.read + 1) (by omega) (by omega)] at hv; cases hv
      have hval : s.ring (sl P (s.read + 1)) = some (P.produce (s.read + 1)) := by
        rcases hwin' (s.read + 1) (Int.le_refl _) hlt' with g | g
        · rw [hv] at g; cases g.2
        · exact g.2
      obtain ⟨a, b, c, d, e⟩ := counters_set .consuming hk'
      have hc : nCons (pcs'.set k .consuming) = 1 := by simp only [isCons] at b; omega
      have hd : nClr (pcs'.set k .consuming) = 0 := by simp only [isClr] at c; omega
      have hp : ∀ i', nProd (pcs'.set k .consuming) i' = nProd s.pcs i' := by
        intro i'; have := a i'; have := np i'; simp only [isProd] at *; omega
      constructor <;> simp only [hc, hd, hp]
      · omega
      · omega
      · omega
      · omega
      · omega
      · intro i g1 g2
        rcases hwin' i g1 g2 with g | g
        · exact .inl g
        · exact .inr (.inl g)
      · exact hout'
      · exact hfree'
      · omega
      · intro g; omega
      · intro _; exact ⟨hlt', hval⟩
      · intro g; omega
      · rw [inv.consumed, hd1, idxs_succ P _ hr0]; simp
      · exact inv.produced
      · exact inv.nocrash
    · rename_i hv
      obtain ⟨a, b, c, d, e⟩ := counters_set .waiting hk'
      have hc : nCons (pcs'.set k .waiting) = 0 := by simp only [isCons] at b; omega
      have hd : nClr (pcs'.set k .waiting) = 0 := by simp only [isClr] at c; omega
      have hp : ∀ i', nProd (pcs'.set k .waiting) i' = nProd s.pcs i' := by
        intro i'; have := a i'; have := np i'; simp only [isProd] at *; omega
      constructor <;> simp only [hc, hd, hp]
      · omega
      · omega
      · omega
      · omega
      · omega
      · intro i g1 g2
        rcases hwin' i g1 g2 with g | g
        · exact .inl g
        · exact .inr (.inl g)
      · exact hout'
      · exact hfree'
      · omega
      · intro _; exact ⟨trivial, hv⟩
      · intro g; omega
      · intro g; omega
      · rw [inv.consumed, hd1, idxs_succ P _ hr0]; simp
      · exact inv.produced
      · exact inv.nocrash


/-! ## Worker lifetimes -/

theorem awake {l : List PC} {k : Nat} {p : PC} (hk : l[k]? = some p) (hp : p ≠ .sleeping) {Q : Prop} :
    nSleep l = l.length → Q := by
  intro h
  exfalso
  have hle : ∀ l : List PC, nSleep l ≤ l.length := by
    intro l; induction l with
    | nil => simp [nSleep]
    | cons x l ih => cases x <;> simp [isSleep, nSleep] at * <;> omega
  induction l generalizing k with
  | nil => simp at hk
  | cons x l ih =>
    have := hle l
    cases k with
    | zero =>
      simp at hk; subst hk
      have : isSleep x = 0 := by cases x <;> simp_all [isSleep]
      simp only [nSleep, List.map_cons, List.sum_cons, List.length_cons] at *; omega
    | succ k =>
      simp at hk
      refine ih hk ?_
      have : isSleep x ≤ 1 := by cases x <;> simp [isSleep]
      simp only [nSleep, List.map_cons, List.sum_cons, List.length_cons] at *; omega

theorem awake_set {l : List PC} {k : Nat} {old : PC} (hk : l[k]? = some old) (new : PC) (hp : new ≠ .sleeping)
    {Q : Prop} : nSleep (l.set k new) = (l.set k new).length → Q :=
  awake (k := k) (p := new) (by rw [List.getElem?_set_self', hk]; rfl) hp

theorem LifeInv.init (P : Params α) (r : Bool) (hw : 0 < P.workers) : LifeInv P r (State.init P) := by
  have z : nExit (List.replicate P.workers PC.waiting) = 0 :=
    sum_map_eq_zero _ _ fun x hx => by rw [List.eq_of_mem_replicate hx]; rfl
  constructor <;> simp only [State.init, z]
  · simp
  · intro h; omega
  · exact awake (k := 0) (p := .waiting) (by rw [List.getElem?_replicate, if_pos hw]) (by simp)
  · omega
  · intro _ h
    rw [List.getElem?_replicate, if_pos hw] at h
    cases h
  · intro h; cases h
  · intro _ h; cases h

theorem set_ne_exited {l : List PC} {k : Nat} {old new : PC} (hk : l[k]? = some old) (ho : old ≠ .exited)
    (hn : new ≠ .exited) (j : Nat) : (l.set k new)[j]? = some .exited ↔ l[j]? = some .exited := by
  by_cases h : k = j
  · subst h
    rw [List.getElem?_set_self', hk]
    simp [ho, hn]
  · rw [List.getElem?_set_ne h]

theorem LifeInv.congr {P : Params α} {r : Bool} {s s' : State α} (inv : LifeInv P r s)
    (hl : s'.pcs.length = s.pcs.length) (he : nExit s'.pcs = nExit s.pcs)
    (hs : 0 < nExit s.pcs → P.last ≤ s.write → nSleep s'.pcs = 0) (hw : s.write ≤ s'.write)
    (ha : nSleep s'.pcs = s'.pcs.length → P.maxPending ≤ s'.write - s'.read)
    (h0 : s'.pcs[0]? = some .exited ↔ s.pcs[0]? = some .exited) (hc : s'.count = s.count) (hm : s'.main = s.main) :
    LifeInv P r s' := by
  refine ⟨?_, ?_, ha, ?_, ?_, ?_, ?_⟩ <;> simp only [hl, he, hc, hm, h0, Ne]
  · exact inv.len
  · intro h; obtain ⟨a, b⟩ := inv.exitSleep h; exact ⟨by omega, hs h a⟩
  · exact inv.count
  · exact inv.working
  · exact inv.waitDone
  · exact inv.ret

theorem consumeTest_pcs (P : Params α) (s : State α) (k : Nat) :
    (consumeTest P s k).pcs = s.pcs.set k .consuming ∨ (consumeTest P s k).pcs = s.pcs.set k .waiting ∨
      (consumeTest P s k).pcs = s.pcs := by
  unfold consumeTest; split
  · split <;> simp
  · simp

theorem consumeTest_rest (P : Params α) (s : State α) (k : Nat) :
    (consumeTest P s k).write = s.write ∧ (consumeTest P s k).count = s.count ∧
      (consumeTest P s k).main = s.main ∧ (consumeTest P s k).read = s.read := by
  unfold consumeTest; split
  · split <;> simp
  · simp

theorem LifeInv.step {P : Params α} {w r : Bool} {s s' : State α} (inv : LifeInv P r s) (st : Step P w r s s') :
    LifeInv P r s' := by
  cases st with
  | exit k hk hl =>
    obtain ⟨a, b, c, d, e⟩ := counters_wakeAll s.pcs
    have hk' : (wakeAll s.pcs)[k]? = some .waiting := by simp [wakeAll, hk]
    obtain ⟨a', b', c', d', e'⟩ := counters_set .exited hk'
    have hlen : (wakeAll s.pcs).length = s.pcs.length := by simp [wakeAll]
    have hx : nExit ((wakeAll s.pcs).set k .exited) = nExit s.pcs + 1 := by simp only [isExit] at e'; omega
    have hsl : nSleep ((wakeAll s.pcs).set k .exited) = 0 := by simp only [isSleep] at d'; omega
    have hcnt := inv.count
    -- not everybody had exited: worker k had not
    have hlt : nExit s.pcs < P.workers := by
      have hb : ∀ l : List PC, nExit l ≤ l.length := by
        intro l; induction l with
        | nil => simp [nExit]
        | cons x l ih => cases x <;> simp [isExit, nExit] at * <;> omega
      have hb' := hb ((wakeAll s.pcs).set k .exited)
      simp only [List.length_set, hlen, inv.len] at hb'
      omega
    have h0 : k ≠ 0 → (((wakeAll s.pcs).set k .exited)[0]? = some .exited ↔ s.pcs[0]? = some .exited) := by
      intro h
      rw [List.getElem?_set_ne h]
      simp only [wakeAll, List.getElem?_map]
      cases s.pcs[0]? with
      | none => simp
      | some x => cases x <;> simp
    have h00 : k = 0 → ((wakeAll s.pcs).set k .exited)[0]? = some .exited := by
      intro h; subst h
      rw [List.getElem?_set_self', hk']; rfl
    have hk0 : k = 0 → s.pcs[0]? = some .waiting := by intro h; rw [← h]; exact hk
    constructor <;> simp only [exitState, hx, hsl]
    · simp [hlen, inv.len]
    · intro _; exact ⟨hl, trivial⟩
    · rw [← hsl]; exact awake_set hk' .exited (by simp)
    · omega
    · split
      · split <;> (intro h; cases h)
      · rename_i h
        rw [Ne, h0 h]
        split
        · intro h; cases h
        · exact inv.working
    · split
      · rename_i h
        split
        · intro _; exact ⟨h00 h, by omega⟩
        · intro h; cases h
      · rename_i h
        rw [h0 h]
        split
        · intro h; cases h
        · rename_i g
          intro g2
          have g3 : ¬ s.count - 1 = 0 := fun q => g ⟨q, g2⟩
          exact ⟨(inv.waitDone g2).1, by omega⟩
    · intro hr
      split
      · rename_i h
        split
        · intro h; cases h
        · intro _; exact ⟨h00 h, by omega⟩
      · rename_i h
        rw [h0 h]
        split
        · rename_i g
          intro _
          exact ⟨(inv.waitDone g.2).1, g.1⟩
        · intro g2
          have := inv.ret hr g2
          exact ⟨this.1, by rw [this.2]⟩
  | sleep k hk h1 h2 =>
    obtain ⟨a, b, c, d, e⟩ := counters_set .sleeping hk
    refine inv.congr (by simp) (by simp only [isExit] at e; simpa using e) (fun _ h => absurd h (by omega))
      (Int.le_refl _) (fun _ => by simp only []; omega) (set_ne_exited hk (by simp) (by simp) 0) rfl rfl
  | start k j hk h1 h2 h3 =>
    obtain ⟨a, b, c, d, e⟩ := counters_set (.producing s.write) hk
    refine inv.congr (by simp) (by simp only [isExit] at e; simpa using e) (fun _ h => absurd h (by omega))
      (by simp only []; omega) (awake_set hk _ (by simp)) (set_ne_exited hk (by simp) (by simp) 0) rfl rfl
  | startCrash k hk h1 h2 h3 =>
    exact inv.congr rfl rfl (fun h _ => (inv.exitSleep h).2) (Int.le_refl _) inv.asleep Iff.rfl rfl rfl
  | store k j i hk hj hn hne =>
    obtain ⟨a, b, c, d, e⟩ := counters_set .waiting hk
    refine inv.congr (by simp) (by simp only [isExit] at e; simpa using e) (fun h _ => ?_)
      (Int.le_refl _) (awake_set hk _ (by simp)) (set_ne_exited hk (by simp) (by simp) 0) rfl rfl
    have := (inv.exitSleep h).2
    simp only [isSleep] at d; simp only []; omega
  | storeConsume k j i hk hj hn heq =>
    obtain ⟨q1, q2, q3, q4⟩ := consumeTest_rest P { s with ring := setRing s.ring j (some (P.produce i)) } k
    rcases consumeTest_pcs P { s with ring := setRing s.ring j (some (P.produce i)) } k with hp | hp | hp
    · obtain ⟨a, b, c, d, e⟩ := counters_set .consuming hk
      refine inv.congr (by rw [hp]; simp) (by rw [hp]; simp only [isExit] at e; simpa using e) (fun h _ => ?_)
        (by rw [q1]; exact Int.le_refl _) (by rw [hp]; exact awake_set hk _ (by simp)) (by rw [hp]; exact set_ne_exited hk (by simp) (by simp) 0) q2 q3
      have := (inv.exitSleep h).2
      rw [hp]; simp only [isSleep] at d; simp only []; omega
    · obtain ⟨a, b, c, d, e⟩ := counters_set .waiting hk
      refine inv.congr (by rw [hp]; simp) (by rw [hp]; simp only [isExit] at e; simpa using e) (fun h _ => ?_)
        (by rw [q1]; exact Int.le_refl _) (by rw [hp]; exact awake_set hk _ (by simp)) (by rw [hp]; exact set_ne_exited hk (by simp) (by simp) 0) q2 q3
      have := (inv.exitSleep h).2
      rw [hp]; simp only [isSleep] at d; simp only []; omega
    · exact inv.congr (by rw [hp]) (by rw [hp]) (fun h _ => by rw [hp]; exact (inv.exitSleep h).2)
        (by rw [q1]; exact Int.le_refl _) (by rw [hp]; exact awake hk (by simp)) (by rw [hp]) q2 q3
  | storeCrash k j i hk hj hne =>
    exact inv.congr rfl rfl (fun h _ => (inv.exitSleep h).2) (Int.le_refl _) inv.asleep Iff.rfl rfl rfl
  | consume k j v hk hj hv =>
    obtain ⟨a, b, c, d, e⟩ := counters_set .cleared hk
    refine inv.congr (by simp) (by simp only [isExit] at e; simpa using e) (fun h _ => ?_)
      (Int.le_refl _) (awake_set hk _ (by simp)) (set_ne_exited hk (by simp) (by simp) 0) rfl rfl
    have := (inv.exitSleep h).2
    simp only [isSleep] at d; simp only []; omega
  | advance k pcs' hk hn =>
    have hnot : nSleep pcs' ≤ nSleep s.pcs ∧ nExit pcs' = nExit s.pcs ∧ pcs'.length = s.pcs.length ∧
        (s.pcs[0]? = some .exited ↔ pcs'[0]? = some .exited) ∧ pcs'[k]? = some .cleared := by
      split at hn
      · obtain ⟨_, _, _, a, b, c, d, h⟩ := hn.spec
        exact ⟨a, b, c, d 0, h k hk⟩
      · subst hn; exact ⟨Nat.le_refl _, rfl, rfl, Iff.rfl, hk⟩
    obtain ⟨ns, ne, nl, n0, hk'⟩ := hnot
    obtain ⟨q1, q2, q3, q4⟩ := consumeTest_rest P { s with read := s.read + 1, pcs := pcs' } k
    rcases consumeTest_pcs P { s with read := s.read + 1, pcs := pcs' } k with hp | hp | hp
    · obtain ⟨a, b, c, d, e⟩ := counters_set .consuming hk'
      refine inv.congr (by rw [hp]; simpa using nl) (by rw [hp]; simp only [isExit] at e; simp only []; omega)
        (fun h _ => ?_) (by rw [q1]; exact Int.le_refl _) (by rw [hp]; exact awake_set hk' _ (by simp))
        (by rw [hp, n0]; exact set_ne_exited hk' (by simp) (by simp) 0) q2 q3
      have := (inv.exitSleep h).2
      rw [hp]; simp only [isSleep] at d; simp only []; omega
    · obtain ⟨a, b, c, d, e⟩ := counters_set .waiting hk'
      refine inv.congr (by rw [hp]; simpa using nl) (by rw [hp]; simp only [isExit] at e; simp only []; omega)
        (fun h _ => ?_) (by rw [q1]; exact Int.le_refl _) (by rw [hp]; exact awake_set hk' _ (by simp))
        (by rw [hp, n0]; exact set_ne_exited hk' (by simp) (by simp) 0) q2 q3
      have := (inv.exitSleep h).2
      rw [hp]; simp only [isSleep] at d; simp only []; omega
    · refine inv.congr (by rw [hp]; exact nl) (by rw [hp]; exact ne) (fun h _ => ?_)
        (by rw [q1]; exact Int.le_refl _) (by rw [hp]; exact awake hk' (by simp)) (by rw [hp, n0]) q2 q3
      have := (inv.exitSleep h).2
      rw [hp]; simp only []; omega
  | spuriousWake k hw hk =>
    obtain ⟨a, b, c, d, e⟩ := counters_set .waiting hk
    refine inv.congr (by simp) (by simp only [isExit] at e; simpa using e) (fun h _ => ?_)
      (Int.le_refl _) (awake_set hk _ (by simp)) (set_ne_exited hk (by simp) (by simp) 0) rfl rfl
    have := (inv.exitSleep h).2
    simp only [isSleep] at d; simp only []; omega
  | spuriousReturn hr hmain =>
    constructor <;> simp only []
    · exact inv.len
    · exact inv.exitSleep
    · exact inv.asleep
    · exact inv.count
    · intro h; cases h
    · intro h; cases h
    · intro h; rw [h] at hr; cases hr

/-! ## Measure -/

def PC.weight (n : Nat) : PC → Nat
  | .waiting => n + 2
  | .sleeping => n + 1
  | .producing _ => n + 4
  | .consuming => n + 3
  | .cleared => n + 2
  | .exited => 0

/-- Work left. -/
def State.work (P : Params α) (s : State α) : Nat :=
  4 * (P.last - s.write).toNat + 4 * (P.last - s.read).toNat + (s.pcs.map (PC.weight P.workers)).sum

theorem weight_wakeAll (n : Nat) (l : List PC) :
    ((wakeAll l).map (PC.weight n)).sum ≤ (l.map (PC.weight n)).sum + l.length := by
  induction l with
  | nil => simp [wakeAll]
  | cons x l ih =>
    simp only [wakeAll, List.map_cons, List.sum_cons, List.length_cons] at *
    have : PC.weight n (if x = .sleeping then .waiting else x) ≤ PC.weight n x + 1 := by
      cases x <;> simp [PC.weight]
    omega

theorem NotifyOne.weight {l l' : List PC} (h : NotifyOne l l') (n : Nat) :
    (l'.map (PC.weight n)).sum ≤ (l.map (PC.weight n)).sum + 1 := by
  cases h with
  | nobody h => omega
  | wake k hk =>
    have := sum_set (PC.weight n) l k _ .waiting hk
    simp only [PC.weight] at this
    omega

theorem Step.work_lt {P : Params α} {s s' : State α} (ri : RingInv P s) (ri' : RingInv P s') (li : LifeInv P false s)
    (st : Step P false false s s') : s'.work P < s.work P := by
  have h1 := ri.rw'; have h2 := ri.wl; have h3 := li.len
  cases st with
  | exit k hk hl =>
    have hk' : (wakeAll s.pcs)[k]? = some .waiting := by simp [wakeAll, hk]
    have e := sum_set (PC.weight P.workers) (wakeAll s.pcs) k _ .exited hk'
    have e2 := weight_wakeAll P.workers s.pcs
    simp only [State.work, exitState, PC.weight] at *; omega
  | sleep k hk h1 h2 =>
    have e := sum_set (PC.weight P.workers) s.pcs k _ .sleeping hk
    simp only [State.work, PC.weight] at *; omega
  | start k j hk h1 h2 h3 =>
    have e := sum_set (PC.weight P.workers) s.pcs k _ (.producing s.write) hk
    simp only [State.work, PC.weight] at *; omega
  | startCrash k hk h1 h2 h3 => exact absurd ri'.nocrash (by simp)
  | store k j i hk hj hn hne =>
    have e := sum_set (PC.weight P.workers) s.pcs k _ .waiting hk
    simp only [State.work, PC.weight] at *; omega
  | storeConsume k j i hk hj hn heq =>
    obtain ⟨q1, q2, q3, q4⟩ := consumeTest_rest P { s with ring := setRing s.ring j (some (P.produce i)) } k
    simp only [State.work, q1, q4]
    have e := sum_set (PC.weight P.workers) s.pcs k _ .waiting hk
    have e2 := sum_set (PC.weight P.workers) s.pcs k _ .consuming hk
    rcases consumeTest_pcs P { s with ring := setRing s.ring j (some (P.produce i)) } k with hp | hp | hp
    · rw [hp]; simp only [PC.weight] at *; omega
    · rw [hp]; simp only [PC.weight] at *; omega
    · exfalso
      have hnc := ri'.nocrash
      revert hp hnc
      unfold consumeTest
      split
      · split
        · intro hp
          have : (s.pcs.set k .consuming)[k]? = s.pcs[k]? := by simp only [] at hp; rw [hp]
          rw [List.getElem?_set_self', hk] at this; simp at this
        · intro hp
          have : (s.pcs.set k .waiting)[k]? = s.pcs[k]? := by simp only [] at hp; rw [hp]
          rw [List.getElem?_set_self', hk] at this; simp at this
      · intro _ h; simp at h
  | storeCrash k j i hk hj hne => exact absurd ri'.nocrash (by simp)
  | consume k j v hk hj hv =>
    have e := sum_set (PC.weight P.workers) s.pcs k _ .cleared hk
    simp only [State.work, PC.weight] at *; omega
  | advance k pcs' hk hn =>
    have hd : 0 < nClr s.pcs := by
      have := le_sum_of_getElem? isClr s.pcs k _ hk
      simp only [isClr] at this; exact this
    have hlt := (ri.clr (by have := ri.one; omega)).1
    have hw : (pcs'.map (PC.weight P.workers)).sum ≤ (s.pcs.map (PC.weight P.workers)).sum + 1 ∧
        pcs'[k]? = some .cleared := by
      split at hn
      · exact ⟨hn.weight _, hn.spec.2.2.2.2.2.2.2 k hk⟩
      · subst hn; exact ⟨by omega, hk⟩
    obtain ⟨q1, q2, q3, q4⟩ := consumeTest_rest P { s with read := s.read + 1, pcs := pcs' } k
    simp only [State.work, q1, q4]
    have e := sum_set (PC.weight P.workers) pcs' k _ .waiting hw.2
    have e2 := sum_set (PC.weight P.workers) pcs' k _ .consuming hw.2
    rcases consumeTest_pcs P { s with read := s.read + 1, pcs := pcs' } k with hp | hp | hp
    · rw [hp]; simp only [PC.weight] at *; omega
    · rw [hp]; simp only [PC.weight] at *; omega
    · rw [hp]; simp only [PC.weight] at *; omega
  | spuriousWake k hw hk => cases hw
  | spuriousReturn hr hmain => cases hr

/-- Deadlock freedom: as long as some worker has not exited, some worker can move. -/
theorem exists_step {P : Params α} {r : Bool} {s : State α} (hm : 0 < P.maxPending)
    (hf : -(P.maxPending : Int) ≤ P.first) (ri : RingInv P s) (li : LifeInv P r s) (hc : 0 < s.count) :
    ∃ s', Step P false false s s' := by
  have hok : ∀ i, P.first ≤ i → slot P i = .ok (sl P i) := fun i hi => slot_ok P hm i (by omega)
  have h1 := ri.r0; have h2 := ri.rw'; have h3 := ri.wl; have h4 := ri.full
  -- a worker that is neither asleep nor gone can move
  have mv : ∀ (k : Nat) (p : PC), s.pcs[k]? = some p → p ≠ .sleeping → p ≠ .exited → ∃ s', Step P false false s s' := by
    intro k p hk hs hx
    cases p with
    | waiting =>
      by_cases a : P.last ≤ s.write
      · exact ⟨_, .exit s k hk a⟩
      · by_cases b : s.write - s.read < P.maxPending
        · exact ⟨_, .start s k _ hk (by omega) b (hok _ (by omega))⟩
        · exact ⟨_, .sleep s k hk (by omega) b⟩
    | sleeping => exact absurd rfl hs
    | exited => exact absurd rfl hx
    | producing i =>
      obtain ⟨g1, g2, g3, g4⟩ := ri.producing_range hk
      by_cases a : i = s.consumerWait
      · exact ⟨_, .storeConsume s k _ i hk (hok _ (by omega)) g4 a⟩
      · exact ⟨_, .store s k _ i hk (hok _ (by omega)) g4 a⟩
    | consuming =>
      have : 0 < nCons s.pcs := by
        have := le_sum_of_getElem? isCons s.pcs k _ hk
        simp only [isCons] at this; exact this
      exact ⟨_, .consume s k _ _ hk (hok _ h1) (ri.cons (by have := ri.one; omega)).2⟩
    | cleared =>
      by_cases a : (P.maxPending : Int) ≤ s.write - s.read
      · by_cases b : ∃ j : Nat, s.pcs[j]? = some .sleeping
        · obtain ⟨j, hj⟩ := b
          exact ⟨_, .advance s k _ hk (by rw [if_pos a]; exact .wake _ j hj)⟩
        · have nb : ∀ p ∈ s.pcs, p ≠ PC.sleeping := by
            intro p hp e
            subst e
            obtain ⟨j, hj⟩ := List.getElem?_of_mem hp
            exact b ⟨j, hj⟩
          exact ⟨_, .advance s k s.pcs hk (by rw [if_pos a]; exact .nobody _ nb)⟩
      · exact ⟨_, .advance s k s.pcs hk (by rw [if_neg a])⟩
  by_cases hex : ∃ (k : Nat) (p : PC), s.pcs[k]? = some p ∧ p ≠ .sleeping ∧ p ≠ .exited
  · obtain ⟨k, p, a, b, c⟩ := hex
    exact mv k p a b c
  · exfalso
    have all : ∀ (k : Nat) (p : PC), s.pcs[k]? = some p → p = .sleeping ∨ p = .exited := by
      intro k p hk
      by_cases a : p = .sleeping
      · exact .inl a
      · by_cases b : p = .exited
        · exact .inr b
        · exact absurd ⟨k, p, hk, a, b⟩ hex
    have zero : ∀ f : PC → Nat, f .sleeping = 0 → f .exited = 0 → (s.pcs.map f).sum = 0 := by
      intro f a b
      apply sum_map_eq_zero
      intro x hx
      obtain ⟨j, hj⟩ := List.getElem?_of_mem hx
      rcases all j x hj with h | h <;> rw [h] <;> assumption
    have hc0 : nCons s.pcs = 0 := zero _ rfl rfl
    have hd0 : nClr s.pcs = 0 := zero _ rfl rfl
    have hp0 : ∀ i, nProd s.pcs i = 0 := fun i => zero _ rfl rfl
    have hrw : s.read = s.write := by
      by_cases g : s.read < s.write
      · rcases ri.win s.read (Int.le_refl _) g with q | q | q
        · have := hp0 s.read; omega
        · have := (ri.idle (by omega)).2; rw [q.2] at this; cases this
        · omega
      · omega
    -- somebody sleeps, so nobody exited, so everybody sleeps
    have hcnt := li.count
    have hlen := li.len
    have sum2 : ∀ l : List PC, (∀ p ∈ l, p = .sleeping ∨ p = .exited) → nSleep l + nExit l = l.length := by
      intro l
      induction l with
      | nil => intro _; rfl
      | cons x l ih =>
        intro h
        have := ih fun p hp => h p (List.mem_cons_of_mem _ hp)
        rcases h x (List.mem_cons_self ..) with e | e <;> subst e <;>
          simp only [nSleep, nExit, List.map_cons, List.sum_cons, List.length_cons, isSleep, isExit] at * <;> omega
    have h5 := sum2 s.pcs (fun p hp => by
      obtain ⟨j, hj⟩ := List.getElem?_of_mem hp; exact all j p hj)
    have h6 : nExit s.pcs = 0 := by
      by_cases g : 0 < nExit s.pcs
      · have := (li.exitSleep g).2; omega
      · omega
    have := li.asleep (by omega)
    omega

end Verif.ThreadPool.Ordered
