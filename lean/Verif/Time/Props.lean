import Verif.Time.InvLemmas
import Mathlib.Algebra.BigOperators.Group.List.Basic

/-! # C40 and C56: the time estimate -/

namespace Verif.Time

/-- The calls on the calculator. -/
inductive Op where
  | plan (pos : Axes) (feedrate : ℝ) (feature : Fin 15)
  | addTime (t : ℝ)
  | setPosition (pos : Axes)
  | setAcceleration (acc : ℝ)
  | setMaxXyJerk (jerk : ℝ)
  | setFirmwareDefaults (settings : Calc)
  | reset

/-- The effect of a call. -/
noncomputable def apply (c : Calc) : Op → Calc
  | .plan pos feedrate feature => plan c pos feedrate feature
  | .addTime t => addTime c t
  | .setPosition pos => setPosition c pos
  | .setAcceleration acc => setAcceleration c acc
  | .setMaxXyJerk jerk => setMaxXyJerk c jerk
  | .setFirmwareDefaults settings => setFirmwareDefaults c settings
  | .reset => reset c

/-- Calls with sensible arguments: the accelerations are positive, the jerks not negative, and no move is slower than the
least speed of the planner, 0.05 mm/s. The limits of the axes may lower the speed of a move, so they must be
at least 0.05 mm/s, too, and no move may extrude so much more than it moves that the limit of the feeder makes it slower. -/
def Allowed (c : Calc) : Op → Prop
  | .plan pos feedrate _ => pos = c.pos ∨ Move c pos feedrate
  | .setAcceleration acc => 0 < acc
  | .setMaxXyJerk jerk => 0 ≤ jerk
  | .setFirmwareDefaults settings => Config settings
  | _ => True

/-- The states of a calculator that starts with sensible settings, after any sequence of such calls. -/
inductive Reach : Calc → Prop
  | init {c : Calc} : Config c → c.blocks = [] → c.extra = 0 → Reach c
  | step {c : Calc} (op : Op) : Reach c → Allowed c op → Reach (apply c op)

theorem Reach.inv {c : Calc} (h : Reach c) : Inv c := by
  induction h with
  | init h1 h2 h3 =>
    refine ⟨h1, by simp [h2], by simp [h2, Steps], by simp [h2], h3.ge⟩
  | @step c op _ ha ih =>
    obtain ⟨i1, i2, i3, i4, i5⟩ := ih
    cases op with
    | plan pos feedrate feature =>
      refine Inv.plan ⟨i1, i2, i3, i4, i5⟩ feature (Or.imp_left ?_ ha)
      rintro rfl
      exact travel_le (le_refl _) fun n => by simp [deltaTo]
    | addTime t => exact ⟨⟨i1.1, i1.2, i1.3, i1.4, i1.5, i1.6⟩, i2, i3, i4, add_nonneg i5 (le_max_left _ _)⟩
    | setPosition pos => exact ⟨⟨i1.1, i1.2, i1.3, i1.4, i1.5, i1.6⟩, i2, i3, i4, i5⟩
    | setAcceleration acc => exact ⟨⟨i1.1, i1.2, ha, i1.4, i1.5, i1.6⟩, i2, i3, i4, i5⟩
    | setMaxXyJerk jerk => exact ⟨⟨i1.1, i1.2, i1.3, ha, i1.5, i1.6⟩, i2, i3, i4, i5⟩
    | setFirmwareDefaults s => exact ⟨⟨ha.1, ha.2, ha.3, ha.4, ha.5, ha.6⟩, i2, i3, i4, i5⟩
    | reset => exact ⟨⟨i1.1, i1.2, i1.3, i1.4, i1.5, i1.6⟩, by simp [apply, reset], trivial, by simp [apply, reset], le_refl _⟩

theorem Reach.planned {c : Calc} (h : Reach c) {pre post : List Block} {b : Block}
    (hb : planned c.blocks = pre ++ b :: post) : Planned b (exit post) :=
  (chained_iff _).1 (planned_spec h.inv.blocks h.inv.steps).1 pre b post hb

/-- **C40.** There is one planned block for each move, with its feature, length, speed, acceleration and greatest
speed at its start. -/
theorem C40_moves {c : Calc} (h : Reach c) :
    List.Forall₂ (fun b b' => b'.feature = b.feature ∧ b'.distance = b.distance ∧ b'.nominal = b.nominal ∧
      b'.acc = b.acc ∧ b'.maxEntry = b.maxEntry) c.blocks (planned c.blocks) :=
  (planned_spec h.inv.blocks h.inv.steps).2.2

/-- **C40.** The phases of a planned block do not overlap and cover its length: it accelerates from 0 to `accUntil`, decelerates
from `decAfter` to its end, and in between it keeps its speed. -/
theorem C40_phases {c : Calc} (h : Reach c) {b : Block} (hb : b ∈ planned c.blocks) :
    0 < b.distance ∧ 0 ≤ b.accUntil ∧ b.accUntil ≤ b.decAfter ∧ b.decAfter ≤ b.distance := by
  obtain ⟨pre, post, hb⟩ := List.append_of_mem hb
  have := h.planned hb
  exact ⟨this.d, this.acc0, this.mid, this.dec⟩

/-- **C40.** Speeds at the ends of a block: it starts with its entry speed, and ends with that of the next block (the last
one with the least speed of the planner); none of them is above the speed of the block, and the entry speed not
above the greatest speed of the junction. -/
theorem C40_entry {c : Calc} (h : Reach c) {pre post : List Block} {b : Block}
    (hb : planned c.blocks = pre ++ b :: post) :
    b.initial = b.entry ∧ b.final = (match post with | [] => 1 / 20 | n :: _ => n.initial) ∧
    0 ≤ b.initial ∧ b.initial ≤ b.maxEntry ∧ b.maxEntry ≤ b.nominal ∧ 0 ≤ b.final ∧ b.final ≤ b.nominal := by
  have p := h.planned hb
  refine ⟨p.initial, ?_, by rw [p.initial]; exact p.entry0, by rw [p.initial]; exact p.entry, p.m,
    by rw [p.final]; exact p.v0, by rw [p.final]; exact p.vn⟩
  rw [p.final]
  cases post with
  | nil => rfl
  | cons n later =>
    have q := h.planned (pre := pre ++ [b]) (b := n) (post := later) (by rw [hb]; simp)
    exact q.initial.symm

theorem brake_sum : ∀ {l : List Block}, Chained Planned l →
    exit l ^ 2 ≤ minSpeed ^ 2 + (l.map fun x => 2 * x.acc * x.distance).sum
  | [], _ => by simp [exit]
  | b :: rest, h => by
    have ih := brake_sum h.2
    have hb := h.1.brake
    unfold CanBrake at hb
    have hpos : 0 ≤ (rest.map fun x => 2 * x.acc * x.distance).sum := by
      have : ∀ {l : List Block}, Chained Planned l → 0 ≤ (l.map fun x => 2 * x.acc * x.distance).sum := by
        intro l
        induction l with
        | nil => simp
        | cons x l ih =>
          intro h
          rw [List.map_cons, List.sum_cons]
          have := mul_pos h.1.a h.1.d
          have := ih h.2
          linarith
      exact this h.2
    rw [List.map_cons, List.sum_cons]
    show b.entry ^ 2 ≤ _
    rcases max_choice (exit rest) minSpeed with hm | hm
    · rw [hm] at hb; linarith
    · rw [hm] at hb; linarith

theorem chained_suffix {P : Block → ℝ → Prop} : ∀ {pre post : List Block}, Chained P (pre ++ post) → Chained P post
  | [], _, h => h
  | _ :: _, _, h => chained_suffix (h.2)

/-- **C40.** No block is entered faster than what the remaining blocks allow to slow down from, to the least speed of the
planner at the end of the last one: with acceleration `a` over a length `d` the square of the speed changes by
`2 a d`. The same for the single block and the speed after it, if that is not below the least speed. -/
theorem C40_brake {c : Calc} (h : Reach c) {pre post : List Block} {b : Block}
    (hb : planned c.blocks = pre ++ b :: post) :
    b.initial ^ 2 ≤ (1 / 20) ^ 2 + ((b :: post).map fun x => 2 * x.acc * x.distance).sum ∧
    b.initial ^ 2 ≤ max b.final (1 / 20) ^ 2 + 2 * b.acc * b.distance := by
  have p := h.planned hb
  constructor
  · rw [p.initial]
    exact brake_sum (l := b :: post)
      (chained_suffix (pre := pre) (by rw [← hb]; exact (planned_spec h.inv.blocks h.inv.steps).1))
  · have := p.brake
    unfold CanBrake at this
    rw [p.initial, p.final]; exact this

/-- **C40.** No block is left faster than its length allows to accelerate to from its entry speed (or the least speed of the
planner). -/
theorem C40_speed_up {c : Calc} (h : Reach c) {b : Block} (hb : b ∈ planned c.blocks) :
    b.final ^ 2 ≤ max b.initial (1 / 20) ^ 2 + 2 * b.acc * b.distance := by
  obtain ⟨pre, post, hb⟩ := List.append_of_mem hb
  have p := h.planned hb
  have := p.speedUp
  unfold CanSpeedUp at this
  rw [p.initial, p.final]; exact this

/-- **C40.** The times of the three phases are those of the movement: `v t + a t² / 2` is the length of the first
and of the last phase (seen from its end), and the middle one is done at the speed of the block. -/
theorem C40_times {c : Calc} (h : Reach c) {b : Block} (hb : b ∈ planned c.blocks) :
    ∃ t₁ t₂ t₃ : ℝ, time b = t₁ + t₂ + t₃ ∧ 0 ≤ t₁ ∧ 0 ≤ t₂ ∧ 0 ≤ t₃ ∧
      b.initial * t₁ + b.acc * t₁ ^ 2 / 2 = b.accUntil ∧ b.nominal * t₂ = b.decAfter - b.accUntil ∧
      b.final * t₃ + b.acc * t₃ ^ 2 / 2 = b.distance - b.decAfter ∧
      b.initial + b.acc * t₁ ≤ b.nominal ∧ b.final + b.acc * t₃ ≤ b.nominal := by
  obtain ⟨pre, post, hb⟩ := List.append_of_mem hb
  have p := h.planned hb
  obtain ⟨p0, p1, p2, p3⟩ := p.phases
  obtain ⟨q1, q2, q3⟩ := accTime_spec (v := b.initial) p.acc0 p.a
  obtain ⟨r1, r2, r3⟩ := accTime_spec (v := b.final) (x := b.distance - b.decAfter) (by have := p.dec; linarith) p.a
  refine ⟨_, _, _, p0, p1, p2, p3, q2, ?_, r2, ?_, ?_⟩
  · show b.nominal * ((b.decAfter - b.accUntil) / b.nominal) = _
    have := p.n.ne'
    field_simp
  · apply le_of_sq_le p.n.le
    show (b.initial + b.acc * accTime b.initial b.accUntil b.acc) ^ 2 ≤ _
    rw [q3]; exact p.peak₁
  · apply le_of_sq_le p.n.le
    show (b.final + b.acc * accTime b.final (b.distance - b.decAfter) b.acc) ^ 2 ≤ _
    rw [r3]; exact p.peak₂

/-- **C40.** A block that starts and ends with at least the least speed of the planner takes exactly the time of the run that
accelerates to the speed of the block, or as far as its length allows, keeps it, and decelerates to the speed at
its end. There is only one such run (`C40_unique`). -/
theorem C40_motion {c : Calc} (h : Reach c) {b : Block} (hb : b ∈ planned c.blocks)
    (h1 : 1 / 20 ≤ b.initial) (h2 : 1 / 20 ≤ b.final) :
    Motion b.initial b.final b.acc b.distance b.nominal (time b) := by
  obtain ⟨pre, post, hb⟩ := List.append_of_mem hb
  have p := h.planned hb
  rw [p.initial] at h1 ⊢
  rw [p.final] at h2 ⊢
  exact p.motion h1 h2

/-- **C40.** If every junction may be passed with the least speed of the planner, then all blocks are such. -/
theorem C40_junctions {c : Calc} (h : Reach c) (hm : ∀ b ∈ c.blocks, 1 / 20 ≤ b.maxEntry) :
    ∀ b ∈ planned c.blocks, 1 / 20 ≤ b.initial ∧ 1 / 20 ≤ b.final := by
  have hall := (planned_spec h.inv.blocks h.inv.steps).2.1 hm
  intro b hb
  have hb' := hb
  obtain ⟨pre, post, hb⟩ := List.append_of_mem hb
  have p := h.planned hb
  rw [p.initial, p.final]
  refine ⟨hall b hb', ?_⟩
  cases post with
  | nil => exact le_refl _
  | cons n later => exact hall n (by rw [hb]; simp)

theorem C40_unique {start stop acc length top t t' : ℝ} (ha : 0 < acc) (hs : 0 ≤ start) (ht : 0 < top)
    (h : Motion start stop acc length top t) (h' : Motion start stop acc length top t') : t = t' :=
  h.unique ha hs ht h'

/-- **C40.** No block takes less time than it would at its full speed. -/
theorem C40_full_speed {c : Calc} (h : Reach c) {b : Block} (hb : b ∈ planned c.blocks) :
    b.distance ≤ b.nominal * time b := by
  obtain ⟨pre, post, hb⟩ := List.append_of_mem hb
  exact (h.planned hb).slow

theorem foldl_addBlock : ∀ (l : List Block) (t : Fin 15 → ℝ) (f : Fin 15),
    l.foldl addBlock t f = t f + ((l.filter fun b => b.feature = f).map time).sum
  | [], t, f => by simp
  | b :: l, t, f => by
    rw [List.foldl_cons, foldl_addBlock l]
    unfold addBlock
    by_cases h : b.feature = f
    · subst h
      rw [Function.update_self, List.filter_cons_of_pos (by simp), List.map_cons, List.sum_cons]
      unfold time
      ring
    · rw [Function.update_of_ne (Ne.symm h), List.filter_cons_of_neg (by simpa using h)]

/-- **C40.** The estimate of a feature is the sum of the times of its blocks; feature 0 (none) also counts the time that
was added (waiting, scripts). None of it is negative. -/
theorem C40_total {c : Calc} (h : Reach c) (f : Fin 15) :
    calculate c f = (if f = 0 then c.extra else 0) +
      (((planned c.blocks).filter fun b => b.feature = f).map time).sum ∧
    0 ≤ calculate c f ∧ ∀ b ∈ planned c.blocks, 0 < time b := by
  have e : calculate c f = (if f = 0 then c.extra else 0) +
      (((planned c.blocks).filter fun b => b.feature = f).map time).sum := by
    unfold calculate
    rw [foldl_addBlock]
    by_cases hf : f = 0
    · subst hf; simp
    · rw [Function.update_of_ne hf, if_neg hf]
  have ht : ∀ b, 0 ≤ time b := fun b =>
    add_nonneg (add_nonneg (duration_nonneg _) (duration_nonneg _)) (duration_nonneg _)
  refine ⟨e, ?_, ?_⟩
  · rw [e]
    have h1 : 0 ≤ (if f = 0 then c.extra else 0) := by
      split_ifs
      · exact h.inv.extra
      · exact le_refl _
    have h2 : ∀ l : List Block, 0 ≤ (l.map time).sum := by
      intro l
      induction l with
      | nil => simp
      | cons b l ih => rw [List.map_cons, List.sum_cons]; exact add_nonneg (ht b) ih
    exact add_nonneg h1 (h2 _)
  · intro b hb
    have h1 := C40_full_speed h hb
    have h2 := (C40_phases h hb).1
    rcases lt_or_eq_of_le (ht b) with h3 | h3
    · exact h3
    · rw [← h3, mul_zero] at h1; linarith

/-- **C40.** Added time counts for the feature `none` only. -/
theorem C40_add_time (c : Calc) (t : ℝ) (f : Fin 15) :
    calculate (addTime c t) f = calculate c f + if f = 0 then max 0 t else 0 := by
  unfold calculate addTime
  rw [foldl_addBlock, foldl_addBlock]
  by_cases hf : f = 0
  · subst hf; simp; ring
  · rw [Function.update_of_ne hf, Function.update_of_ne hf, if_neg hf]; ring

/-! ## What `plan` makes of a move -/

/-- **C56.** The block of a move: its length, its speed and how the speed is limited. The speed is the wanted one (or the least
feed rate of the machine) unless an axis would be too fast; then it is the greatest for which none is. -/
theorem C56_speed {c : Calc} (h : Reach c) {pos : Axes} {feedrate : ℝ} (feature : Fin 15) (hm : Move c pos feedrate)
    (hne : pos ≠ c.pos) :
    ∃ b, (plan c pos feedrate feature).blocks = c.blocks ++ [b] ∧ (plan c pos feedrate feature).pos = pos ∧
      b.feature = feature ∧
      ((∃ n : Fin 4, n ≠ 3 ∧ pos n ≠ c.pos n) →
        b.distance = Real.sqrt ((pos 0 - c.pos 0) ^ 2 + (pos 1 - c.pos 1) ^ 2 + (pos 2 - c.pos 2) ^ 2)) ∧
      ((∀ n : Fin 4, n ≠ 3 → pos n = c.pos n) → b.distance = |pos 3 - c.pos 3|) ∧
      b.nominal ≤ max c.minFeed feedrate ∧
      (∀ n, |pos n - c.pos n| / b.distance * b.nominal ≤ c.maxFeed n) ∧
      (b.nominal = max c.minFeed feedrate ∨ ∃ n, |pos n - c.pos n| / b.distance * b.nominal = c.maxFeed n) := by
  have hc := h.inv.config
  have ht : ¬ travel (deltaTo c pos) ≤ 0 := by
    intro ht
    apply hne
    funext n
    have hle : |deltaTo c pos n| ≤ travel (deltaTo c pos) := by
      unfold travel
      simp only [List.foldl_cons, List.foldl_nil]
      fin_cases n <;> simp
    have : deltaTo c pos n = 0 := abs_eq_zero.1 (le_antisymm (hle.trans ht) (abs_nonneg _))
    unfold deltaTo at this
    linarith
  have hd := distance_pos ht
  obtain ⟨s, f, b1, b2, b3, b4, b5⟩ := newBlock_spec hc (feature := feature) hm ht
  have hf : ∀ n, 0 < c.maxFeed n := fun n => minSpeed_pos.trans_le (hc.feed n)
  obtain ⟨n1, n2, n3, n4⟩ := nominal_spec hf (minSpeed_pos.le.trans hm.feed) hd
  refine ⟨newBlock c (deltaTo c pos) feedrate feature, ?_, ?_, b1, ?_, ?_, ?_, ?_, ?_⟩
  · unfold plan; rw [if_neg ht]
  · unfold plan; rw [if_neg ht]
  · rintro ⟨n, hn, hx⟩
    rw [b2]
    unfold distance deltaTo
    dsimp only
    simp only [sq_abs]
    rw [if_neg]
    intro h0
    have h1 := sq_nonneg (pos 0 - c.pos 0)
    have h2 := sq_nonneg (pos 1 - c.pos 1)
    have h3 := sq_nonneg (pos 2 - c.pos 2)
    rw [Real.sqrt_eq_zero (by linarith)] at h0
    apply hx
    have : (pos n - c.pos n) ^ 2 = 0 := by
      fin_cases n
      · show (pos 0 - c.pos 0) ^ 2 = 0; linarith
      · show (pos 1 - c.pos 1) ^ 2 = 0; linarith
      · show (pos 2 - c.pos 2) ^ 2 = 0; linarith
      · exact absurd rfl hn
    have := pow_eq_zero_iff (two_ne_zero) |>.1 this
    linarith
  · intro hx
    rw [b2]
    unfold distance deltaTo
    rw [hx 0 (by decide), hx 1 (by decide), hx 2 (by decide)]
    simp
  · rw [b3]; exact n2
  · intro n; rw [b2, b3]; exact n3 n
  · rw [b2, b3]; exact n4

theorem acc_fold (maxAcc ratio : Axes) (hr : ∀ n, ratio n ≤ 1) (hr0 : ∀ n, 0 ≤ ratio n) (hm : ∀ n, 0 < maxAcc n) :
    ∀ (l : List (Fin 4)) (a : ℝ), 0 < a →
    let r := l.foldl (fun a n => if a * ratio n > maxAcc n then maxAcc n else a) a
    r ≤ a ∧ ∀ n ∈ l, r * ratio n ≤ maxAcc n
  | [], a, _ => by simp
  | k :: l, a, ha => by
    rw [List.foldl_cons]
    by_cases h : a * ratio k > maxAcc k
    · rw [if_pos h]
      obtain ⟨i1, i2⟩ := acc_fold maxAcc ratio hr hr0 hm l _ (hm k)
      dsimp only at i1 i2 ⊢
      have hle : maxAcc k ≤ a := h.le.trans (mul_le_of_le_one_right ha.le (hr k))
      refine ⟨i1.trans hle, ?_⟩
      intro n hn
      rcases List.mem_cons.1 hn with rfl | hn
      · exact (mul_le_mul_of_nonneg_right i1 (hr0 n)).trans (mul_le_of_le_one_right (hm n).le (hr n))
      · exact i2 n hn
    · rw [if_neg h]
      obtain ⟨i1, i2⟩ := acc_fold maxAcc ratio hr hr0 hm l _ ha
      dsimp only at i1 i2 ⊢
      refine ⟨i1, ?_⟩
      intro n hn
      rcases List.mem_cons.1 hn with rfl | hn
      · exact (mul_le_mul_of_nonneg_right i1 (hr0 n)).trans (not_lt.1 h)
      · exact i2 n hn

/-- **C56**, for moves that do not extrude more than they move: the acceleration is not above the wanted one, and on no axis
above its limit. Missing: moves that extrude more, see the counterexample. -/
theorem C56_acceleration_partial {c : Calc} (h : Reach c) {pos : Axes} {feedrate : ℝ} (feature : Fin 15)
    (hm : Move c pos feedrate) (ht : ¬ travel (deltaTo c pos) ≤ 0)
    (he : |pos 3 - c.pos 3| ≤ distance (deltaTo c pos)) :
    0 < (newBlock c (deltaTo c pos) feedrate feature).acc ∧
    (newBlock c (deltaTo c pos) feedrate feature).acc ≤ c.acc ∧
    ∀ n, (newBlock c (deltaTo c pos) feedrate feature).acc * (|pos n - c.pos n| / distance (deltaTo c pos)) ≤ c.maxAcc n := by
  have hc := h.inv.config
  have hd := distance_pos ht
  obtain ⟨s, f, b1, b2, b3, b4, b5⟩ := newBlock_spec hc (feature := feature) hm ht
  rw [b4]
  refine ⟨blockAcc_pos hc _ _, ?_⟩
  obtain ⟨i1, i2⟩ := acc_fold c.maxAcc (fun n => |deltaTo c pos n| / distance (deltaTo c pos))
    (by
      intro n
      rw [div_le_one hd]
      by_cases hn : n = 3
      · subst hn; exact he
      · exact axis_le_distance _ n hn)
    (fun n => div_nonneg (abs_nonneg _) hd.le) hc.maxAcc [0, 1, 2, 3] c.acc hc.acc
  refine ⟨i1, fun n => i2 n ?_⟩
  fin_cases n <;> simp

/-- **C56.** At a junction the greatest speed keeps the change of the speed of the axes below the jerk: entering at a share of
the speed of the block scales the change by this share. The first block starts with at most half a jerk. -/
theorem C56_junction {c : Calc} (h : Reach c) {pos : Axes} {feedrate : ℝ} (feature : Fin 15)
    (hm : Move c pos feedrate) (ht : ¬ travel (deltaTo c pos) ≤ 0) :
    let b := newBlock c (deltaTo c pos) feedrate feature
    let v : Axes := fun n => (pos n - c.pos n) / b.distance * b.nominal
    (c.blocks ≠ [] → b.maxEntry ≤ c.prevNominal ∧
      b.maxEntry / b.nominal * Real.sqrt ((v 0 - c.prevFeed 0) ^ 2 + (v 1 - c.prevFeed 1) ^ 2) ≤ c.xyJerk ∧
      b.maxEntry / b.nominal * |v 2 - c.prevFeed 2| ≤ c.zJerk ∧
      b.maxEntry / b.nominal * |v 3 - c.prevFeed 3| ≤ c.eJerk) ∧
    (c.blocks = [] → b.maxEntry ≤ c.xyJerk / 2 ∧ (c.zJerk / 2 < |v 2| → b.maxEntry ≤ c.zJerk / 2) ∧
      (c.eJerk / 2 < |v 3| → b.maxEntry ≤ c.eJerk / 2)) ∧
    (plan c pos feedrate feature).prevNominal = b.nominal ∧ (plan c pos feedrate feature).prevFeed = v := by
  have hc := h.inv.config
  have hd := distance_pos ht
  obtain ⟨s, f, b1, b2, b3, b4, b5⟩ := newBlock_spec hc (feature := feature) hm ht
  intro b v
  have hv : v = blockFeed c (deltaTo c pos) feedrate := by
    funext n
    rw [blockFeed_eq]
    show (pos n - c.pos n) / b.distance * b.nominal = _
    rw [show b.distance = _ from b2, show b.nominal = _ from b3]
    rfl
  have hN : 0 < b.nominal := minSpeed_pos.trans_le s.slow
  have hplan : (plan c pos feedrate feature).prevNominal = b.nominal ∧ (plan c pos feedrate feature).prevFeed = v := by
    rw [hv, show b.nominal = _ from b3]
    unfold plan
    rw [if_neg ht]
    exact ⟨rfl, rfl⟩
  have hme : b.maxEntry = maxEntry c v b.nominal := by rw [hv, show b.nominal = _ from b3]; exact b5
  clear_value b v
  refine ⟨?_, ?_, hplan⟩
  · intro hne
    obtain ⟨x, hx⟩ : ∃ x, c.blocks.getLast? = some x := by
      cases hl : c.blocks.getLast? with
      | none => exact absurd (List.getLast?_eq_none_iff.1 hl) hne
      | some x => exact ⟨x, rfl⟩
    have hp : c.prevNominal > 1 / 10000 := by
      rw [← h.inv.last x hx]
      have := (h.inv.blocks x (List.mem_of_getLast? hx)).1.slow
      unfold minSpeed at this
      linarith
    unfold maxEntry at hme
    rw [if_pos ⟨hne, hp⟩] at hme
    have hle : b.maxEntry / b.nominal ≤ junctionFactor c v := by
      rw [div_le_iff₀ hN, hme, mul_comm]
      exact min_le_right _ _
    refine ⟨by rw [hme]; exact min_le_left _ _, ?_⟩
    have j1 := hc.xy
    have j2 := hc.z
    have j3 := hc.e
    have j4 := junctionFactor_spec hc v
    have hxy := Real.sqrt_nonneg ((v 0 - c.prevFeed 0) ^ 2 + (v 1 - c.prevFeed 1) ^ 2)
    have hz := abs_nonneg (v 2 - c.prevFeed 2)
    have he := abs_nonneg (v 3 - c.prevFeed 3)
    suffices hs : junctionFactor c v * Real.sqrt ((v 0 - c.prevFeed 0) ^ 2 + (v 1 - c.prevFeed 1) ^ 2) ≤ c.xyJerk ∧
        junctionFactor c v * |v 2 - c.prevFeed 2| ≤ c.zJerk ∧ junctionFactor c v * |v 3 - c.prevFeed 3| ≤ c.eJerk from
      ⟨(mul_le_mul_of_nonneg_right hle hxy).trans hs.1, (mul_le_mul_of_nonneg_right hle hz).trans hs.2.1,
        (mul_le_mul_of_nonneg_right hle he).trans hs.2.2⟩
    unfold junctionFactor
    dsimp only
    generalize Real.sqrt ((v 0 - c.prevFeed 0) ^ 2 + (v 1 - c.prevFeed 1) ^ 2) = xy at *
    generalize |v 2 - c.prevFeed 2| = z at *
    generalize |v 3 - c.prevFeed 3| = e at *
    have key : ∀ {f k x : ℝ}, 0 ≤ k → 0 ≤ x → f ≤ 1 → (x > k → f ≤ k / x) → f * x ≤ k := by
      intro f k x hk hx h1 h2
      by_cases hxk : x > k
      · have hx0 : 0 < x := hk.trans_lt hxk
        exact (le_div_iff₀ hx0).1 (h2 hxk)
      · exact (mul_le_of_le_one_left hx h1).trans (not_lt.1 hxk)
    have f1 : ∀ {k x : ℝ}, 0 ≤ k → (if x > k then k / x else 1) ≤ 1 := by
      intro k x hk
      split_ifs with hx
      · exact (div_le_one (hk.trans_lt hx)).2 hx.le
      · exact le_refl _
    have f2 : ∀ {f k x : ℝ}, (if x > k then min f (k / x) else f) ≤ f := by
      intro f k x; split_ifs
      · exact min_le_left _ _
      · exact le_refl _
    refine ⟨key j1 hxy ?_ ?_, key j2 hz ?_ ?_, key j3 he ?_ ?_⟩
    · exact f2.trans (f2.trans (f1 j1))
    · intro hx; refine f2.trans (f2.trans ?_); rw [if_pos hx]
    · exact f2.trans (f2.trans (f1 j1))
    · intro hx; refine f2.trans ?_; rw [if_pos hx]; exact min_le_right _ _
    · exact f2.trans (f2.trans (f1 j1))
    · intro hx; rw [if_pos hx]; exact min_le_right _ _
  · intro hne
    unfold maxEntry at hme
    rw [if_neg (fun hx => hx.1 hne)] at hme
    rw [hme]
    unfold safeSpeed
    dsimp only
    have f2 : ∀ {f k x : ℝ}, (if x > k then min f k else f) ≤ f := by
      intro f k x; split_ifs
      · exact min_le_left _ _
      · exact le_refl _
    refine ⟨(min_le_left _ _).trans (f2.trans f2), ?_, ?_⟩
    · intro hx
      refine (min_le_left _ _).trans (f2.trans ?_)
      rw [if_pos hx]; exact min_le_right _ _
    · intro hx
      refine (min_le_left _ _).trans ?_
      rw [if_pos hx]; exact min_le_right _ _

end Verif.Time
