import Verif.Heat.Model
import Mathlib.Tactic.Linarith
import Mathlib.Tactic.Ring
import Mathlib.Data.List.Pairwise
import Mathlib.Algebra.BigOperators.Group.List.Basic
import Mathlib.Algebra.Order.BigOperators.Group.List

/-! # C26 and C54: where temperature commands are put and when they are written -/

namespace Verif.Heat

theorem duration_eq {x : ℚ} (h : 0 ≤ x) : duration x = x := by
  unfold duration
  split_ifs with hx
  · rfl
  · exact le_antisymm h (not_lt.1 hx)

/-! ## C26: the place of a command -/

theorem placeFrom_short (t : ℚ) : ∀ (xs : List ℚ) (acc : ℚ), (∀ x ∈ xs, 0 ≤ x) → acc + xs.sum < t →
    placeFrom t xs acc = (0, 0)
  | [], _, _, _ => rfl
  | x :: xs, acc, h0, h => by
    rw [List.sum_cons] at h
    have hx := h0 x (by simp)
    have hs : 0 ≤ xs.sum := List.sum_nonneg fun y hy => h0 y (by simp [hy])
    unfold placeFrom
    rw [if_neg (by linarith)]
    exact placeFrom_short t xs _ (fun y hy => h0 y (by simp [hy])) (by linarith)

theorem placeFrom_found (t : ℚ) : ∀ (xs : List ℚ) (acc : ℚ), t ≤ acc + xs.sum → xs ≠ [] →
    ∃ later x earlier, xs = later ++ x :: earlier ∧ (later = [] ∨ acc + later.sum < t) ∧
      t ≤ acc + later.sum + x ∧ placeFrom t xs acc = (earlier.length, acc + later.sum + x - t)
  | [], _, _, h => absurd rfl h
  | x :: xs, acc, h, _ => by
    unfold placeFrom
    by_cases hx : t ≤ acc + x
    · rw [if_pos hx]
      refine ⟨[], x, xs, rfl, Or.inl rfl, by simpa using hx, ?_⟩
      rw [duration_eq (by linarith)]
      simp
    · rw [if_neg hx]
      push Not at hx
      rw [List.sum_cons] at h
      have hne : xs ≠ [] := by rintro rfl; simp at h; linarith
      obtain ⟨later, y, earlier, e, hl, hy, hp⟩ := placeFrom_found t xs (acc + x) (by linarith) hne
      refine ⟨x :: later, y, earlier, by rw [e]; rfl, Or.inr ?_, ?_, ?_⟩
      · rw [List.sum_cons]
        rcases hl with rfl | hl
        · simpa using hx
        · linarith
      · rw [List.sum_cons]; linarith
      · rw [hp, List.sum_cons]
        congr 1
        ring

/-- **C26.** A command to be given `t` before the end of paths that last at least that long is put into the path in
which that moment falls, and the printing time that remains after the place of the command is exactly `t`. -/
theorem C26_place (times : List ℚ) (t : ℚ) (ht : 0 ≤ t) (hs : t ≤ times.sum) (hne : times ≠ []) :
    ∃ before x after, times = before ++ x :: after ∧ (place times t).1 = before.length ∧
      0 ≤ (place times t).2 ∧ (x - (place times t).2) + after.sum = t ∧
      (after = [] ∨ after.sum < t) ∧ (0 < t ∨ (∀ y ∈ times, 0 ≤ y) → (place times t).2 ≤ x) := by
  obtain ⟨later, x, earlier, e, hl, hx, hp⟩ := placeFrom_found t times.reverse 0
    (by rw [List.sum_reverse]; simpa using hs) (by simpa using hne)
  have e' : times = earlier.reverse ++ x :: later.reverse := by
    rw [← List.reverse_reverse times, e]
    simp
  have hpl : place times t = (earlier.length, 0 + later.sum + x - t) := by
    unfold place; rw [duration_eq ht, hp]
  refine ⟨earlier.reverse, x, later.reverse, e', by rw [hpl]; simp, ?_, ?_, ?_, ?_⟩
  · rw [hpl]; dsimp only; linarith
  · rw [hpl, List.sum_reverse]; dsimp only; ring
  · rcases hl with rfl | hl
    · left; rfl
    · right; rw [List.sum_reverse]; linarith
  · intro h
    rw [hpl]
    dsimp only
    rcases hl with rfl | hl
    · simp only [List.sum_nil]; linarith
    · linarith

/-- **C26.** If the plan is shorter, the command is put at its very start. -/
theorem C26_short (times : List ℚ) (t : ℚ) (h0 : ∀ x ∈ times, 0 ≤ x) (hs : times.sum < t) :
    place times t = (0, 0) := by
  have : 0 ≤ times.sum := List.sum_nonneg h0
  unfold place
  rw [duration_eq (by linarith)]
  exact placeFrom_short t _ 0 (by simpa using h0) (by rw [List.sum_reverse]; linarith)

/-- **C26.** Inserting the command changes nothing else: it is appended to the commands of the plan. -/
theorem C26_insert (p : EPlan) (t : ℚ) (ext : Nat) (temp : ℚ) :
    (p.insertPreheat t ext temp).inserts = p.inserts ++
      [⟨(place (p.paths.map PathT.time) t).1, ext, temp, (place (p.paths.map PathT.time) t).2, p.nextId⟩] ∧
    (p.insertPreheat t ext temp).paths = p.paths ∧ (p.insertPreheat t ext temp).ext = p.ext := ⟨rfl, rfl, rfl⟩

/-- Three paths of 4, 5 and 6 seconds: 8 seconds before the end is 3 seconds after the start of the second path. -/
example : place [4, 5, 6] 8 = (1, 3) ∧ place [4, 5, 6] 6 = (2, 0) ∧ place [4, 5, 6] 0 = (2, 6) ∧
    place [4, 5, 6] 16 = (0, 0) := by decide +kernel

/-! ## Placing a preheat command in an earlier plan -/

/-- The total time of the plans `k` to `idx - 1`. -/
def timeBetween (plans : List EPlan) (k idx : Nat) : ℚ := (((plans.take idx).drop k).map EPlan.time).sum

theorem timeBetween_succ {plans : List EPlan} {k idx : Nat} {p : EPlan} (hp : plans[k]? = some p) (h : k < idx) :
    timeBetween plans k idx = p.time + timeBetween plans (k + 1) idx := by
  obtain ⟨hk, rfl⟩ := List.getElem?_eq_some_iff.1 hp
  unfold timeBetween
  rw [List.drop_eq_getElem_cons (by simp; omega)]
  simp

/-- The time of plan `k` to the end is what remains to be searched. -/
theorem placePreheat_spec (ext : Nat) (temp : ℚ) (plans : List EPlan) (idx : Nat) (t : ℚ)
    (hidx : idx ≤ plans.length) : ∀ (k : Nat) (rest : ℚ), k ≤ idx → rest = t - timeBetween plans k idx →
      (k < idx → 0 ≤ rest) → 0 ≤ t →
    (∃ (j : Nat) (r : ℚ) (p : EPlan), j < k ∧ plans[j]? = some p ∧ 0 ≤ r ∧ r ≤ p.time ∧
      r + timeBetween plans (j + 1) idx = t ∧
      placePreheat ext temp plans k rest = plans.modify j fun p => p.insertPreheat r ext temp) ∨
    (timeBetween plans 0 idx < t ∨ k = 0) ∧
      placePreheat ext temp plans k rest = plans.modify 0 fun p => p.insert 0 ext temp 0
  | 0, rest, _, _, _, _ => Or.inr ⟨Or.inr rfl, rfl⟩
  | k + 1, rest, hk, hr, hr0, ht => by
    have hk' : k < plans.length := by omega
    have hp : plans[k]? = some plans[k] := List.getElem?_eq_getElem hk'
    have h0 : 0 ≤ rest := by
      by_cases h : k + 1 < idx
      · exact hr0 h
      · have : k + 1 = idx := by omega
        rw [hr, this]
        unfold timeBetween
        simp [ht]
    unfold placePreheat
    rw [hp]
    dsimp only
    by_cases hc : plans[k].time ≥ rest
    · rw [if_pos hc]
      exact Or.inl ⟨k, rest, plans[k], by omega, hp, h0, hc, by rw [hr]; ring, rfl⟩
    · rw [if_neg hc]
      push Not at hc
      have hrest : rest - plans[k].time = t - timeBetween plans k idx := by
        rw [timeBetween_succ hp (by omega), hr]; ring
      rcases placePreheat_spec ext temp plans idx t hidx k _ (by omega) hrest (fun _ => by linarith) ht with
        ⟨j, r, p, h1, h2⟩ | ⟨h1, h2⟩
      · exact Or.inl ⟨j, r, p, by omega, h2⟩
      · refine Or.inr ⟨Or.inl ?_, h2⟩
        rcases h1 with h1 | h1
        · exact h1
        · subst h1
          have : (0 : ℚ) < rest - plans[0].time := by linarith
          rw [hrest] at this
          linarith

/-- **C26.** The preheat command for a plan that starts after other plans is inserted so that the time from its
place to the start of the plan is the heating time: in plan `j`, at `r` before its end, where `r` and the time of the plans in
between add up to the heating time. If all the plans before are too short, it is inserted at the very beginning. -/
theorem C26_preheat (ext : Nat) (temp : ℚ) (plans : List EPlan) (idx : Nat) (t : ℚ) (hidx : idx ≤ plans.length)
    (hpos : 0 < idx) (ht : 0 ≤ t) :
    (∃ (j : Nat) (r : ℚ) (p : EPlan), j < idx ∧ plans[j]? = some p ∧ 0 ≤ r ∧ r ≤ p.time ∧
      r + timeBetween plans (j + 1) idx = t ∧
      placePreheat ext temp plans idx t = plans.modify j fun p => p.insertPreheat r ext temp) ∨
    timeBetween plans 0 idx < t ∧
      placePreheat ext temp plans idx t = plans.modify 0 fun p => p.insert 0 ext temp 0 := by
  rcases placePreheat_spec ext temp plans idx t hidx idx t le_rfl (by unfold timeBetween; simp)
    (fun h => absurd h (lt_irrefl _)) ht with h | ⟨h1, h2⟩
  · exact Or.inl h
  · exact Or.inr ⟨h1.resolve_right (by omega), h2⟩

example : placePreheat 1 200 [{ ext := 0, paths := [⟨4, true, 0⟩, ⟨6, false, 0⟩], time := 10, unretracted := 6 },
    { ext := 0, paths := [⟨5, false, 0⟩], time := 5, unretracted := 5 }] 2 8 =
    [{ ext := 0, paths := [⟨4, true, 0⟩, ⟨6, false, 0⟩], time := 10, unretracted := 6, nextId := 1,
       inserts := [⟨1, 1, 200, 3, 0⟩] },
     { ext := 0, paths := [⟨5, false, 0⟩], time := 5, unretracted := 5 }] := by decide +kernel

/-! ## C54: writing the commands -/

/-- The time of a path up to and including move `k`. -/
def cumOf (steps : List (Nat × List ℚ)) (p k : Nat) : ℚ := (((steps.lookup p).getD []).take (k + 1)).sum

/-- The total time of the path that is written before path `p`; `prev` for the first one. -/
def beforeFrom : ℚ → List (Nat × List ℚ) → Nat → ℚ
  | _, [], _ => 0
  | prev, (q, ms) :: rest, p => if q = p then prev else beforeFrom ms.sum rest p

/-- What is required of the order of two things that are written:
- moves are written in the order of the paths,
- commands are written in the order of their path and time,
- a move is written before a command only if the command's moment is after the whole move,
- a command is written before a move only if the command's path is an earlier one, or its moment is not after
  the end of the move, or (the exception, see `C54_early_counterexample`) not after the duration of the path before. -/
def Ordered (cum : Nat → Nat → ℚ) (before : Nat → ℚ) : Event → Event → Prop
  | .move p k, .move q l => p < q ∨ (p = q ∧ k < l)
  | .temp i, .temp j => i.path < j.path ∨ (i.path = j.path ∧ i.after ≤ j.after)
  | .move p k, .temp i => p < i.path ∨ (p = i.path ∧ cum p k < i.after)
  | .temp i, .move p k => i.path < p ∨ (i.path = p ∧ (i.after ≤ cum p k ∨ i.after ≤ before p))

/-- The command of an event. -/
def Event.cmd? : Event → Option Insert
  | .temp i => some i
  | .move _ _ => none

/-- The move of an event. -/
def Event.move? : Event → Option (Nat × Nat)
  | .temp _ => none
  | .move p k => some (p, k)

theorem Insert.le_iff (a b : Insert) : a.le b = true ↔ a.path < b.path ∨ (a.path = b.path ∧ a.after ≤ b.after) := by
  unfold Insert.le
  by_cases h : a.path = b.path
  · rw [if_pos h]; simp [h]
  · rw [if_neg h]; simp [h]; omega

theorem Insert.due_iff (i : Insert) (p : Nat) (t : ℚ) : i.due p t = true ↔ i.path < p ∨ (i.path = p ∧ i.after ≤ t) := by
  unfold Insert.due
  simp only [Bool.not_eq_true', Bool.or_eq_false_iff, decide_eq_false_iff_not, Bool.and_eq_false_iff,
    beq_eq_false_iff_ne]
  constructor
  · rintro ⟨h1, h2⟩
    rcases lt_trichotomy i.path p with h | h | h
    · exact Or.inl h
    · exact Or.inr ⟨h, h2.elim (fun k => absurd h k) not_lt.1⟩
    · exact absurd h h1
  · rintro (h | ⟨h, h'⟩)
    · exact ⟨by omega, Or.inl (by omega)⟩
    · exact ⟨by omega, Or.inr (not_lt.2 h')⟩

theorem Insert.not_due_iff (i : Insert) (p : Nat) (t : ℚ) :
    i.due p t = false ↔ p < i.path ∨ (p = i.path ∧ t < i.after) := by
  rw [← Bool.not_eq_true, Insert.due_iff]
  constructor
  · intro h
    rcases lt_trichotomy i.path p with h' | h' | h'
    · exact absurd (Or.inl h') h
    · right
      refine ⟨h'.symm, ?_⟩
      by_contra hc
      exact h (Or.inr ⟨h', not_lt.1 hc⟩)
    · exact Or.inl h'
  · rintro (h | ⟨h, h'⟩) (k | ⟨k, k'⟩)
    · omega
    · omega
    · omega
    · linarith

/-- Sorted commands. -/
def Sorted (l : List Insert) : Prop := l.Pairwise fun a b => a.path < b.path ∨ (a.path = b.path ∧ a.after ≤ b.after)

theorem Insert.due_of_le {a b : Insert} {p : Nat} {t : ℚ}
    (h : a.path < b.path ∨ (a.path = b.path ∧ a.after ≤ b.after)) (hb : b.due p t = true) : a.due p t = true := by
  rw [Insert.due_iff] at hb ⊢
  rcases h with h | ⟨h, h'⟩ <;> rcases hb with k | ⟨k, k'⟩
  · left; omega
  · left; omega
  · left; omega
  · right; exact ⟨by omega, le_trans h' k'⟩

theorem mem_dropWhile_not_due {p : Nat} {t : ℚ} : ∀ {l : List Insert}, Sorted l →
    ∀ i ∈ l.dropWhile (fun i => i.due p t), i.due p t = false
  | [], _, i, hi => by simp at hi
  | x :: xs, hs, i, hi => by
    rw [List.dropWhile_cons] at hi
    by_cases hx : x.due p t = true
    · rw [if_pos hx] at hi
      exact mem_dropWhile_not_due (List.Pairwise.of_cons hs) i hi
    · rw [if_neg hx] at hi
      rcases List.mem_cons.1 hi with rfl | hi
      · simpa using hx
      · by_contra hc
        exact hx (Insert.due_of_le (List.rel_of_pairwise_cons hs hi) (by simpa using hc))

theorem handleInserts_spec {p : Nat} {t : ℚ} {l : List Insert} (hs : Sorted l) :
    ∃ fired, (handleInserts p t l).1 = fired.map .temp ∧ l = fired ++ (handleInserts p t l).2 ∧
      (∀ i ∈ fired, i.due p t = true) ∧ (∀ i ∈ (handleInserts p t l).2, i.due p t = false) := by
  refine ⟨l.takeWhile fun i => i.due p t, rfl, (List.takeWhile_append_dropWhile).symm, ?_, ?_⟩
  · intro i hi
    exact List.all_eq_true.1 (List.all_takeWhile (p := fun i : Insert => i.due p t)) i hi
  · exact mem_dropWhile_not_due hs

theorem writeMoves_spec (cum : Nat → Nat → ℚ) (before : Nat → ℚ) (path : Nat) :
    ∀ (rest : List ℚ) (k : Nat) (time : ℚ) (l : List Insert), Sorted l → (∀ x ∈ rest, 0 ≤ x) →
      (∀ j < rest.length, cum path (k + j) = time + (rest.take (j + 1)).sum) →
      ∃ fired, l = fired ++ (writeMoves path rest k time l).2.1 ∧
        (writeMoves path rest k time l).1.filterMap Event.cmd? = fired ∧
        (writeMoves path rest k time l).1.filterMap Event.move? =
          (List.range rest.length).map (fun j => (path, k + j)) ∧
        (writeMoves path rest k time l).1.Pairwise (Ordered cum before) ∧
        (∀ i ∈ fired, i.path ≤ path) ∧
        (∀ i ∈ (writeMoves path rest k time l).2.1, ∀ j < rest.length,
          path < i.path ∨ (path = i.path ∧ cum path (k + j) < i.after)) ∧
        (writeMoves path rest k time l).2.2 = time + rest.sum
  | [], k, time, l, hs, _, _ => ⟨[], rfl, rfl, rfl, List.Pairwise.nil, by simp, by simp, by simp [writeMoves]⟩
  | x :: rest, k, time, l, hs, h0, hc => by
    obtain ⟨f1, e1, s1, d1, n1⟩ := handleInserts_spec (p := path) (t := time + x) hs
    have hx := h0 x (by simp)
    have hs2 : Sorted (handleInserts path (time + x) l).2 := by
      unfold Sorted at hs ⊢
      rw [s1] at hs
      exact (List.pairwise_append.1 hs).2.1
    have c0 : cum path k = time + x := by
      have := hc 0 (by simp)
      simpa using this
    obtain ⟨f2, s2, m2, v2, o2, p2, r2, t2⟩ := writeMoves_spec cum before path rest (k + 1) (time + x) _ hs2
      (fun y hy => h0 y (by simp [hy])) (by
        intro j hj
        have := hc (j + 1) (by simp; omega)
        rw [List.take_succ_cons, List.sum_cons] at this
        rw [show k + 1 + j = k + (j + 1) by omega, this]
        ring)
    have hmono : ∀ j < rest.length, time + x ≤ cum path (k + 1 + j) := by
      intro j hj
      have := hc (j + 1) (by simp; omega)
      rw [List.take_succ_cons, List.sum_cons] at this
      rw [show k + 1 + j = k + (j + 1) by omega, this]
      have : 0 ≤ (rest.take (j + 1)).sum :=
        List.sum_nonneg fun y hy => h0 y (List.mem_cons_of_mem _ (List.mem_of_mem_take hy))
      linarith
    have hunf : writeMoves path (x :: rest) k time l =
        ((handleInserts path (time + x) l).1 ++
          .move path k :: (writeMoves path rest (k + 1) (time + x) (handleInserts path (time + x) l).2).1,
        (writeMoves path rest (k + 1) (time + x) (handleInserts path (time + x) l).2).2) := rfl
    rw [hunf]
    generalize writeMoves path rest (k + 1) (time + x) (handleInserts path (time + x) l).2 = r at *
    generalize handleInserts path (time + x) l = h at *
    obtain ⟨ev, l2⟩ := h
    obtain ⟨rev, rl, rt⟩ := r
    dsimp only at *
    -- the events of the rest are later moves of this path or commands of the remaining list
    have hev : ∀ e ∈ rev, (∃ j, j < rest.length ∧ e = .move path (k + 1 + j)) ∨ ∃ i ∈ f2, e = .temp i := by
      intro e he
      cases e with
      | move q j =>
        left
        have : (q, j) ∈ rev.filterMap Event.move? := List.mem_filterMap.2 ⟨_, he, rfl⟩
        rw [v2] at this
        obtain ⟨j', hj', e'⟩ := List.mem_map.1 this
        cases e'
        exact ⟨j', List.mem_range.1 hj', rfl⟩
      | temp i =>
        right
        refine ⟨i, ?_, rfl⟩
        rw [← m2]
        exact List.mem_filterMap.2 ⟨_, he, rfl⟩
    refine ⟨f1 ++ f2, by rw [s1, s2]; simp, ?_, ?_, ?_, ?_, ?_, ?_⟩
    · rw [List.filterMap_append, List.filterMap_cons, e1, m2]
      simp [Event.cmd?, List.filterMap_map, Function.comp_def]
    · rw [List.filterMap_append, List.filterMap_cons, e1, v2]
      simp only [Event.move?, List.filterMap_map, Function.comp_def, List.length_cons]
      rw [show List.filterMap (fun _ : Insert => (none : Option (Nat × Nat))) f1 = [] by simp, List.nil_append,
        List.range_succ_eq_map, List.map_cons, List.map_map]
      simp only [Nat.add_zero, List.cons.injEq, true_and]
      apply List.map_congr_left
      intro j _
      simp only [Function.comp, Prod.mk.injEq, true_and]
      omega
    · rw [List.pairwise_append]
      refine ⟨?_, ?_, ?_⟩
      · rw [e1, List.pairwise_map]
        have := hs
        rw [s1] at this
        exact (List.pairwise_append.1 this).1
      · rw [List.pairwise_cons]
        refine ⟨?_, o2⟩
        intro e he
        rcases hev e he with ⟨j, _, rfl⟩ | ⟨i, hi, rfl⟩
        · exact Or.inr ⟨rfl, by omega⟩
        · have := n1 i (by rw [s2]; exact List.mem_append_left _ hi)
          rw [Insert.not_due_iff] at this
          show path < i.path ∨ (path = i.path ∧ cum path k < i.after)
          rw [c0]
          exact this
      · intro e he e' he'
        rw [e1] at he
        obtain ⟨i, hi, rfl⟩ := List.mem_map.1 he
        have hdue := (Insert.due_iff _ _ _).1 (d1 i hi)
        rcases List.mem_cons.1 he' with rfl | he'
        · show i.path < path ∨ (i.path = path ∧ (i.after ≤ cum path k ∨ i.after ≤ before path))
          rw [c0]
          rcases hdue with h | ⟨h, h'⟩
          · exact Or.inl h
          · exact Or.inr ⟨h, Or.inl h'⟩
        · rcases hev e' he' with ⟨j, hj, rfl⟩ | ⟨i', hi', rfl⟩
          · show i.path < path ∨ (i.path = path ∧ (i.after ≤ cum path (k + 1 + j) ∨ i.after ≤ before path))
            rcases hdue with h | ⟨h, h'⟩
            · exact Or.inl h
            · exact Or.inr ⟨h, Or.inl (le_trans h' (hmono j hj))⟩
          · have := hs
            unfold Sorted at this
            rw [s1] at this
            exact (List.pairwise_append.1 this).2.2 i hi i' (by rw [s2]; exact List.mem_append_left _ hi')
    · intro i hi
      rcases List.mem_append.1 hi with hi | hi
      · rcases (Insert.due_iff _ _ _).1 (d1 i hi) with h | ⟨h, _⟩ <;> omega
      · exact p2 i hi
    · intro i hi j hj
      cases j with
      | zero =>
        have := n1 i (by rw [s2]; exact List.mem_append_right _ hi)
        rw [Insert.not_due_iff] at this
        rw [Nat.add_zero, c0]
        exact this
      | succ j =>
        have := r2 i hi j (by simp at hj; omega)
        rwa [show k + 1 + j = k + (j + 1) by omega] at this
    · rw [t2, List.sum_cons]; ring

/-- All moves of the paths, in order. -/
def movesOf (steps : List (Nat × List ℚ)) : List (Nat × Nat) :=
  steps.flatMap fun s => (List.range s.2.length).map fun j => (s.1, j)

theorem writePaths_spec (cum : Nat → Nat → ℚ) (before : Nat → ℚ) :
    ∀ (steps : List (Nat × List ℚ)) (time : ℚ) (l : List Insert), Sorted l →
      steps.Pairwise (fun a b => a.1 < b.1) → (∀ s ∈ steps, ∀ x ∈ s.2, 0 ≤ x) →
      (∀ s ∈ steps, ∀ j < s.2.length, cum s.1 j = (s.2.take (j + 1)).sum) →
      (∀ s ∈ steps, before s.1 = beforeFrom time steps s.1) →
      (writePaths steps time l).filterMap Event.cmd? = l ∧
      (writePaths steps time l).filterMap Event.move? = movesOf steps ∧
      (writePaths steps time l).Pairwise (Ordered cum before)
  | [], _, l, hs, _, _, _, _ => by
    unfold writePaths
    refine ⟨by simp [List.filterMap_map, Function.comp_def, Event.cmd?], ?_, ?_⟩
    · simp [List.filterMap_map, Function.comp_def, Event.move?, movesOf]
    · rw [List.pairwise_map]; exact hs
  | (path, ms) :: rest, time, l, hs, hp, h0, hc, hb => by
    obtain ⟨f1, e1, s1, d1, n1⟩ := handleInserts_spec (p := path) (t := time) hs
    have hs2 : Sorted (handleInserts path time l).2 := by
      unfold Sorted at hs ⊢
      rw [s1] at hs
      exact (List.pairwise_append.1 hs).2.1
    obtain ⟨f2, s2, m2, v2, o2, p2, r2, t2⟩ := writeMoves_spec cum before path ms 0 0 _ hs2
      (fun y hy => h0 (path, ms) (by simp) y hy) (by
        intro j hj
        have := hc (path, ms) (by simp) j hj
        rw [Nat.zero_add, this]; ring)
    rw [zero_add] at t2
    simp only [Nat.zero_add] at v2 r2
    have hs3 : Sorted (writeMoves path ms 0 0 (handleInserts path time l).2).2.1 := by
      unfold Sorted at hs2 ⊢
      rw [s2] at hs2
      exact (List.pairwise_append.1 hs2).2.1
    rw [List.pairwise_cons] at hp
    have hbefore : ∀ s ∈ rest, before s.1 = beforeFrom ms.sum rest s.1 := by
      intro s hsm
      rw [hb s (by simp [hsm])]
      unfold beforeFrom
      have : path < s.1 := hp.1 s hsm
      rw [if_neg (by omega)]
      cases rest with
      | nil => simp at hsm
      | cons => rfl
    have hbp : before path = time := by
      rw [hb (path, ms) (by simp)]
      unfold beforeFrom
      rw [if_pos rfl]
    obtain ⟨m3, v3, o3⟩ := writePaths_spec cum before rest ms.sum
      (writeMoves path ms 0 0 (handleInserts path time l).2).2.1 hs3 hp.2
      (fun s hsm => h0 s (by simp [hsm])) (fun s hsm => hc s (by simp [hsm])) hbefore
    have hunf : writePaths ((path, ms) :: rest) time l = (handleInserts path time l).1 ++
        (writeMoves path ms 0 0 (handleInserts path time l).2).1 ++
        writePaths rest ms.sum (writeMoves path ms 0 0 (handleInserts path time l).2).2.1 := by
      conv_lhs => unfold writePaths
      dsimp only
      rw [t2]
    rw [hunf]
    generalize writePaths rest ms.sum (writeMoves path ms 0 0 (handleInserts path time l).2).2.1 = w3 at *
    generalize writeMoves path ms 0 0 (handleInserts path time l).2 = r at *
    generalize handleInserts path time l = h at *
    obtain ⟨ev, l2⟩ := h
    obtain ⟨rev, rl, rt⟩ := r
    dsimp only at *
    have hev : ∀ e ∈ rev, (∃ j, j < ms.length ∧ e = .move path j) ∨ ∃ i ∈ f2, e = .temp i := by
      intro e he
      cases e with
      | move q j =>
        left
        have : (q, j) ∈ rev.filterMap Event.move? := List.mem_filterMap.2 ⟨_, he, rfl⟩
        rw [v2] at this
        obtain ⟨j', hj', e'⟩ := List.mem_map.1 this
        cases e'
        exact ⟨_, List.mem_range.1 hj', rfl⟩
      | temp i =>
        right
        refine ⟨i, ?_, rfl⟩
        rw [← m2]
        exact List.mem_filterMap.2 ⟨_, he, rfl⟩
    have hev3 : ∀ e ∈ w3, (∃ s ∈ rest, ∃ j, e = .move s.1 j) ∨ ∃ i ∈ rl, e = .temp i := by
      intro e he
      cases e with
      | move q j =>
        left
        have : (q, j) ∈ w3.filterMap Event.move? := List.mem_filterMap.2 ⟨_, he, rfl⟩
        rw [v3] at this
        obtain ⟨s, hsm, e'⟩ := List.mem_flatMap.1 this
        obtain ⟨j', _, e''⟩ := List.mem_map.1 e'
        cases e''
        exact ⟨s, hsm, _, rfl⟩
      | temp i =>
        right
        refine ⟨i, ?_, rfl⟩
        rw [← m3]
        exact List.mem_filterMap.2 ⟨_, he, rfl⟩
    have hsl := hs
    unfold Sorted at hsl
    rw [s1, s2] at hsl
    have hA := List.pairwise_append.1 hsl
    have hB := List.pairwise_append.1 hA.2.1
    refine ⟨?_, ?_, ?_⟩
    · rw [List.filterMap_append, List.filterMap_append, e1, m2, m3, s1, s2]
      simp [Event.cmd?, List.filterMap_map, Function.comp_def]
    · rw [List.filterMap_append, List.filterMap_append, e1, v2, v3]
      simp [Event.move?, List.filterMap_map, Function.comp_def, movesOf]
    · rw [List.append_assoc, List.pairwise_append, List.pairwise_append]
      refine ⟨?_, ⟨o2, o3, ?_⟩, ?_⟩
      · rw [e1, List.pairwise_map]; exact hA.1
      · intro e he e' he'
        rcases hev e he with ⟨j, hj, rfl⟩ | ⟨i, hi, rfl⟩ <;> rcases hev3 e' he' with ⟨s, hsm, j', rfl⟩ | ⟨i', hi', rfl⟩
        · exact Or.inl (hp.1 s hsm)
        · exact r2 i' hi' j hj
        · left
          exact lt_of_le_of_lt (p2 i hi) (hp.1 s hsm)
        · exact hB.2.2 i hi i' hi'
      · intro e he e' he'
        rw [e1] at he
        obtain ⟨i, hi, rfl⟩ := List.mem_map.1 he
        have hdue := (Insert.due_iff _ _ _).1 (d1 i hi)
        rcases List.mem_append.1 he' with he' | he'
        · rcases hev e' he' with ⟨j, hj, rfl⟩ | ⟨i', hi', rfl⟩
          · show i.path < path ∨ (i.path = path ∧ (i.after ≤ cum path j ∨ i.after ≤ before path))
            rw [hbp]
            rcases hdue with h | ⟨h, h'⟩
            · exact Or.inl h
            · exact Or.inr ⟨h, Or.inr h'⟩
          · exact hA.2.2 i hi i' (List.mem_append_left _ hi')
        · rcases hev3 e' he' with ⟨s, hsm, j', rfl⟩ | ⟨i', hi', rfl⟩
          · left
            have := hp.1 s hsm
            show i.path < s.1
            rcases hdue with h | ⟨h, _⟩ <;> omega
          · exact hA.2.2 i hi i' (List.mem_append_right _ hi')

theorem insertSorted_perm (i : Insert) : ∀ l, (insertSorted i l).Perm (i :: l)
  | [] => List.Perm.refl _
  | x :: xs => by
    unfold insertSorted
    split_ifs
    · exact List.Perm.refl _
    · exact ((insertSorted_perm i xs).cons x).trans (List.Perm.swap i x xs)

theorem sortInserts_perm : ∀ l, (sortInserts l).Perm l
  | [] => List.Perm.refl _
  | x :: xs => (insertSorted_perm x _).trans ((sortInserts_perm xs).cons x)

theorem insertSorted_sorted (i : Insert) : ∀ l, Sorted l → Sorted (insertSorted i l)
  | [], _ => List.pairwise_singleton _ _
  | x :: xs, h => by
    unfold insertSorted
    by_cases hx : i.le x = true
    · rw [if_pos hx]
      rw [Insert.le_iff] at hx
      refine List.pairwise_cons.2 ⟨?_, h⟩
      intro y hy
      rcases List.mem_cons.1 hy with rfl | hy
      · exact hx
      · rcases hx with hx | ⟨hx, hx'⟩ <;> rcases List.rel_of_pairwise_cons h hy with k | ⟨k, k'⟩
        · left; omega
        · left; omega
        · left; omega
        · right; exact ⟨by omega, le_trans hx' k'⟩
    · rw [if_neg hx]
      refine List.pairwise_cons.2 ⟨?_, insertSorted_sorted i xs (List.Pairwise.of_cons h)⟩
      intro y hy
      rcases List.mem_cons.1 ((insertSorted_perm i xs).mem_iff.1 hy) with rfl | hy
      · rw [Insert.le_iff] at hx
        push Not at hx
        rcases lt_trichotomy x.path y.path with k | k | k
        · exact Or.inl k
        · exact Or.inr ⟨k, le_of_lt (hx.2 k.symm)⟩
        · omega
      · exact List.rel_of_pairwise_cons h hy

theorem sortInserts_sorted : ∀ l, Sorted (sortInserts l)
  | [] => List.Pairwise.nil
  | x :: xs => insertSorted_sorted x _ (sortInserts_sorted xs)

theorem insertSorted_stable (q : Insert → Bool) (i : Insert) (hq : ∀ x, q i = true → q x = true → i.le x = true) :
    ∀ l, (insertSorted i l).filter q = (i :: l).filter q
  | [] => rfl
  | x :: xs => by
    unfold insertSorted
    by_cases hx : i.le x = true
    · rw [if_pos hx]
    · rw [if_neg hx, List.filter_cons, insertSorted_stable q i hq xs]
      by_cases hi : q i = true
      · have : q x ≠ true := fun h => hx (hq x hi h)
        simp [List.filter_cons, hi, this]
      · simp [List.filter_cons, hi]

/-- Commands for the same moment stay in the order in which they were inserted. -/
theorem sortInserts_stable (path : Nat) (after : ℚ) : ∀ l,
    (sortInserts l).filter (fun i => i.path = path ∧ i.after = after) =
      l.filter (fun i => i.path = path ∧ i.after = after)
  | [] => rfl
  | x :: xs => by
    unfold sortInserts
    rw [insertSorted_stable _ x ?_ _, List.filter_cons, List.filter_cons, sortInserts_stable path after xs]
    intro y hx hy
    simp only [decide_eq_true_eq] at hx hy
    rw [Insert.le_iff]
    exact Or.inr ⟨by rw [hx.1, hy.1], by rw [hx.2, hy.2]⟩

theorem lookup_of_pairwise : ∀ (steps : List (Nat × List ℚ)), steps.Pairwise (fun a b => a.1 < b.1) →
    ∀ s ∈ steps, steps.lookup s.1 = some s.2
  | [], _, s, h => by simp at h
  | (p, ms) :: rest, hp, s, h => by
    rw [List.pairwise_cons] at hp
    rcases List.mem_cons.1 h with rfl | h
    · simp
    · have : p < s.1 := hp.1 s h
      rw [List.lookup_cons]
      have e : (s.1 == p) = false := by simp; omega
      rw [e]
      exact lookup_of_pairwise rest hp.2 s h

/-- **C54.** When a plan is written, every move is written once and in order; every temperature command is written
exactly once, commands for the same moment in the order of their insertion; no command is written later than before
the move during which its moment falls; and none is written before its path has started. Within its path it is not written too
early either, unless its offset is smaller than the duration of the path before. -/
theorem C54_partial (steps : List (Nat × List ℚ)) (inserts : List Insert)
    (hsteps : steps.Pairwise fun a b => a.1 < b.1) (h0 : ∀ s ∈ steps, ∀ x ∈ s.2, 0 ≤ x) :
    (writePlan steps inserts).filterMap Event.move? = movesOf steps ∧
    ((writePlan steps inserts).filterMap Event.cmd?).Perm inserts ∧
    (∀ path after, ((writePlan steps inserts).filterMap Event.cmd?).filter (fun i => i.path = path ∧ i.after = after)
      = inserts.filter (fun i => i.path = path ∧ i.after = after)) ∧
    (writePlan steps inserts).Pairwise (Ordered (cumOf steps) (beforeFrom 0 steps)) := by
  obtain ⟨h1, h2, h3⟩ := writePaths_spec (cumOf steps) (beforeFrom 0 steps) steps 0 (sortInserts inserts)
    (sortInserts_sorted inserts) hsteps h0 (by
      intro s hs j _
      unfold cumOf
      rw [lookup_of_pairwise steps hsteps s hs]
      rfl) (fun _ _ => rfl)
  refine ⟨h2, ?_, ?_, h3⟩
  · unfold writePlan; rw [h1]; exact sortInserts_perm inserts
  · intro path after
    unfold writePlan; rw [h1]
    exact sortInserts_stable path after inserts

/-- Two paths with moves of 1 and 2 seconds: a command 2 seconds after the start of the second path comes
before its second move. -/
example : writePlan [(0, [1, 1/2]), (1, [1, 2, 2])] [⟨1, 0, 200, 2, 0⟩, ⟨0, 0, 210, 0, 1⟩, ⟨7, 0, 190, 0, 2⟩] =
    [.temp ⟨0, 0, 210, 0, 1⟩, .move 0 0, .move 0 1, .move 1 0, .temp ⟨1, 0, 200, 2, 0⟩, .move 1 1, .move 1 2,
      .temp ⟨7, 0, 190, 0, 2⟩] := by decide +kernel

/-- **C54** does not hold without the exception: after a path of 5 seconds, a command for 4 seconds after the start
of the next path is written at its start, before a move that takes only 1 second. -/
theorem C54_early_counterexample :
    ∃ (steps : List (Nat × List ℚ)) (i : Insert),
      writePlan steps [i] = [.move 0 0, .temp i, .move 1 0, .move 1 1] ∧ i.path = 1 ∧ i.after = 4 ∧
      cumOf steps 1 0 = 1 :=
  ⟨[(0, [5]), (1, [1, 6])], ⟨1, 0, 200, 4, 0⟩, by decide +kernel⟩

end Verif.Heat
