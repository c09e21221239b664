import Verif.Time.PlanLemmas
import Mathlib.Tactic.FinCases

/-! # The invariant of the time estimate -/

namespace Verif.Time

/-- Settings under which estimating makes sense. -/
structure Config (c : Calc) : Prop where
  feed : ∀ n, minSpeed ≤ c.maxFeed n
  maxAcc : ∀ n, 0 < c.maxAcc n
  acc : 0 < c.acc
  xy : 0 ≤ c.xyJerk
  z : 0 ≤ c.zJerk
  e : 0 ≤ c.eJerk

theorem feedFactor_fold (maxFeed feed : Axes) (hm : ∀ n, 0 < maxFeed n) : ∀ (l : List (Fin 4)) (f0 : ℝ), 0 < f0 →
    let f := l.foldl (fun f n => if |feed n| > maxFeed n then min f (maxFeed n / |feed n|) else f) f0
    0 < f ∧ f ≤ f0 ∧ (f0 ≤ 1 → ∀ n ∈ l, |feed n| * f ≤ maxFeed n) ∧ (f = f0 ∨ ∃ n, |feed n| * f = maxFeed n)
  | [], f0, h => by simp [h]
  | k :: l, f0, h => by
    rw [List.foldl_cons]
    by_cases hk : |feed k| > maxFeed k
    · rw [if_pos hk]
      have hpos : 0 < |feed k| := (hm k).trans hk
      have h1 : 0 < maxFeed k / |feed k| := div_pos (hm k) hpos
      obtain ⟨i1, i2, i3, i4⟩ := feedFactor_fold maxFeed feed hm l _ (lt_min h h1)
      dsimp only at i1 i2 i3 i4 ⊢
      refine ⟨i1, i2.trans (min_le_left _ _), ?_, ?_⟩
      · intro hf n hn
        rcases List.mem_cons.1 hn with rfl | hn
        · have := mul_le_mul_of_nonneg_left (i2.trans (min_le_right _ _)) hpos.le
          rwa [mul_div_cancel₀ _ hpos.ne'] at this
        · exact i3 ((min_le_left _ _).trans hf) n hn
      · rcases i4 with i4 | i4
        · rcases min_choice f0 (maxFeed k / |feed k|) with hc | hc
          · left; rw [i4, hc]
          · right
            refine ⟨k, ?_⟩
            rw [i4, hc, mul_div_cancel₀ _ hpos.ne']
        · exact Or.inr i4
    · rw [if_neg hk]
      obtain ⟨i1, i2, i3, i4⟩ := feedFactor_fold maxFeed feed hm l _ h
      dsimp only at i1 i2 i3 i4 ⊢
      refine ⟨i1, i2, ?_, i4⟩
      intro hf n hn
      rcases List.mem_cons.1 hn with rfl | hn
      · exact (mul_le_of_le_one_right (abs_nonneg _) (i2.trans hf)).trans (not_lt.1 hk)
      · exact i3 hf n hn

theorem feedFactor_spec {maxFeed feed : Axes} (hm : ∀ n, 0 < maxFeed n) :
    0 < feedFactor maxFeed feed ∧ feedFactor maxFeed feed ≤ 1 ∧ (∀ n, |feed n| * feedFactor maxFeed feed ≤ maxFeed n) ∧
    (feedFactor maxFeed feed = 1 ∨ ∃ n, |feed n| * feedFactor maxFeed feed = maxFeed n) := by
  obtain ⟨h1, h2, h3, h4⟩ := feedFactor_fold maxFeed feed hm [0, 1, 2, 3] 1 one_pos
  refine ⟨h1, h2, fun n => h3 (le_refl _) n ?_, h4⟩
  fin_cases n <;> simp

theorem distance_nonneg (delta : Axes) : 0 ≤ distance delta := by
  unfold distance; dsimp only; split_ifs
  · exact abs_nonneg _
  · exact Real.sqrt_nonneg _

theorem axis_le_distance (delta : Axes) (n : Fin 4) (h : n ≠ 3) : |delta n| ≤ distance delta := by
  have hle : |delta n| ≤ Real.sqrt (|delta 0| ^ 2 + |delta 1| ^ 2 + |delta 2| ^ 2) := by
    apply Real.le_sqrt_of_sq_le
    have h0 := sq_nonneg |delta 0|
    have h1 := sq_nonneg |delta 1|
    have h2 := sq_nonneg |delta 2|
    fin_cases n
    · show |delta 0| ^ 2 ≤ _; linarith
    · show |delta 1| ^ 2 ≤ _; linarith
    · show |delta 2| ^ 2 ≤ _; linarith
    · exact absurd rfl h
  unfold distance
  dsimp only
  by_cases hd : Real.sqrt (|delta 0| ^ 2 + |delta 1| ^ 2 + |delta 2| ^ 2) = 0
  · rw [if_pos hd]
    rw [hd] at hle
    exact hle.trans (abs_nonneg _)
  · rw [if_neg hd]; exact hle

theorem travel_le {delta : Axes} {x : ℝ} (h0 : 0 ≤ x) (h : ∀ n, |delta n| ≤ x) : travel delta ≤ x := by
  unfold travel
  simp only [List.foldl_cons, List.foldl_nil]
  exact max_le (max_le (max_le (max_le h0 (h 0)) (h 1)) (h 2)) (h 3)

theorem distance_pos {delta : Axes} (h : ¬ travel delta ≤ 0) : 0 < distance delta := by
  rcases lt_or_eq_of_le (distance_nonneg delta) with hd | hd
  · exact hd
  · exfalso
    apply h
    apply travel_le (le_refl _)
    intro n
    by_cases hn : n = 3
    · subst hn
      have hx := axis_le_distance delta
      unfold distance at hd
      dsimp only at hd
      by_cases hs : Real.sqrt (|delta 0| ^ 2 + |delta 1| ^ 2 + |delta 2| ^ 2) = 0
      · rw [if_pos hs] at hd; exact hd.ge
      · rw [if_neg hs] at hd; exact absurd hd.symm hs
    · have := axis_le_distance delta n hn; linarith

/-- A move whose speed stays above the least speed of the planner. -/
structure Move (c : Calc) (pos : Axes) (feedrate : ℝ) : Prop where
  feed : minSpeed ≤ max c.minFeed feedrate
  extrusion : minSpeed * |pos 3 - c.pos 3| ≤ c.maxFeed 3 * distance (deltaTo c pos)

theorem requested_eq (c : Calc) (feedrate : ℝ) : requested c feedrate = max c.minFeed feedrate := by
  unfold requested
  split_ifs with h
  · exact (max_eq_left h.le).symm
  · exact (max_eq_right (not_lt.1 h)).symm

theorem blockFeed_eq {c : Calc} {delta : Axes} {feedrate : ℝ} (n : Fin 4) :
    blockFeed c delta feedrate n = delta n / distance delta * blockNominal c delta feedrate := by
  unfold blockFeed blockNominal rawFeed; ring

/-- The speed of a move is the wanted one, or an axis is at its limit; no axis is above its limit. -/
theorem nominal_spec {c : Calc} (hc : ∀ n, 0 < c.maxFeed n) {delta : Axes} {feedrate : ℝ}
    (h0 : 0 ≤ max c.minFeed feedrate) (hd : 0 < distance delta) :
    0 ≤ blockNominal c delta feedrate ∧ blockNominal c delta feedrate ≤ max c.minFeed feedrate ∧
    (∀ n, |delta n| / distance delta * blockNominal c delta feedrate ≤ c.maxFeed n) ∧
    (blockNominal c delta feedrate = max c.minFeed feedrate ∨
      ∃ n, |delta n| / distance delta * blockNominal c delta feedrate = c.maxFeed n) := by
  obtain ⟨h1, h2, h3, h4⟩ := feedFactor_spec (maxFeed := c.maxFeed) (feed := rawFeed c delta feedrate) hc
  have hraw : ∀ n, |rawFeed c delta feedrate n| * feedFactor c.maxFeed (rawFeed c delta feedrate) =
      |delta n| / distance delta * blockNominal c delta feedrate := by
    intro n
    unfold blockNominal
    generalize feedFactor c.maxFeed (rawFeed c delta feedrate) = f
    unfold rawFeed
    rw [requested_eq, abs_div, abs_mul, abs_of_nonneg h0, abs_of_pos hd]
    ring
  refine ⟨?_, ?_, ?_, ?_⟩
  · unfold blockNominal; rw [requested_eq]; exact mul_nonneg h0 h1.le
  · unfold blockNominal; rw [requested_eq]; exact mul_le_of_le_one_right h0 h2
  · intro n; rw [← hraw]; exact h3 n
  · rcases h4 with h4 | ⟨n, h4⟩
    · left; unfold blockNominal; rw [h4, requested_eq, mul_one]
    · right; exact ⟨n, by rw [← hraw]; exact h4⟩

theorem nominal_ge {c : Calc} (hc : Config c) {pos : Axes} {feedrate : ℝ} (hm : Move c pos feedrate)
    (hd : 0 < distance (deltaTo c pos)) : minSpeed ≤ blockNominal c (deltaTo c pos) feedrate := by
  have hf : ∀ n, 0 < c.maxFeed n := fun n => minSpeed_pos.trans_le (hc.feed n)
  obtain ⟨h1, h2, h3, h4⟩ := nominal_spec hf (minSpeed_pos.le.trans hm.feed) hd
  rcases h4 with h4 | ⟨n, h4⟩
  · rw [h4]; exact hm.feed
  · have hlim : minSpeed * |deltaTo c pos n| ≤ c.maxFeed n * distance (deltaTo c pos) := by
      by_cases hn : n = 3
      · subst hn; exact hm.extrusion
      · have h5 := axis_le_distance (deltaTo c pos) n hn
        calc minSpeed * |deltaTo c pos n| ≤ minSpeed * distance (deltaTo c pos) :=
              mul_le_mul_of_nonneg_left h5 minSpeed_pos.le
          _ ≤ c.maxFeed n * distance (deltaTo c pos) := mul_le_mul_of_nonneg_right (hc.feed n) hd.le
    rw [← h4] at hlim
    have e : |deltaTo c pos n| / distance (deltaTo c pos) * blockNominal c (deltaTo c pos) feedrate *
        distance (deltaTo c pos) = |deltaTo c pos n| * blockNominal c (deltaTo c pos) feedrate := by
      field_simp
    rw [e] at hlim
    have hpos : 0 < |deltaTo c pos n| := by
      rcases lt_or_eq_of_le (abs_nonneg (deltaTo c pos n)) with h | h
      · exact h
      · rw [← h] at h4
        have := hf n
        rw [zero_div, zero_mul] at h4
        linarith
    rw [mul_comm] at hlim
    exact le_of_mul_le_mul_left hlim hpos

theorem blockAcc_fold (maxAcc ratio : Axes) : ∀ (l : List (Fin 4)) (a : ℝ),
    let r := l.foldl (fun a n => if a * ratio n > maxAcc n then maxAcc n else a) a
    r = a ∨ ∃ n, r = maxAcc n
  | [], _ => Or.inl rfl
  | k :: l, a => by
    rw [List.foldl_cons]
    by_cases h : a * ratio k > maxAcc k
    · rw [if_pos h]
      rcases blockAcc_fold maxAcc ratio l (maxAcc k) with h | h
      · exact Or.inr ⟨k, h⟩
      · exact Or.inr h
    · rw [if_neg h]; exact blockAcc_fold maxAcc ratio l a

theorem blockAcc_pos {c : Calc} (hc : Config c) (delta : Axes) (d : ℝ) : 0 < blockAcc c delta d := by
  rcases blockAcc_fold c.maxAcc (fun n => |delta n| / d) [0, 1, 2, 3] c.acc with h | ⟨n, h⟩
  · unfold blockAcc; rw [h]; exact hc.acc
  · unfold blockAcc; rw [h]; exact hc.maxAcc n

theorem safeSpeed_spec {c : Calc} (hc : Config c) {feed : Axes} {nominal : ℝ} (hn : 0 ≤ nominal) :
    0 ≤ safeSpeed c feed nominal ∧ safeSpeed c feed nominal ≤ nominal := by
  unfold safeSpeed
  dsimp only
  refine ⟨le_min ?_ hn, min_le_right _ _⟩
  have := hc.xy
  have := hc.z
  have := hc.e
  split_ifs <;> (repeat' apply le_min) <;> linarith

theorem junctionFactor_spec {c : Calc} (hc : Config c) (feed : Axes) :
    0 ≤ junctionFactor c feed ∧ junctionFactor c feed ≤ 1 := by
  have h1 := hc.xy
  have h2 := hc.z
  have h3 := hc.e
  unfold junctionFactor
  dsimp only
  generalize Real.sqrt ((feed 0 - c.prevFeed 0) ^ 2 + (feed 1 - c.prevFeed 1) ^ 2) = xy
  generalize |feed 2 - c.prevFeed 2| = z
  generalize |feed 3 - c.prevFeed 3| = e
  have a : 0 ≤ (if xy > c.xyJerk then c.xyJerk / xy else 1) ∧ (if xy > c.xyJerk then c.xyJerk / xy else 1) ≤ 1 := by
    split_ifs with h
    · exact ⟨div_nonneg h1 (h1.trans h.le), (div_le_one (h1.trans_lt h)).2 h.le⟩
    · exact ⟨zero_le_one, le_refl _⟩
  generalize (if xy > c.xyJerk then c.xyJerk / xy else 1) = f at *
  have b : 0 ≤ (if z > c.zJerk then min f (c.zJerk / z) else f) ∧ (if z > c.zJerk then min f (c.zJerk / z) else f) ≤ 1 := by
    split_ifs with h
    · exact ⟨le_min a.1 (div_nonneg h2 (h2.trans h.le)), (min_le_left _ _).trans a.2⟩
    · exact a
  generalize (if z > c.zJerk then min f (c.zJerk / z) else f) = g at *
  split_ifs with h
  · exact ⟨le_min b.1 (div_nonneg h3 (h3.trans h.le)), (min_le_left _ _).trans b.2⟩
  · exact b

theorem maxEntry_spec {c : Calc} (hc : Config c) {feed : Axes} {nominal : ℝ} (hn : 0 ≤ nominal) :
    0 ≤ maxEntry c feed nominal ∧ maxEntry c feed nominal ≤ nominal ∧
    (c.blocks ≠ [] → c.prevNominal > 1 / 10000 → maxEntry c feed nominal ≤ c.prevNominal) := by
  obtain ⟨j1, j2⟩ := junctionFactor_spec hc feed
  unfold maxEntry
  split_ifs with h
  · refine ⟨le_min ?_ (mul_nonneg hn j1), ?_, fun _ _ => min_le_left _ _⟩
    · have := h.2; linarith
    · exact (min_le_right _ _).trans (mul_le_of_le_one_right hn j2)
  · obtain ⟨s1, s2⟩ := safeSpeed_spec hc (feed := feed) hn
    exact ⟨s1, s2, fun h1 h2 => absurd ⟨h1, h2⟩ h⟩

/-- What holds for the calculator at any time. -/
structure Inv (c : Calc) : Prop where
  config : Config c
  blocks : ∀ b ∈ c.blocks, Static b ∧ Fresh b
  steps : Steps c.blocks
  last : ∀ b, c.blocks.getLast? = some b → b.nominal = c.prevNominal
  extra : 0 ≤ c.extra

theorem steps_append : ∀ {l : List Block} {b : Block}, Steps l →
    (∀ x, l.getLast? = some x → b.maxEntry ≤ x.nominal) → Steps (l ++ [b])
  | [], _, _, _ => trivial
  | [x], _, _, h => ⟨h x rfl, trivial⟩
  | x :: y :: rest, b, hs, h => ⟨hs.1, steps_append hs.2 (by simpa using h)⟩

theorem newBlock_spec {c : Calc} (hc : Config c) {pos : Axes} {feedrate : ℝ} {feature : Fin 15}
    (hm : Move c pos feedrate) (ht : ¬ travel (deltaTo c pos) ≤ 0) :
    let b := newBlock c (deltaTo c pos) feedrate feature
    Static b ∧ Fresh b ∧ b.feature = feature ∧ b.distance = distance (deltaTo c pos) ∧
    b.nominal = blockNominal c (deltaTo c pos) feedrate ∧ b.acc = blockAcc c (deltaTo c pos) (distance (deltaTo c pos)) ∧
    b.maxEntry = maxEntry c (blockFeed c (deltaTo c pos) feedrate) (blockNominal c (deltaTo c pos) feedrate) := by
  have hd := distance_pos ht
  have hn := nominal_ge hc hm hd
  obtain ⟨m1, m2, _⟩ := maxEntry_spec hc (feed := blockFeed c (deltaTo c pos) feedrate) (minSpeed_pos.le.trans hn)
  have ha := blockAcc_pos hc (deltaTo c pos) (distance (deltaTo c pos))
  unfold newBlock
  dsimp only
  generalize blockNominal c (deltaTo c pos) feedrate = N at *
  generalize blockAcc c (deltaTo c pos) (distance (deltaTo c pos)) = a at *
  generalize blockFeed c (deltaTo c pos) feedrate = feed at *
  generalize distance (deltaTo c pos) = d at *
  obtain ⟨e1, e2, e3, e4, e5, e6, e7, e8⟩ := trapezoid_same
    { feature := feature, distance := d, nominal := N, acc := a, maxEntry := maxEntry c feed N,
      entry := min (maxEntry c feed N) (maxAllowable (-a) minSpeed d), nominalLength := N ≤ maxAllowable (-a) minSpeed d }
    (min (maxEntry c feed N) (maxAllowable (-a) minSpeed d) / N) (safeSpeed c feed N / N)
  generalize trapezoid _ _ _ = t at *
  dsimp only at e1 e2 e3 e4 e5 e6 e7 e8
  refine ⟨⟨?_, ?_, ?_, ?_, ?_, ?_, ?_⟩, ?_, e1, e2, e3, e4, e5⟩
  · rw [e2]; exact hd
  · rw [e4]; exact ha
  · rw [e3]; exact hn
  · rw [e5]; exact m1
  · rw [e5, e3]; exact m2
  · rw [e7, e3, e4, e2]
  · exact e8
  · unfold Fresh; rw [e6, e5, e4, e2]

theorem Inv.plan {c : Calc} (h : Inv c) {pos : Axes} {feedrate : ℝ} (feature : Fin 15)
    (hm : travel (deltaTo c pos) ≤ 0 ∨ Move c pos feedrate) : Inv (plan c pos feedrate feature) := by
  unfold Time.plan
  by_cases ht : travel (deltaTo c pos) ≤ 0
  · rw [if_pos ht]; exact h
  · rw [if_neg ht]
    have hm := hm.resolve_left ht
    obtain ⟨s, f, b1, b2, b3, b4, b5⟩ := newBlock_spec h.config (feature := feature) hm ht
    refine ⟨⟨h.config.1, h.config.2, h.config.3, h.config.4, h.config.5, h.config.6⟩, ?_, ?_, ?_, h.extra⟩
    · intro b hb
      rcases List.mem_append.1 hb with hb | hb
      · exact h.blocks b hb
      · rw [List.mem_singleton.1 hb]; exact ⟨s, f⟩
    · refine steps_append h.steps ?_
      intro x hx
      have hne : c.blocks ≠ [] := by rintro h0; rw [h0] at hx; simp at hx
      have hlast := h.last x hx
      have hxs := (h.blocks x (List.mem_of_getLast? hx)).1.slow
      rw [b5, hlast]
      refine (maxEntry_spec h.config ?_).2.2 hne ?_
      · rw [← b3]; exact minSpeed_pos.le.trans s.slow
      · rw [← hlast]; unfold minSpeed at hxs; linarith
    · intro b hb
      rw [List.getLast?_append_of_ne_nil _ (by simp)] at hb
      simp only [List.getLast?_singleton, Option.some.injEq] at hb
      rw [← hb, b3]

end Verif.Time
