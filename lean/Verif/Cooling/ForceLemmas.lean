import Verif.Cooling.Lemmas

/-! # The slowed plan and the whole layer -/

namespace Verif.Cooling

/-- The sum of the times of the extrusion moves at given speeds. -/
abbrev timeAt (w : Path → ℚ) (paths : List Path) : ℚ :=
  (paths.map fun p => if p.width = 0 then 0 else p.lens.sum / w p).sum

theorem ready_paths_fresh {pl : Plan} (h : pl.Fresh) :
    ∀ p ∈ (ready pl).paths, 0 < p.v ∧ 0 ≤ p.lens.sum := by
  rw [(ready_fields pl).2.2.2.2.2]
  intro p hp
  obtain ⟨q, hq, rfl⟩ := List.mem_map.1 hp
  exact ⟨(h.paths q hq).v_pos, (h.paths q hq).len_nonneg⟩

theorem ready_slowest {pl : Plan} {s : ℚ} (hs : pl.Slowest s) :
    ∀ p ∈ (ready pl).paths, p.width ≠ 0 → s ≤ p.v := by
  rw [(ready_fields pl).2.2.2.2.2]
  intro p hp hw
  obtain ⟨q, hq, rfl⟩ := List.mem_map.1 hp
  exact hs.2 q hq hw

theorem ready_len (pl : Plan) : len (ready pl).paths = pl.extrusion := by
  unfold len Plan.extrusion
  rw [(ready_fields pl).2.2.2.2.2, List.map_map]
  rfl

theorem ready_timeAt (pl : Plan) : timeAt Path.v (ready pl).paths = pl.extrusionTime := by
  unfold timeAt Plan.extrusionTime
  rw [(ready_fields pl).2.2.2.2.2, List.map_map]
  congr 1
  apply List.map_congr_left
  intro p _
  simp only [Function.comp]
  rw [(naivePath_fields pl _ p).2.2.1, Path.time_eq]
  rfl

theorem ready_travelTime (pl : Plan) : (ready pl).travelTime = pl.travelTime := by
  unfold Plan.travelTime
  rw [(ready_fields pl).2.2.2.2.2, (ready_fields pl).2.2.2.2.1, List.map_map]
  rfl

theorem Plan.Slowest.pos {pl : Plan} (h : pl.Fresh) {s : ℚ} (hs : pl.Slowest s) : 0 < s := by
  obtain ⟨⟨p, hp, -, rfl⟩, -⟩ := hs
  exact (h.paths p hp).v_pos

/-- What the branches have in common. -/
theorem time_of_slowed (f : Path → ℚ) (pl x : Plan) (hp : x.paths = pl.paths.map (slowDown f))
    (hr : x.retraction = pl.retraction) :
    x.time = timeAt (fun p => p.v * f p) pl.paths + pl.travelTime := by
  have e1 : x.extrusionTime = Plan.extrusionTime { pl with paths := pl.paths.map (slowDown f) } := by
    unfold Plan.extrusionTime; rw [hp]
  have e2 : x.travelTime = Plan.travelTime { pl with paths := pl.paths.map (slowDown f) } := by
    unfold Plan.travelTime; rw [hp, hr]
  rw [Plan.time_eq, e1, e2, slowed_extrusionTime, slowed_travelTime f pl]

theorem timeAt_congr (w w' : Path → ℚ) (paths : List Path) (h : ∀ p ∈ paths, w p = w' p) :
    timeAt w paths = timeAt w' paths := by
  unfold timeAt
  congr 1
  apply List.map_congr_left
  intro p hp
  simp only [h p hp]

/-- Which branch of `forceMinimalLayerTime` is taken, in terms of the times of the plan. -/
theorem force_cases {pl : Plan} (h : pl.Fresh) {s : ℚ} (hs : pl.Slowest s) (t o : ℚ) :
    let need := t - (pl.travelTime + o)
    let m := pl.settings.minSpeed
    (¬ (pl.time + o < t - eps ∧ 0 < pl.extrusionTime) → force t o (ready pl) = (ready pl, false)) ∧
    (pl.time + o < t - eps → 0 < pl.extrusionTime →
      (pl.extrusion / m ≤ need →
        force t o (ready pl) = (toMinimum t (pl.extrusion / m) (ready pl), true)) ∧
      (need < pl.extrusion / m → pl.extrusion / s ≤ need → eps ≤ |pl.extrusion / m - pl.extrusion / s| →
        force t o (ready pl) = (toCommon need (pl.extrusion / m) (pl.extrusion / s) (ready pl), true)) ∧
      (need < pl.extrusion / m → ¬ (pl.extrusion / s ≤ need ∧ eps ≤ |pl.extrusion / m - pl.extrusion / s|) →
        force t o (ready pl) = (toSlowest need (pl.extrusion / s) (ready pl), true))) := by
  obtain ⟨h1, h2, h3, h4⟩ := ready_spec pl h
  rw [slowest_eq h hs] at h4
  have htot : (ready pl).est.travel + (ready pl).est.extrude + o = pl.time + o := by
    rw [h1, h2, Plan.time_eq]; ring
  have hneed : t - ((ready pl).est.travel + (ready pl).est.extrude + o - (ready pl).est.extrude)
      = t - (pl.travelTime + o) := by rw [h2]; ring
  unfold force
  dsimp only
  rw [h3, h4, htot, ← hneed, htot, h1]
  refine ⟨fun hc => if_neg hc, fun hc1 hc2 => ?_⟩
  rw [if_pos ⟨hc1, hc2⟩]
  refine ⟨fun hm => if_pos hm, fun hm hsl he => ?_, fun hm hn => ?_⟩
  · rw [if_neg (not_le.2 hm), if_pos ⟨hsl, he⟩]
  · rw [if_neg (not_le.2 hm), if_neg hn]

theorem timeAt_ge (paths : List Path) (hp : ∀ p ∈ paths, 0 < p.v ∧ 0 ≤ p.lens.sum) {t : ℚ} (w : Path → ℚ)
    (hw : ∀ p ∈ paths, p.width ≠ 0 → 0 < w p ∧ w p ≤ t) : len paths / t ≤ timeAt w paths :=
  time_ge paths hp w hw

/-- First branch: every extrusion path has the minimum speed, or its own if that is lower. -/
theorem toMinimum_v {pl : Plan} (h : pl.Fresh) :
    ∀ p ∈ (ready pl).paths, p.v * towards pl.settings.minSpeed p = min pl.settings.minSpeed p.v :=
  fun p hp => towards_v (ready_paths_fresh h p hp).1 _

theorem toMinimum_time {pl : Plan} (h : pl.Fresh) (t a : ℚ) :
    (toMinimum t a (ready pl)).time
      = timeAt (fun p => min pl.settings.minSpeed p.v) (ready pl).paths + pl.travelTime := by
  rw [time_of_slowed (towards (ready pl).settings.minSpeed) (ready pl) (toMinimum t a (ready pl)) rfl rfl, ready_travelTime]
  congr 1
  apply timeAt_congr
  intro p hp
  rw [(ready_fields pl).2.1]
  exact toMinimum_v h p hp

/-- Second branch: every extrusion path has the speed that takes exactly the time needed. -/
theorem toCommon_v {pl : Plan} (h : pl.Fresh) {s : ℚ} (hs : pl.Slowest s) (hE : 0 < pl.extrusion) {need : ℚ}
    (h1 : pl.extrusion / s ≤ need) (h2 : need < pl.extrusion / pl.settings.minSpeed) :
    pl.settings.minSpeed < pl.extrusion / need ∧ pl.extrusion / need ≤ s ∧
    ∀ p ∈ (ready pl).paths, p.width ≠ 0 →
      p.v * towards ((ready pl).settings.minSpeed * (1 - (1 / (pl.extrusion / pl.settings.minSpeed) - 1 / need)
          / (1 / (pl.extrusion / pl.settings.minSpeed) - 1 / (pl.extrusion / s)))
        + (ready pl).slowest * ((1 / (pl.extrusion / pl.settings.minSpeed) - 1 / need)
          / (1 / (pl.extrusion / pl.settings.minSpeed) - 1 / (pl.extrusion / s)))) p
        = pl.extrusion / need := by
  have hs0 := hs.pos h
  have hm0 := h.minSpeed
  have hS : 0 < pl.extrusion / s := div_pos hE hs0
  have hn : 0 < need := lt_of_lt_of_le hS h1
  have hle : pl.extrusion / need ≤ s := by
    rw [div_le_iff₀ hn, mul_comm]; rwa [div_le_iff₀ hs0] at h1
  have hlt : pl.settings.minSpeed < pl.extrusion / need := by
    rw [lt_div_iff₀ hn, mul_comm]; rwa [lt_div_iff₀ hm0] at h2
  refine ⟨hlt, hle, fun p hp hw => ?_⟩
  rw [(ready_fields pl).2.1, (ready_fields pl).2.2.1, slowest_eq h hs,
    common_target hE hn (hlt.trans_le hle).ne, towards_v (ready_paths_fresh h p hp).1,
    min_eq_left (hle.trans (ready_slowest hs p hp hw))]

theorem toCommon_time {pl : Plan} (h : pl.Fresh) {s : ℚ} (hs : pl.Slowest s) (hE : 0 < pl.extrusion) {need : ℚ}
    (h1 : pl.extrusion / s ≤ need) (h2 : need < pl.extrusion / pl.settings.minSpeed) :
    (toCommon need (pl.extrusion / pl.settings.minSpeed) (pl.extrusion / s) (ready pl)).time
      = need + pl.travelTime := by
  obtain ⟨hlt, -, hv⟩ := toCommon_v h hs hE h1 h2
  have hn : 0 < need := lt_of_lt_of_le (div_pos hE (hs.pos h)) h1
  have ht0 : 0 < pl.extrusion / need := div_pos hE hn
  rw [time_of_slowed _ (ready pl)
    (toCommon need (pl.extrusion / pl.settings.minSpeed) (pl.extrusion / s) (ready pl)) rfl rfl, ready_travelTime]
  congr 1
  have hlen : len (ready pl).paths / (pl.extrusion / need) = need := by
    rw [ready_len]; field_simp
  have hp := ready_paths_fresh h
  apply le_antisymm
  · refine le_trans (time_le _ hp ht0 _ fun p hpm hw => ?_) (le_of_eq hlen)
    exact (hv p hpm hw).ge
  · conv_lhs => rw [← hlen]
    exact time_ge _ hp _ fun p hpm hw => by rw [hv p hpm hw]; exact ⟨ht0, le_rfl⟩

/-- Third branch, when the slowest speed would suffice: the speeds lie between the slowest and the path's own. -/
theorem toSlowest_v {pl : Plan} (h : pl.Fresh) {s : ℚ} (hs : pl.Slowest s) (hT : 0 < pl.extrusionTime)
    {need : ℚ} (h1 : pl.extrusionTime < need) (h2 : need < pl.extrusion / s) :
    ∀ p ∈ (ready pl).paths, p.width ≠ 0 →
      p.v * between (ready pl).slowest ((1 / (pl.extrusion / s) - 1 / need)
          / (1 / (pl.extrusion / s) - 1 / (ready pl).est.extrude)) p
        = s * (1 - (1 / (pl.extrusion / s) - 1 / need) / (1 / (pl.extrusion / s) - 1 / pl.extrusionTime))
          + p.v * ((1 / (pl.extrusion / s) - 1 / need) / (1 / (pl.extrusion / s) - 1 / pl.extrusionTime)) ∧
      s ≤ p.v * between (ready pl).slowest ((1 / (pl.extrusion / s) - 1 / need)
          / (1 / (pl.extrusion / s) - 1 / (ready pl).est.extrude)) p := by
  intro p hp hw
  obtain ⟨hf0, hf1⟩ := factor_range hT h1 h2
  have hsv := ready_slowest hs p hp hw
  rw [(ready_spec pl h).1, (ready_fields pl).2.2.1, slowest_eq h hs, between_v (ready_paths_fresh h p hp).1]
  generalize (1 / (pl.extrusion / s) - 1 / need) / (1 / (pl.extrusion / s) - 1 / pl.extrusionTime) = f at *
  have hle : s * (1 - f) + p.v * f ≤ p.v := by nlinarith
  rw [min_eq_left hle]
  exact ⟨rfl, by nlinarith⟩

theorem toSlowest_time_le {pl : Plan} (h : pl.Fresh) {s : ℚ} (hs : pl.Slowest s) (hE : 0 < pl.extrusion)
    (hT : 0 < pl.extrusionTime) {need : ℚ} (h1 : pl.extrusionTime < need) (h2 : need < pl.extrusion / s) :
    (toSlowest need (pl.extrusion / s) (ready pl)).time ≤ need + pl.travelTime := by
  have hv := toSlowest_v h hs hT h1 h2
  obtain ⟨hf0, hf1⟩ := factor_range hT h1 h2
  have hn : 0 < need := hT.trans h1
  rw [time_of_slowed _ (ready pl) (toSlowest need (pl.extrusion / s) (ready pl)) rfl rfl,
    ready_travelTime]
  apply add_le_add_left
  have hne : 1 / (pl.extrusion / s) - 1 / pl.extrusionTime ≠ 0 := by
    have := one_div_lt_one_div_of_lt hT (h1.trans h2)
    intro h0; linarith
  have hcon := between_need hE (hs.pos h) hT hn hne
  generalize hf : (1 / (pl.extrusion / s) - 1 / need) / (1 / (pl.extrusion / s) - 1 / pl.extrusionTime) = f at *
  have key := between_le (ready pl).paths (ready_paths_fresh h) (hs.pos h) hf0 hf1 hT
    (by rw [ready_len]; exact hE) (ready_timeAt pl).symm
  rw [ready_len, hcon] at key
  refine le_trans (le_of_eq ?_) key
  unfold timeAt
  congr 1
  apply List.map_congr_left
  intro p hp
  by_cases hw : p.width = 0
  · simp [hw]
  · simp only [hw, if_false]
    rw [(hv p hp hw).1]

/-! ## The layer -/

theorem lastExt_fold (l : List Plan) (a : Nat) :
    a ≤ l.foldl (fun n pl => max n pl.ext) a ∧ (∀ q ∈ l, q.ext ≤ l.foldl (fun n pl => max n pl.ext) a) ∧
      (l.foldl (fun n pl => max n pl.ext) a = a ∨ ∃ q ∈ l, q.ext = l.foldl (fun n pl => max n pl.ext) a) := by
  induction l generalizing a with
  | nil => simp
  | cons q l ih =>
    rw [List.foldl_cons]
    obtain ⟨h1, h2, h3⟩ := ih (max a q.ext)
    refine ⟨(le_max_left _ _).trans h1, ?_, ?_⟩
    · intro p hp
      rcases List.mem_cons.1 hp with rfl | hp
      · exact (le_max_right _ _).trans h1
      · exact h2 p hp
    · rcases h3 with h3 | ⟨p, hp, h3⟩
      · rw [h3]
        rcases le_total a q.ext with h | h
        · right; exact ⟨q, by simp, (max_eq_right h).symm⟩
        · left; exact max_eq_left h
      · exact Or.inr ⟨p, by simp [hp], h3⟩

theorem lastExt_eq {pre post : List Plan} {pl : Plan} (h1 : ∀ q ∈ pre, q.ext ≤ pl.ext)
    (h2 : ∀ q ∈ post, q.ext < pl.ext) : lastExt (pre ++ pl :: post) = pl.ext := by
  obtain ⟨-, h, h3⟩ := lastExt_fold (pre ++ pl :: post) 0
  apply le_antisymm
  · rcases h3 with h3 | ⟨q, hq, h3⟩
    · unfold lastExt; rw [h3]; exact Nat.zero_le _
    · unfold lastExt
      rw [← h3]
      rcases List.mem_append.1 hq with hq | hq
      · exact h1 q hq
      · rcases List.mem_cons.1 hq with rfl | hq
        · exact le_rfl
        · exact (h2 q hq).le
  · exact h pl (by simp)

theorem lastIdx_none (nr : Nat) (l : List Plan) (i : Nat) (r : Option Nat) (h : ∀ q ∈ l, q.ext ≠ nr) :
    lastIdx nr l i r = r := by
  induction l generalizing i with
  | nil => rfl
  | cons q l ih =>
    unfold lastIdx
    rw [if_neg (h q (by simp))]
    exact ih _ fun p hp => h p (by simp [hp])

theorem lastIdx_eq (nr : Nat) (pre post : List Plan) (pl : Plan) (i : Nat) (r : Option Nat) (h : pl.ext = nr)
    (h2 : ∀ q ∈ post, q.ext ≠ nr) : lastIdx nr (pre ++ pl :: post) i r = some (i + pre.length) := by
  induction pre generalizing i r with
  | nil =>
    simp only [List.nil_append, List.length_nil, Nat.add_zero]
    unfold lastIdx
    rw [if_pos h]
    exact lastIdx_none _ _ _ _ h2
  | cons q l ih =>
    simp only [List.cons_append, List.length_cons]
    unfold lastIdx
    rw [ih]
    congr 1
    omega

/-- The last plan of the highest extruder exists. -/
theorem exists_last (plans : List Plan) (h : plans ≠ []) :
    ∃ pre pl post, plans = pre ++ pl :: post ∧ (∀ q ∈ pre, q.ext ≤ pl.ext) ∧ ∀ q ∈ post, q.ext < pl.ext := by
  induction plans with
  | nil => exact absurd rfl h
  | cons q l ih =>
    by_cases hl : l = []
    · subst hl; exact ⟨[], q, [], rfl, by simp, by simp⟩
    · obtain ⟨pre, pl, post, rfl, h1, h2⟩ := ih hl
      by_cases hq : q.ext ≤ pl.ext
      · refine ⟨q :: pre, pl, post, rfl, ?_, h2⟩
        intro p hp
        rcases List.mem_cons.1 hp with rfl | hp
        · exact hq
        · exact h1 p hp
      · refine ⟨[], q, pre ++ pl :: post, rfl, by simp, ?_⟩
        intro p hp
        push Not at hq
        rcases List.mem_append.1 hp with hp | hp
        · exact lt_of_le_of_lt (h1 p hp) hq
        · rcases List.mem_cons.1 hp with rfl | hp
          · exact hq
          · exact (h2 p hp).trans hq

/-- The result of processing a layer. -/
theorem process_spec (oh : Int) {pre post : List Plan} {pl : Plan} (h1 : ∀ q ∈ pre, q.ext ≤ pl.ext)
    (h2 : ∀ q ∈ post, q.ext < pl.ext) :
    process oh (pre ++ pl :: post) =
      let t := maxMinTime oh ((pre ++ pl :: post).map ready)
      let o := otherTime pl.ext ((pre ++ pl :: post).map ready)
      .ok (pre.map ready ++ fanMinimal t o (force t o (ready pl)).1 :: post.map ready,
        (force t o (ready pl)).2) := by
  unfold process
  rw [lastExt_eq h1 h2]
  show (match lastIdx pl.ext ((pre ++ pl :: post).map ready) 0 none with
    | none => Outcome.ub
    | some i => _) = _
  have hidx : lastIdx pl.ext ((pre ++ pl :: post).map ready) 0 none = some pre.length := by
    rw [List.map_append, List.map_cons, lastIdx_eq _ _ _ _ _ _ (ready_fields pl).1]
    · simp
    · intro q hq
      obtain ⟨q', hq', rfl⟩ := List.mem_map.1 hq
      rw [(ready_fields q').1]
      exact (h2 q' hq').ne
  rw [hidx]
  dsimp only
  have hlook : ((pre ++ pl :: post).map ready)[pre.length]? = some (ready pl) := by simp
  have hind : Outcome.index ((pre ++ pl :: post).map ready) pre.length = .ok (ready pl) := by
    rw [Outcome.index_eq_ok]; exact hlook
  show (Outcome.index ((pre ++ pl :: post).map ready) pre.length >>= _) = _
  rw [hind, Outcome.bind_ok, Outcome.pure_eq]
  congr 2
  show ((pre ++ pl :: post).map ready).set pre.length _ = _
  rw [List.map_append, List.map_cons, List.set_append_right _ _ (by simp)]
  simp
  rfl

theorem maxMinTime_fold (oh : Int) (l : List Plan) (a : ℚ) :
    a ≤ l.foldl (fun t pl => max t (pl.minTime oh)) a ∧
      (∀ q ∈ l, q.minTime oh ≤ l.foldl (fun t pl => max t (pl.minTime oh)) a) ∧
      (l.foldl (fun t pl => max t (pl.minTime oh)) a = a ∨
        ∃ q ∈ l, q.minTime oh = l.foldl (fun t pl => max t (pl.minTime oh)) a) := by
  induction l generalizing a with
  | nil => simp
  | cons q l ih =>
    rw [List.foldl_cons]
    obtain ⟨h1, h2, h3⟩ := ih (max a (q.minTime oh))
    refine ⟨(le_max_left _ _).trans h1, ?_, ?_⟩
    · intro p hp
      rcases List.mem_cons.1 hp with rfl | hp
      · exact (le_max_right _ _).trans h1
      · exact h2 p hp
    · rcases h3 with h3 | ⟨p, hp, h3⟩
      · rw [h3]
        rcases le_total a (q.minTime oh) with h | h
        · right; exact ⟨q, by simp, (max_eq_right h).symm⟩
        · left; exact max_eq_left h
      · exact Or.inr ⟨p, by simp [hp], h3⟩

theorem minTime_spec (oh : Int) (pl : Plan) : (ready pl).minTime oh =
    if pl.settings.overhangLength < oh then pl.settings.minTimeOverhang else pl.settings.minTime := by
  unfold Plan.minTime
  rw [(ready_fields pl).2.1]

theorem maxMinTime_eq {oh : Int} {plans : List Plan} {t : ℚ} (ht : MinTime oh plans t)
    (hf : ∀ pl ∈ plans, pl.Fresh) : maxMinTime oh (plans.map ready) = t := by
  obtain ⟨h0, h1, h2⟩ := maxMinTime_fold oh (plans.map ready) 0
  obtain ⟨⟨pl, hpl, hte⟩, hmax⟩ := ht
  have ht0 : 0 ≤ t := by
    rw [hte]; split
    · exact (hf pl hpl).minTimeOverhang
    · exact (hf pl hpl).minTime
  apply le_antisymm
  · rcases h2 with h2 | ⟨q, hq, h2⟩
    · unfold maxMinTime; rw [h2]; exact ht0
    · unfold maxMinTime
      rw [← h2]
      obtain ⟨q', hq', rfl⟩ := List.mem_map.1 hq
      rw [minTime_spec]
      exact hmax q' hq'
  · rw [hte, ← minTime_spec]
    exact h1 _ (List.mem_map.2 ⟨pl, hpl, rfl⟩)

theorem est_total (pl : Plan) (h : pl.Fresh) : (ready pl).est.total = pl.time := by
  obtain ⟨h1, h2, -⟩ := ready_spec pl h
  rw [Plan.time_eq, ← h1, ← h2]
  unfold Est.total Est.travel
  ring

theorem otherTime_fold (nr : Nat) (l : List Plan) (a : ℚ) :
    l.foldl (fun t pl => if pl.ext = nr then t else t + pl.est.total) a
      = a + (l.map fun pl => if pl.ext = nr then 0 else pl.est.total).sum := by
  induction l generalizing a with
  | nil => simp
  | cons q l ih =>
    rw [List.foldl_cons, ih, List.map_cons, List.sum_cons]
    by_cases h : q.ext = nr <;> simp [h, add_assoc]

/-- The time the code adds up for the other plans: the plans with another extruder. -/
theorem otherTime_eq (nr : Nat) (plans : List Plan) (hf : ∀ pl ∈ plans, pl.Fresh) :
    otherTime nr (plans.map ready) = (plans.map fun pl => if pl.ext = nr then 0 else pl.time).sum := by
  unfold otherTime
  rw [otherTime_fold, zero_add, List.map_map]
  congr 1
  apply List.map_congr_left
  intro p hp
  simp only [Function.comp]
  rw [(ready_fields p).1, est_total p (hf p hp)]

theorem other_le (nr : Nat) (plans : List Plan) (hf : ∀ pl ∈ plans, pl.Fresh) :
    (plans.map fun pl => if pl.ext = nr then 0 else pl.time).sum ≤ layerTime plans := by
  unfold layerTime
  induction plans with
  | nil => simp
  | cons q l ih =>
    simp only [List.map_cons, List.sum_cons]
    refine add_le_add ?_ (ih fun p hp => hf p (by simp [hp]))
    split
    · exact (hf q (by simp)).time_nonneg
    · exact le_rfl

theorem other_eq (nr : Nat) (plans : List Plan) (hd : ∀ pl ∈ plans, pl.ext ≠ nr) :
    (plans.map fun pl => if pl.ext = nr then 0 else pl.time).sum = layerTime plans := by
  unfold layerTime
  congr 1
  apply List.map_congr_left
  intro p hp
  rw [if_neg (hd p hp)]

theorem otherTime_split {pre post : List Plan} {pl : Plan} (hf : ∀ q ∈ pre ++ pl :: post, q.Fresh) :
    otherTime pl.ext ((pre ++ pl :: post).map ready) =
      (pre.map fun q => if q.ext = pl.ext then 0 else q.time).sum
        + (post.map fun q => if q.ext = pl.ext then 0 else q.time).sum := by
  rw [otherTime_eq _ _ hf]
  simp

theorem layerTime_split (pre post : List Plan) (x : Plan) :
    layerTime (pre.map ready ++ x :: post.map ready) = layerTime pre + x.time + layerTime post := by
  unfold layerTime
  simp only [List.map_append, List.map_cons, List.sum_append, List.sum_cons, List.map_map]
  have : (Plan.time ∘ ready) = Plan.time := by funext pl; exact ready_time pl
  rw [this]
  ring

theorem layerWait_split (pre post : List Plan) (x : Plan) (h1 : ∀ q ∈ pre, q.Fresh) (h2 : ∀ q ∈ post, q.Fresh) :
    layerWait (pre.map ready ++ x :: post.map ready) = x.extra := by
  have aux : ∀ l : List Plan, (∀ q ∈ l, q.Fresh) → (l.map (Plan.extra ∘ ready)).sum = 0 := by
    intro l hl
    induction l with
    | nil => simp
    | cons q l ih =>
      simp only [List.map_cons, List.sum_cons, Function.comp]
      rw [(ready_fields q).2.2.2.1, (hl q (by simp)).extra, zero_add]
      exact ih fun p hp => hl p (by simp [hp])
  unfold layerWait
  simp only [List.map_append, List.map_cons, List.sum_append, List.sum_cons, List.map_map]
  rw [aux pre h1, aux post h2]
  ring

end Verif.Cooling
