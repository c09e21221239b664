import Verif.Cooling.ForceLemmas

/-! # C57: minimum layer time, C58: fan speed, C59: back-pressure compensation

A layer is a list of plans, one per extruder. `pl` is the last plan of the highest extruder, which is the one that
is slowed down. `t` is the minimum layer time that applies, `s` the slowest speed at which `pl` extrudes. -/

namespace Verif.Cooling

theorem ready_same (pl : Plan) : pl.Same (ready pl) := by
  obtain ⟨h1, -, -, h4, -, h6⟩ := ready_fields pl
  refine ⟨h1, ?_, h4⟩
  rw [h6]
  generalize slowest pl.paths = s
  induction pl.paths with
  | nil => exact .nil
  | cons p l ih => exact .cons ⟨rfl, rfl, rfl, rfl⟩ ih

theorem ready_same_list (l : List Plan) : List.Forall₂ Plan.Same l (l.map ready) := by
  induction l with
  | nil => exact .nil
  | cons p l ih => exact .cons (ready_same p) ih

theorem extrusionTime_pos {pl : Plan} (h : pl.Fresh) (hE : 0 < pl.extrusion) : 0 < pl.extrusionTime := by
  have key : ∀ l : List Path, (∀ p ∈ l, p.Fresh) →
      0 < (l.map fun p => if p.width = 0 then 0 else p.lens.sum).sum →
      0 < (l.map fun p => if p.width = 0 then 0 else p.time).sum := by
    intro l hl hpos
    have hnn : ∀ l : List Path, (∀ p ∈ l, p.Fresh) →
        0 ≤ (l.map fun p => if p.width = 0 then 0 else p.time).sum := by
      intro l hl
      apply List.sum_nonneg
      intro x hx
      obtain ⟨p, hp, rfl⟩ := List.mem_map.1 hx
      split
      · exact le_rfl
      · exact (hl p hp).time_nonneg
    induction l with
    | nil => simp at hpos
    | cons p l ih =>
      simp only [List.map_cons, List.sum_cons] at hpos ⊢
      have hp := hl p (by simp)
      have hrest := hnn l fun q hq => hl q (by simp [hq])
      by_cases hw : p.width = 0
      · simp only [hw, if_true, zero_add] at hpos ⊢
        exact ih (fun q hq => hl q (by simp [hq])) hpos
      · simp only [hw, if_false] at hpos ⊢
        by_cases h0 : 0 < p.lens.sum
        · have : 0 < p.time := by rw [Path.time_eq]; exact div_pos h0 hp.v_pos
          linarith
        · have hz : p.lens.sum = 0 := le_antisymm (not_lt.1 h0) hp.len_nonneg
          rw [hz, zero_add] at hpos
          have := ih (fun q hq => hl q (by simp [hq])) hpos
          have := hp.time_nonneg
          linarith
  exact key pl.paths h.paths hE

theorem slowed_paths {pl : Plan} (f : Path → ℚ) (ok : ℚ → ℚ → Prop)
    (h : ∀ p ∈ (ready pl).paths, p.width ≠ 0 → ok p.v (p.v * f p)) :
    List.Forall₂ (Path.Slowed ok) pl.paths ((ready pl).paths.map (slowDown f)) := by
  rw [(ready_fields pl).2.2.2.2.2] at h ⊢
  generalize slowest pl.paths = s at *
  generalize pl.paths = l at *
  induction l with
  | nil => exact .nil
  | cons p l ih =>
    refine .cons ?_ (ih fun q hq => h q (by simp only [List.map_cons, List.mem_cons]; exact Or.inr hq))
    have hp := h (naivePath pl s p) (by simp)
    obtain ⟨h1, h2, h3, h4, h5⟩ := slowDown_fields f (naivePath pl s p)
    have hv := slowDown_v f (naivePath pl s p)
    refine ⟨h1, h2, h3, fun hw => ?_, fun hw => ?_⟩
    · rw [if_pos (show (naivePath pl s p).width = 0 from hw)] at hv; exact hv
    · rw [if_neg (show ¬ (naivePath pl s p).width = 0 from hw)] at hv
      have := hp hw
      rw [← hv] at this
      exact this

theorem toMinimum_extra {pl : Plan} (h : pl.Fresh) (t a : ℚ) :
    (toMinimum t a (ready pl)).extra = if t - a - pl.travelTime > eps then t - a - pl.travelTime else 0 := by
  unfold toMinimum
  dsimp only
  rw [(ready_spec pl h).2.1, (ready_fields pl).2.2.2.1, h.extra]

section

variable {oh : Int} {pre post : List Plan} {pl : Plan} {t s : ℚ} {r : List Plan × Bool}

/-- What the theorems below assume of a layer: it consists of the plans `pre`, `pl` and `post`; `pl` is the last
plan of the highest extruder; `t` is the minimum layer time; `s` is the slowest extrusion speed of `pl`; and `r` is
the result of processing the layer. -/
structure Layer (oh : Int) (pre post : List Plan) (pl : Plan) (t s : ℚ) (r : List Plan × Bool) : Prop where
  fresh : ∀ q ∈ pre ++ pl :: post, q.Fresh
  before : ∀ q ∈ pre, q.ext ≤ pl.ext
  after : ∀ q ∈ post, q.ext < pl.ext
  minTime : MinTime oh (pre ++ pl :: post) t
  slowest : pl.Slowest s
  extrudes : 0 < pl.extrusion
  result : process oh (pre ++ pl :: post) = .ok r

theorem Layer.pl_fresh (h : Layer oh pre post pl t s r) : pl.Fresh := h.fresh pl (by simp)

theorem Layer.eq (h : Layer oh pre post pl t s r) :
    r = (pre.map ready ++ fanMinimal t (othersTime pl.ext (pre ++ pl :: post))
        (force t (othersTime pl.ext (pre ++ pl :: post)) (ready pl)).1 :: post.map ready,
      (force t (othersTime pl.ext (pre ++ pl :: post)) (ready pl)).2) := by
  have := h.result
  rw [process_spec oh h.before h.after] at this
  dsimp only at this
  rw [maxMinTime_eq h.minTime h.fresh, otherTime_eq _ _ h.fresh] at this
  exact (Outcome.ok.inj this).symm

theorem others_split (pre post : List Plan) (pl : Plan) : othersTime pl.ext (pre ++ pl :: post)
    = othersTime pl.ext pre + othersTime pl.ext post := by
  unfold othersTime; simp

theorem Layer.others_le (h : Layer oh pre post pl t s r) :
    othersTime pl.ext (pre ++ pl :: post) ≤ layerTime pre + layerTime post := by
  rw [others_split]
  exact add_le_add (other_le _ _ fun q hq => h.fresh q (by simp [hq]))
    (other_le _ _ fun q hq => h.fresh q (by simp [hq]))

theorem Layer.others_eq (h : Layer oh pre post pl t s r) (hd : ∀ q ∈ pre, q.ext ≠ pl.ext) :
    othersTime pl.ext (pre ++ pl :: post) = layerTime pre + layerTime post := by
  rw [others_split]
  unfold othersTime
  rw [other_eq _ _ hd, other_eq _ _ fun q hq => (h.after q hq).ne]

/-- **C57**: processing a layer is defined exactly if the layer has plans. -/
theorem C57_defined (oh : Int) (plans : List Plan) :
    (∃ r, process oh plans = .ok r) ↔ plans ≠ [] := by
  constructor
  · rintro ⟨r, hr⟩ rfl
    simp [process, lastIdx] at hr
  · intro h
    obtain ⟨pre, pl, post, rfl, h1, h2⟩ := exists_last plans h
    exact ⟨_, process_spec oh h1 h2⟩

/-- **C57**: the plans of a layer keep their place; all but one are left alone; of that one the moves stay the same,
travels keep their speed, and no extrusion gets faster. -/
theorem C57_moves (h : Layer oh pre post pl t s r) :
    ∃ pre' x post', r.1 = pre' ++ x :: post' ∧ List.Forall₂ Plan.Same pre pre' ∧
      List.Forall₂ Plan.Same post post' ∧ x.ext = pl.ext ∧
      List.Forall₂ (Path.Slowed fun before after => after ≤ before) pl.paths x.paths := by
  rw [h.eq]
  refine ⟨_, _, _, rfl, ready_same_list pre, ready_same_list post, ?_, ?_⟩
  · show (force _ _ (ready pl)).1.ext = _
    rw [← (ready_fields pl).1]
    unfold force
    dsimp only
    split
    · split
      · rfl
      · split <;> rfl
    · rfl
  · show List.Forall₂ _ _ (force _ _ (ready pl)).1.paths
    have hf := ready_paths_fresh h.pl_fresh
    have key : ∀ f : Path → ℚ, (∀ p, f p ≤ 1) →
        List.Forall₂ (Path.Slowed fun before after => after ≤ before) pl.paths
          ((ready pl).paths.map (slowDown f)) := by
      intro f hf1
      apply slowed_paths
      intro p hp _
      have := mul_le_mul_of_nonneg_left (hf1 p) (hf p hp).1.le
      linarith
    unfold force
    dsimp only
    split
    · split
      · exact key _ fun p => min_le_right _ _
      · split
        · exact key _ fun p => min_le_right _ _
        · exact key _ fun p => min_le_right _ _
    · have hs := (ready_same pl).paths
      refine List.Forall₂.imp ?_ hs
      intro p q hpq
      exact ⟨hpq.width, hpq.lens, hpq.retract, fun _ => hpq.speed, fun _ => le_of_eq hpq.speed⟩

/-- **C57**: a layer that takes long enough is left alone. -/
theorem C57_enough (h : Layer oh pre post pl t s r)
    (hlong : t - 1 / 100 ≤ othersTime pl.ext (pre ++ pl :: post) + pl.time) :
    r.2 = false ∧ List.Forall₂ Plan.Same (pre ++ pl :: post) r.1 := by
  have hc := (force_cases h.pl_fresh h.slowest t (othersTime pl.ext (pre ++ pl :: post))).1
    (by rintro ⟨h1, -⟩; unfold eps at h1; linarith)
  rw [h.eq, hc]
  refine ⟨rfl, ?_⟩
  have hx : pl.Same (fanMinimal t (othersTime pl.ext (pre ++ pl :: post)) (ready pl)) :=
    ⟨(ready_same pl).ext, (ready_same pl).paths, (ready_same pl).extra⟩
  have h1 := ready_same_list pre
  have h2 := ready_same_list post
  show List.Forall₂ _ _ (pre.map ready ++ _)
  generalize fanMinimal t (othersTime pl.ext (pre ++ pl :: post)) (ready pl) = x at hx
  clear h hc hlong
  generalize pre.map ready = pre' at h1
  induction h1 with
  | nil => exact .cons hx h2
  | cons a _ ih => exact .cons a ih

/-- **C57** (part): a layer that would be too short even if everything of `pl` were printed at its slowest speed
takes, with the wait, at least the minimum layer time (less 0.01 s). Missing: layers for which the slowest speed
suffices (see `C57_short_counterexample`), and layers whose times at the slowest and at the minimum speed differ by
less than 0.01 s. -/
theorem C57_reached_partial (h : Layer oh pre post pl t s r)
    (hslow : othersTime pl.ext (pre ++ pl :: post) + pl.travelTime + pl.extrusion / s ≤ t)
    (hgap : othersTime pl.ext (pre ++ pl :: post) + pl.travelTime + pl.extrusion / pl.settings.minSpeed ≤ t ∨
      pl.extrusion / s + 1 / 100 ≤ pl.extrusion / pl.settings.minSpeed) :
    t - 1 / 100 ≤ layerTime r.1 + layerWait r.1 := by
  have hfr := h.pl_fresh
  have hO := h.others_le
  have hcases := force_cases hfr h.slowest t (othersTime pl.ext (pre ++ pl :: post))
  have hT := extrusionTime_pos hfr h.extrudes
  have hm := hfr.minSpeed
  rw [h.eq]
  dsimp only
  rw [layerTime_split, layerWait_split _ _ _ (fun q hq => h.fresh q (by simp [hq]))
    (fun q hq => h.fresh q (by simp [hq]))]
  generalize othersTime pl.ext (pre ++ pl :: post) = o at *
  obtain ⟨c0, c1⟩ := hcases
  by_cases hshort : pl.time + o < t - eps
  · obtain ⟨c1, c2, -⟩ := c1 hshort hT
    by_cases hmin : pl.extrusion / pl.settings.minSpeed ≤ t - (pl.travelTime + o)
    · rw [c1 hmin]
      dsimp only
      have htime : (fanMinimal t o (toMinimum t (pl.extrusion / pl.settings.minSpeed) (ready pl))).time
          = (toMinimum t (pl.extrusion / pl.settings.minSpeed) (ready pl)).time := rfl
      have hge : pl.extrusion / pl.settings.minSpeed + pl.travelTime
          ≤ (toMinimum t (pl.extrusion / pl.settings.minSpeed) (ready pl)).time := by
        rw [toMinimum_time hfr, ← ready_len]
        apply add_le_add_left
        apply timeAt_ge _ (ready_paths_fresh hfr)
        intro p hp hw
        exact ⟨lt_min hm (ready_paths_fresh hfr p hp).1, min_le_left _ _⟩
      have hextra : t - pl.extrusion / pl.settings.minSpeed - pl.travelTime - eps
          ≤ (fanMinimal t o (toMinimum t (pl.extrusion / pl.settings.minSpeed) (ready pl))).extra := by
        show _ ≤ (toMinimum t (pl.extrusion / pl.settings.minSpeed) (ready pl)).extra
        rw [toMinimum_extra hfr]
        unfold eps
        split
        · linarith
        · linarith
      have o0 : 0 ≤ layerTime pre + layerTime post := by
        apply add_nonneg <;>
        · apply List.sum_nonneg
          intro x hx
          obtain ⟨q, hq, rfl⟩ := List.mem_map.1 hx
          exact (h.fresh q (by simp [hq])).time_nonneg
      rw [htime]
      unfold eps at hextra
      linarith
    · have hlt := not_le.1 hmin
      have hsl : pl.extrusion / s ≤ t - (pl.travelTime + o) := by linarith
      have hg : eps ≤ |pl.extrusion / pl.settings.minSpeed - pl.extrusion / s| := by
        rcases hgap with hg | hg
        · exfalso; linarith
        · refine le_trans ?_ (le_abs_self _)
          unfold eps; linarith
      rw [c2 hlt hsl hg]
      dsimp only
      have htime : (fanMinimal t o (toCommon (t - (pl.travelTime + o))
          (pl.extrusion / pl.settings.minSpeed) (pl.extrusion / s) (ready pl))).time
          = t - (pl.travelTime + o) + pl.travelTime := toCommon_time hfr h.slowest h.extrudes hsl hlt
      have hextra : (fanMinimal t o (toCommon (t - (pl.travelTime + o))
          (pl.extrusion / pl.settings.minSpeed) (pl.extrusion / s) (ready pl))).extra = 0 := by
        show (ready pl).extra = 0
        rw [(ready_fields pl).2.2.2.1, hfr.extra]
      rw [htime, hextra]
      linarith
  · rw [c0 fun hc => hshort hc.1]
    dsimp only
    have htime : (fanMinimal t o (ready pl)).time = pl.time := ready_time pl
    have hextra : (fanMinimal t o (ready pl)).extra = 0 := by
      show (ready pl).extra = 0
      rw [(ready_fields pl).2.2.2.1, hfr.extra]
    rw [htime, hextra]
    unfold eps at hshort
    linarith

/-- **C57** (part): if no extrusion is planned below the minimum speed, none is slowed below it and none gets
faster. Missing: layers with slower extrusions (see `C57_below_minimum_counterexample`), and layers whose times at
the slowest and at the minimum speed differ by less than 0.01 s (see `C57_negative_speed_counterexample`). -/
theorem C57_speeds_partial (h : Layer oh pre post pl t s r) (hm : pl.settings.minSpeed ≤ s)
    (hgap : othersTime pl.ext (pre ++ pl :: post) + pl.travelTime + pl.extrusion / pl.settings.minSpeed ≤ t ∨
      t < othersTime pl.ext (pre ++ pl :: post) + pl.travelTime + pl.extrusion / s ∨
      pl.extrusion / s + 1 / 100 ≤ pl.extrusion / pl.settings.minSpeed) :
    ∃ pre' x post', r.1 = pre' ++ x :: post' ∧ pre'.length = pre.length ∧
      List.Forall₂ (Path.Slowed fun before after => pl.settings.minSpeed ≤ after ∧ after ≤ before)
        pl.paths x.paths := by
  have hfr := h.pl_fresh
  have hcases := force_cases hfr h.slowest t (othersTime pl.ext (pre ++ pl :: post))
  have hT := extrusionTime_pos hfr h.extrudes
  rw [h.eq]
  refine ⟨_, _, _, rfl, by simp, ?_⟩
  show List.Forall₂ _ _ (force _ _ (ready pl)).1.paths
  generalize othersTime pl.ext (pre ++ pl :: post) = o at *
  obtain ⟨c0, c1⟩ := hcases
  have hsv := ready_slowest h.slowest
  have hpos := ready_paths_fresh hfr
  by_cases hshort : pl.time + o < t - eps
  · obtain ⟨c1, c2, c3⟩ := c1 hshort hT
    by_cases hmin : pl.extrusion / pl.settings.minSpeed ≤ t - (pl.travelTime + o)
    · rw [c1 hmin]
      apply slowed_paths
      intro p hp hw
      rw [(ready_fields pl).2.1, toMinimum_v hfr p hp, min_eq_left (hm.trans (hsv p hp hw))]
      exact ⟨le_rfl, hm.trans (hsv p hp hw)⟩
    · have hlt := not_le.1 hmin
      by_cases hsl : pl.extrusion / s ≤ t - (pl.travelTime + o)
      · have hg : eps ≤ |pl.extrusion / pl.settings.minSpeed - pl.extrusion / s| := by
          rcases hgap with hg | hg | hg
          · exfalso; linarith
          · exfalso; linarith
          · refine le_trans ?_ (le_abs_self _)
            unfold eps; linarith
        rw [c2 hlt hsl hg]
        obtain ⟨h1, h2, h3⟩ := toCommon_v hfr h.slowest h.extrudes hsl hlt
        apply slowed_paths
        intro p hp hw
        rw [h3 p hp hw]
        exact ⟨h1.le, h2.trans (hsv p hp hw)⟩
      · rw [c3 hlt fun hc => hsl hc.1]
        have hsl := not_le.1 hsl
        have hTn : pl.extrusionTime < t - (pl.travelTime + o) := by
          rw [Plan.time_eq] at hshort; unfold eps at hshort; linarith
        have hv := toSlowest_v hfr h.slowest hT hTn hsl
        apply slowed_paths
        intro p hp hw
        refine ⟨hm.trans (hv p hp hw).2, ?_⟩
        have hle : ∀ x, p.v * between (ready pl).slowest x p ≤ p.v := by
          intro x
          rw [between_v (hpos p hp).1]; exact min_le_right _ _
        exact hle _
  · rw [c0 fun hc => hshort hc.1]
    refine List.Forall₂.imp ?_ ?_ (R := fun p q => p.Same q ∧ (p.width ≠ 0 → s ≤ p.speed * p.factor))
    · intro p q hpq
      exact ⟨hpq.1.width, hpq.1.lens, hpq.1.retract, fun _ => hpq.1.speed,
        fun hw => by rw [hpq.1.speed]; exact ⟨hm.trans (hpq.2 hw), le_rfl⟩⟩
    · have h1 := (ready_same pl).paths
      have h2 := h.slowest.2
      generalize (ready pl).paths = l' at h1
      generalize pl.paths = l at h1 h2
      induction h1 with
      | nil => exact .nil
      | cons a _ ih => exact .cons ⟨a, h2 _ (by simp)⟩ (ih fun p hp => h2 p (by simp [hp]))

/-- **C57** (part): slowing down does not make the layer longer than the minimum layer time. The same exceptions as
in `C57_speeds_partial`; the wait is not counted (see `C57_wait_counterexample`). -/
theorem C57_not_longer_partial (h : Layer oh pre post pl t s r) (hd : ∀ q ∈ pre, q.ext ≠ pl.ext)
    (hm : pl.settings.minSpeed ≤ s)
    (hgap : othersTime pl.ext (pre ++ pl :: post) + pl.travelTime + pl.extrusion / pl.settings.minSpeed ≤ t ∨
      t < othersTime pl.ext (pre ++ pl :: post) + pl.travelTime + pl.extrusion / s ∨
      pl.extrusion / s + 1 / 100 ≤ pl.extrusion / pl.settings.minSpeed)
    (hr : r.2 = true) : layerTime r.1 ≤ t := by
  have hfr := h.pl_fresh
  have hO := h.others_eq hd
  have hcases := force_cases hfr h.slowest t (othersTime pl.ext (pre ++ pl :: post))
  have hT := extrusionTime_pos hfr h.extrudes
  rw [h.eq] at hr ⊢
  dsimp only at hr ⊢
  rw [layerTime_split]
  show layerTime pre + (force _ _ (ready pl)).1.time + layerTime post ≤ t
  generalize othersTime pl.ext (pre ++ pl :: post) = o at *
  obtain ⟨c0, c1⟩ := hcases
  have hsv := ready_slowest h.slowest
  have hpos := ready_paths_fresh hfr
  by_cases hshort : pl.time + o < t - eps
  · obtain ⟨c1, c2, c3⟩ := c1 hshort hT
    by_cases hmin : pl.extrusion / pl.settings.minSpeed ≤ t - (pl.travelTime + o)
    · rw [c1 hmin]
      dsimp only
      rw [toMinimum_time hfr]
      have : timeAt (fun p => min pl.settings.minSpeed p.v) (ready pl).paths
          ≤ pl.extrusion / pl.settings.minSpeed := by
        rw [← ready_len]
        apply time_le _ hpos hfr.minSpeed
        intro p hp hw
        rw [min_eq_left (hm.trans (hsv p hp hw))]
      linarith
    · have hlt := not_le.1 hmin
      by_cases hsl : pl.extrusion / s ≤ t - (pl.travelTime + o)
      · have hg : eps ≤ |pl.extrusion / pl.settings.minSpeed - pl.extrusion / s| := by
          rcases hgap with hg | hg | hg
          · exfalso; linarith
          · exfalso; linarith
          · refine le_trans ?_ (le_abs_self _)
            unfold eps; linarith
        rw [c2 hlt hsl hg]
        dsimp only
        rw [toCommon_time hfr h.slowest h.extrudes hsl hlt]
        linarith
      · rw [c3 hlt fun hc => hsl hc.1]
        have hsl := not_le.1 hsl
        have hTn : pl.extrusionTime < t - (pl.travelTime + o) := by
          rw [Plan.time_eq] at hshort; unfold eps at hshort; linarith
        have := toSlowest_time_le hfr h.slowest h.extrudes hT hTn hsl
        dsimp only
        linarith
  · rw [c0 fun hc => hshort hc.1] at hr
    exact absurd hr (by simp)

/-- **C57** (part): the code waits only when every extrusion has at most the minimum speed, and in a layer with one
plan only as long as needed. -/
theorem C57_wait_partial (h : Layer oh [] [] pl t s r) (hm : pl.settings.minSpeed ≤ s) (hw : 0 < layerWait r.1) :
    layerTime r.1 + layerWait r.1 = t ∧ ∃ x, r.1 = [x] ∧
      List.Forall₂ (Path.Slowed fun _ after => after = pl.settings.minSpeed) pl.paths x.paths := by
  have hfr := h.pl_fresh
  have hcases := force_cases hfr h.slowest t (othersTime pl.ext ([] ++ pl :: []))
  have hO := h.others_eq (by simp)
  have hT := extrusionTime_pos hfr h.extrudes
  have hsv := ready_slowest h.slowest
  have hpos := ready_paths_fresh hfr
  have hx0 : (ready pl).extra = 0 := by rw [(ready_fields pl).2.2.2.1, hfr.extra]
  have heq := h.eq
  rw [heq] at hw ⊢
  dsimp only at hw ⊢
  rw [layerWait_split _ _ _ (by simp) (by simp)] at hw ⊢
  rw [layerTime_split]
  have e0 : layerTime [] = 0 := rfl
  rw [e0, add_zero] at hO
  rw [e0]
  generalize othersTime pl.ext ([] ++ pl :: []) = o at *
  subst hO
  change 0 < (force t 0 (ready pl)).1.extra at hw
  show 0 + (force t 0 (ready pl)).1.time + 0 + (force t 0 (ready pl)).1.extra = t ∧ _
  obtain ⟨c0, c1⟩ := hcases
  by_cases hshort : pl.time + 0 < t - eps
  · obtain ⟨c1, c2, c3⟩ := c1 hshort hT
    by_cases hmin : pl.extrusion / pl.settings.minSpeed ≤ t - (pl.travelTime + 0)
    · rw [c1 hmin] at hw ⊢
      have hvmin : ∀ p ∈ (ready pl).paths, p.width ≠ 0 →
          min pl.settings.minSpeed p.v = pl.settings.minSpeed :=
        fun p hp hwd => min_eq_left (hm.trans (hsv p hp hwd))
      have htime : timeAt (fun p => min pl.settings.minSpeed p.v) (ready pl).paths
          = pl.extrusion / pl.settings.minSpeed := by
        rw [← ready_len]
        apply le_antisymm
        · exact time_le _ hpos hfr.minSpeed _ fun p hp hwd => (hvmin p hp hwd).ge
        · exact time_ge _ hpos _ fun p hp hwd => by rw [hvmin p hp hwd]; exact ⟨hfr.minSpeed, le_rfl⟩
      constructor
      · dsimp only at hw ⊢
        rw [toMinimum_time hfr, htime, toMinimum_extra hfr]
        rw [toMinimum_extra hfr] at hw
        split at hw
        · rename_i hc
          rw [if_pos hc]; ring
        · exact absurd hw (lt_irrefl _)
      · refine ⟨_, rfl, ?_⟩
        show List.Forall₂ _ _ (toMinimum t (pl.extrusion / pl.settings.minSpeed) (ready pl)).paths
        apply slowed_paths
        intro p hp hwd
        rw [(ready_fields pl).2.1, toMinimum_v hfr p hp, hvmin p hp hwd]
    · exfalso
      have hlt := not_le.1 hmin
      by_cases hc : pl.extrusion / s ≤ t - (pl.travelTime + 0) ∧
          eps ≤ |pl.extrusion / pl.settings.minSpeed - pl.extrusion / s|
      · rw [c2 hlt hc.1 hc.2] at hw
        change 0 < (ready pl).extra at hw
        rw [hx0] at hw; exact lt_irrefl _ hw
      · rw [c3 hlt hc] at hw
        change 0 < (ready pl).extra at hw
        rw [hx0] at hw; exact lt_irrefl _ hw
  · exfalso
    rw [c0 fun hc => hshort hc.1] at hw
    change 0 < (ready pl).extra at hw
    rw [hx0] at hw; exact lt_irrefl _ hw

end

end Verif.Cooling
