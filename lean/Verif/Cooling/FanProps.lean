import Verif.Cooling.Props

/-! # C58: fan speed, C59: back-pressure compensation -/

namespace Verif.Cooling

/-- The fan speed of the first layers, as the settings describe it: it rises linearly from the initial fan speed at
layer 0 to the regular one at the "regular fan speed at layer"; raft layers have the regular speed. -/
def Ramp (pl : Plan) (v : ℚ) : Prop :=
  (pl.raft = true ∨ pl.settings.fullLayer ≤ 0 ∨ pl.settings.fullLayer ≤ pl.layer → v = pl.settings.fanMin) ∧
  (pl.raft = false → 0 < pl.settings.fullLayer → pl.layer ≤ 0 → v = pl.settings.fan0) ∧
  (pl.raft = false → 0 ≤ pl.layer → pl.layer < pl.settings.fullLayer →
    (v - pl.settings.fan0) * pl.settings.fullLayer = (pl.settings.fanMin - pl.settings.fan0) * pl.layer)

theorem fanFirst_ramp (pl : Plan) : Ramp pl (fanFirst pl).fan := by
  unfold fanFirst
  dsimp only
  by_cases hc : pl.layer < pl.settings.fullLayer ∧ pl.settings.fullLayer > 0 ∧ pl.raft = false
  · rw [if_pos hc]
    obtain ⟨h1, h2, h3⟩ := hc
    refine ⟨?_, ?_, ?_⟩
    · rintro (h | h | h)
      · rw [h3] at h; exact absurd h (by simp)
      · omega
      · omega
    · intro _ _ h
      have : max 0 pl.layer = 0 := max_eq_left h
      simp [this]
    · intro _ h _
      have e : max 0 pl.layer = pl.layer := max_eq_right h
      have hq : (pl.settings.fullLayer : ℚ) ≠ 0 := by exact_mod_cast h2.ne'
      dsimp only
      rw [e]
      field_simp
      ring
  · rw [if_neg hc]
    refine ⟨fun _ => rfl, ?_, ?_⟩
    · intro h1 h2 h3
      exact absurd ⟨by omega, h2, h1⟩ hc
    · intro h1 h2 h3
      exact absurd ⟨h3, by omega, h1⟩ hc

theorem ready_ramp (pl : Plan) : Ramp pl (ready pl).fan := fanFirst_ramp (naive pl)

/-- The ramp determines the speed. -/
theorem ramp_unique {pl : Plan} {v w : ℚ} (hv : Ramp pl v) (hw : Ramp pl w) : v = w := by
  by_cases h : pl.raft = true ∨ pl.settings.fullLayer ≤ 0 ∨ pl.settings.fullLayer ≤ pl.layer
  · rw [hv.1 h, hw.1 h]
  · push Not at h
    obtain ⟨h1, h2, h3⟩ := h
    have h1 : pl.raft = false := by simpa using h1
    rcases le_total pl.layer 0 with h4 | h4
    · rw [hv.2.1 h1 h2 h4, hw.2.1 h1 h2 h4]
    · have e := (hv.2.2 h1 h4 h3).trans (hw.2.2 h1 h4 h3).symm
      have hq : (pl.settings.fullLayer : ℚ) ≠ 0 := by exact_mod_cast h2.ne'
      have := mul_right_cancel₀ hq e
      linarith

theorem lerp_range {a b t lo hi : ℚ} (ht0 : 0 ≤ t) (ht1 : t ≤ 1) (ha : lo ≤ a ∧ a ≤ hi) (hb : lo ≤ b ∧ b ≤ hi) :
    lo ≤ lerp a b t ∧ lerp a b t ≤ hi := by
  unfold lerp
  constructor <;> nlinarith [ha.1, ha.2, hb.1, hb.2]

theorem clamp01_range (x : ℚ) : 0 ≤ clamp01 x ∧ clamp01 x ≤ 1 := by
  unfold clamp01
  split
  · simp
  · split
    · simp
    · exact ⟨by linarith, by linarith⟩

theorem clamp01_of_le {x : ℚ} (h : x ≤ 0) : clamp01 x = 0 := by
  unfold clamp01
  split
  · rfl
  · have : x = 0 := by linarith
    simp [this]

theorem clamp01_of_ge {x : ℚ} (h : 1 ≤ x) : clamp01 x = 1 := by
  unfold clamp01
  rw [if_neg (by linarith)]
  split
  · rfl
  · linarith

theorem clamp01_of_mem {x : ℚ} (h0 : 0 ≤ x) (h : x ≤ 1) : clamp01 x = x := by
  unfold clamp01
  rw [if_neg (by linarith), if_neg (by linarith)]

theorem ramp_range {pl : Plan} {v lo hi : ℚ} (h : Ramp pl v)
    (h0 : lo ≤ pl.settings.fan0 ∧ pl.settings.fan0 ≤ hi) (h1 : lo ≤ pl.settings.fanMin ∧ pl.settings.fanMin ≤ hi) :
    lo ≤ v ∧ v ≤ hi := by
  by_cases hc : pl.raft = true ∨ pl.settings.fullLayer ≤ 0 ∨ pl.settings.fullLayer ≤ pl.layer
  · rw [h.1 hc]; exact h1
  · push Not at hc
    obtain ⟨c1, c2, c3⟩ := hc
    have c1 : pl.raft = false := by simpa using c1
    rcases le_total pl.layer 0 with h4 | h4
    · rw [h.2.1 c1 c2 h4]; exact h0
    · have e := h.2.2 c1 h4 c3
      have hq : (0 : ℚ) < pl.settings.fullLayer := by exact_mod_cast c2
      have hl0 : (0 : ℚ) ≤ pl.layer := by exact_mod_cast h4
      have hl1 : (pl.layer : ℚ) ≤ pl.settings.fullLayer := by exact_mod_cast c3.le
      constructor
      · by_contra hlt
        push Not at hlt
        nlinarith [h0.1, h0.2, h1.1, h1.2]
      · by_contra hlt
        push Not at hlt
        nlinarith [h0.1, h0.2, h1.1, h1.2]

/-- The fan speed of the plan for which the minimum layer time is applied. -/
theorem force_fan (t o : ℚ) (pl : Plan) :
    (force t o pl).1.fan = pl.fan ∧ (force t o pl).1.settings = pl.settings := by
  unfold force
  dsimp only
  split
  · split
    · exact ⟨rfl, rfl⟩
    · split <;> exact ⟨rfl, rfl⟩
  · exact ⟨rfl, rfl⟩

section

variable {oh : Int} {pre post : List Plan} {pl : Plan} {t s : ℚ} {r : List Plan × Bool}

/-- **C58**: the plans for which the minimum layer time is not applied have the fan speed of the ramp of the first
layers. -/
theorem C58_first_layers (h : Layer oh pre post pl t s r) :
    ∃ pre' x post', r.1 = pre' ++ x :: post' ∧
      List.Forall₂ (fun before after => Ramp before after.fan) pre pre' ∧
      List.Forall₂ (fun before after => Ramp before after.fan) post post' := by
  have aux : ∀ l : List Plan, List.Forall₂ (fun before after => Ramp before after.fan) l (l.map ready) := by
    intro l
    induction l with
    | nil => exact .nil
    | cons p l ih => exact .cons (ready_ramp p) ih
  rw [h.eq]
  exact ⟨_, _, _, rfl, aux pre, aux post⟩

/-- **C58**: in a layer that had to be slowed down the fan has its maximum speed, if the maximum is meant to be
reached at all (the threshold for the regular fan speed is longer than the minimum layer time). -/
theorem C58_slowed (h : Layer oh pre post pl t s r) (hth : t < pl.settings.fanTime) (hr : r.2 = true) :
    ∃ pre' x post', r.1 = pre' ++ x :: post' ∧ pre'.length = pre.length ∧ x.fan = pl.settings.fanMax := by
  have hfr := h.pl_fresh
  have hcases := force_cases hfr h.slowest t (othersTime pl.ext (pre ++ pl :: post))
  have hT := extrusionTime_pos hfr h.extrudes
  rw [h.eq] at hr ⊢
  refine ⟨_, _, _, rfl, by simp, ?_⟩
  dsimp only at hr
  generalize othersTime pl.ext (pre ++ pl :: post) = o at *
  obtain ⟨hfan, hset⟩ := force_fan t o (ready pl)
  have htot : (force t o (ready pl)).1.est.total + o ≤ t := by
    obtain ⟨c0, c1⟩ := hcases
    by_cases hshort : pl.time + o < t - eps
    · obtain ⟨c1, c2, c3⟩ := c1 hshort hT
      have htr := (ready_spec pl hfr).2.1
      unfold Est.travel at htr
      by_cases hmin : pl.extrusion / pl.settings.minSpeed ≤ t - (pl.travelTime + o)
      · rw [c1 hmin]
        show pl.extrusion / pl.settings.minSpeed + (ready pl).est.unretracted + (ready pl).est.retracted + o ≤ t
        linarith
      · have hlt := not_le.1 hmin
        by_cases hc : pl.extrusion / s ≤ t - (pl.travelTime + o) ∧
            eps ≤ |pl.extrusion / pl.settings.minSpeed - pl.extrusion / s|
        · rw [c2 hlt hc.1 hc.2]
          show t - (pl.travelTime + o) + (ready pl).est.unretracted + (ready pl).est.retracted + o ≤ t
          linarith
        · rw [c3 hlt hc]
          show t - (pl.travelTime + o) + (ready pl).est.unretracted + (ready pl).est.retracted + o ≤ t
          linarith
    · rw [c0 fun hc => hshort hc.1] at hr
      exact absurd hr (by simp)
  unfold fanMinimal
  dsimp only
  rw [hfan, hset, (ready_fields pl).2.1]
  have hdiff : 0 < pl.settings.fanTime - t := by linarith
  rw [max_eq_left hdiff.le, if_pos hdiff.ne', clamp01_of_le (div_nonpos_of_nonpos_of_nonneg (by linarith) hdiff.le)]
  unfold lerp
  ring

/-- **C58**: in a layer that was not slowed down the fan speed depends linearly on the time the layer takes: the
maximum speed at the minimum layer time and below, the speed of the first layers at the threshold and above. -/
theorem C58_interpolated (h : Layer oh pre post pl t s r) (hth : t < pl.settings.fanTime) (hr : r.2 = false) :
    ∃ pre' x post' ramp, r.1 = pre' ++ x :: post' ∧ pre'.length = pre.length ∧ Ramp pl ramp ∧
      (othersTime pl.ext (pre ++ pl :: post) + pl.time ≤ t → x.fan = pl.settings.fanMax) ∧
      (pl.settings.fanTime ≤ othersTime pl.ext (pre ++ pl :: post) + pl.time → x.fan = ramp) ∧
      (t ≤ othersTime pl.ext (pre ++ pl :: post) + pl.time →
        othersTime pl.ext (pre ++ pl :: post) + pl.time ≤ pl.settings.fanTime →
        (x.fan - pl.settings.fanMax) * (pl.settings.fanTime - t)
          = (ramp - pl.settings.fanMax) * (othersTime pl.ext (pre ++ pl :: post) + pl.time - t)) := by
  have hfr := h.pl_fresh
  have hcases := force_cases hfr h.slowest t (othersTime pl.ext (pre ++ pl :: post))
  have hT := extrusionTime_pos hfr h.extrudes
  rw [h.eq] at hr ⊢
  refine ⟨_, _, _, (ready pl).fan, rfl, by simp, ready_ramp pl, ?_⟩
  dsimp only at hr
  generalize othersTime pl.ext (pre ++ pl :: post) = o at *
  have hf : force t o (ready pl) = (ready pl, false) := by
    apply hcases.1
    rintro ⟨h1, h2⟩
    obtain ⟨c1, c2, c3⟩ := hcases.2 h1 h2
    by_cases hmin : pl.extrusion / pl.settings.minSpeed ≤ t - (pl.travelTime + o)
    · rw [c1 hmin] at hr; exact absurd hr (by simp)
    · have hlt := not_le.1 hmin
      by_cases hc : pl.extrusion / s ≤ t - (pl.travelTime + o) ∧
          eps ≤ |pl.extrusion / pl.settings.minSpeed - pl.extrusion / s|
      · rw [c2 hlt hc.1 hc.2] at hr; exact absurd hr (by simp)
      · rw [c3 hlt hc] at hr; exact absurd hr (by simp)
  rw [hf]
  unfold fanMinimal
  dsimp only
  rw [est_total pl hfr, (ready_fields pl).2.1, add_comm pl.time o]
  have hdiff : 0 < pl.settings.fanTime - t := by linarith
  rw [max_eq_left hdiff.le, if_pos hdiff.ne']
  unfold lerp
  refine ⟨fun hle => ?_, fun hge => ?_, fun h1 h2 => ?_⟩
  · rw [clamp01_of_le (div_nonpos_of_nonpos_of_nonneg (by linarith) hdiff.le)]; ring
  · rw [clamp01_of_ge (by rw [le_div_iff₀ hdiff]; linarith)]; ring
  · rw [clamp01_of_mem (div_nonneg (by linarith) hdiff.le) (by rw [div_le_iff₀ hdiff]; linarith)]
    field_simp
    ring

theorem fanMinimal_range (t o : ℚ) (pl : Plan) {lo hi : ℚ}
    (h1 : lo ≤ pl.settings.fanMax ∧ pl.settings.fanMax ≤ hi) (h2 : lo ≤ pl.fan ∧ pl.fan ≤ hi) :
    lo ≤ (fanMinimal t o pl).fan ∧ (fanMinimal t o pl).fan ≤ hi := by
  unfold fanMinimal
  dsimp only
  split
  · exact lerp_range (clamp01_range _).1 (clamp01_range _).2 h1 h2
  · exact lerp_range zero_le_one le_rfl h1 h2

/-- **C58**: if the configured fan speeds are between `lo` and `hi` (0 and 100), so are those of all plans. -/
theorem C58_range (oh : Int) (plans : List Plan) (r : List Plan × Bool) (hr : process oh plans = .ok r) (lo hi : ℚ)
    (hset : ∀ pl ∈ plans, (lo ≤ pl.settings.fan0 ∧ pl.settings.fan0 ≤ hi) ∧
      (lo ≤ pl.settings.fanMin ∧ pl.settings.fanMin ≤ hi) ∧
      (lo ≤ pl.settings.fanMax ∧ pl.settings.fanMax ≤ hi)) :
    ∀ pl ∈ r.1, lo ≤ pl.fan ∧ pl.fan ≤ hi := by
  have hne := (C57_defined oh plans).1 ⟨r, hr⟩
  obtain ⟨pre, pl, post, rfl, h1, h2⟩ := exists_last plans hne
  rw [process_spec oh h1 h2] at hr
  rw [← Outcome.ok.inj hr]
  have hready : ∀ q ∈ pre ++ pl :: post, lo ≤ (ready q).fan ∧ (ready q).fan ≤ hi := by
    intro q hq
    exact ramp_range (ready_ramp q) (hset q hq).1 (hset q hq).2.1
  intro x hx
  dsimp only at hx
  rcases List.mem_append.1 hx with hx | hx
  · obtain ⟨q, hq, rfl⟩ := List.mem_map.1 hx
    exact hready q (by simp [hq])
  · rcases List.mem_cons.1 hx with rfl | hx
    · apply fanMinimal_range
      · rw [(force_fan _ _ _).2, (ready_fields pl).2.1]; exact (hset pl (by simp)).2.2
      · rw [(force_fan _ _ _).1]; exact hready pl (by simp)
    · obtain ⟨q, hq, rfl⟩ := List.mem_map.1 hx
      exact hready q (by simp [hq])

end

/-- **C58**: the fan command before a path. An own fan speed from 0 to 100 wins; else that of the path's type, if it
has one; else that of the plan. A travel without own fan speed writes none. -/
theorem C58_command (pl : Plan) (p : Path) :
    (0 ≤ p.fan → p.fan ≤ 100 → fanCommand pl p = some p.fan) ∧
    (p.width ≠ 0 → (p.fan < 0 ∨ 100 < p.fan) → p.configFan ≠ -1 → fanCommand pl p = some p.configFan) ∧
    (p.width ≠ 0 → (p.fan < 0 ∨ 100 < p.fan) → p.configFan = -1 → fanCommand pl p = some pl.fan) ∧
    (p.width = 0 → p.fan < 0 → fanCommand pl p = none) := by
  have htr : p.travel = false ↔ p.width ≠ 0 := by
    rw [← Bool.not_eq_true]; exact not_congr (travel_iff p)
  refine ⟨fun h0 h1 => ?_, fun hw hf hc => ?_, fun hw hf hc => ?_, fun hw hf => ?_⟩
  · have e : p.getFan = p.fan := by unfold Path.getFan; rw [if_pos ⟨h0, h1⟩]
    unfold fanCommand
    rw [if_pos (Or.inr h0), e, if_pos (by linarith)]
  · have e : p.getFan = p.configFan := by
      unfold Path.getFan; rw [if_neg]; rintro ⟨a, b⟩; rcases hf with hf | hf <;> linarith
    unfold fanCommand
    rw [if_pos (Or.inl (htr.2 hw)), e, if_pos hc]
  · have e : p.getFan = p.configFan := by
      unfold Path.getFan; rw [if_neg]; rintro ⟨a, b⟩; rcases hf with hf | hf <;> linarith
    unfold fanCommand
    rw [if_pos (Or.inl (htr.2 hw)), e, if_neg (by simpa using hc)]
  · unfold fanCommand
    rw [if_neg]
    rintro (h | h)
    · exact (htr.1 h) hw
    · linarith

/-- **C59**: travels, bridges and paths without width are not compensated. -/
theorem C59_untouched (c : ℚ) (p : Path) (h : p.width ≤ 0 ∨ p.bridge = true ∨ p.widthFactor ≤ 0) :
    backPressure c p = p := by
  unfold backPressure
  rw [if_pos]
  rcases h with h | h | h
  · exact Or.inr (Or.inl (by exact_mod_cast h))
  · exact Or.inr (Or.inr (Or.inr h))
  · exact Or.inl h

/-- What the compensation does to the other paths. -/
theorem backPressure_eq (c : ℚ) (p : Path) (hw : 0 < p.width) (hb : p.bridge = false) (hf : 0 < p.widthFactor) :
    backPressure c p = { p with backPressure := max (1 / 1000) (1 + (1 / p.widthFactor - 1) * c) } := by
  have hq : (0 : ℚ) < p.width := by exact_mod_cast hw
  have ht : ¬ p.travel = true := fun h => by rw [travel_iff] at h; omega
  unfold backPressure
  rw [if_neg]
  · dsimp only
    have : (p.width : ℚ) / (p.widthFactor * p.width) = 1 / p.widthFactor := by field_simp
    rw [this]
  · rintro (h | h | h | h)
    · linarith
    · linarith
    · exact ht h
    · rw [hb] at h; exact absurd h (by simp)

/-- **C59**: without compensation the speed stays; with full compensation a line gets the speed at which the volume
extruded per second is the one of the nominal width; in between the speed lies between the two. The factor is never
below 1/1000. -/
theorem C59_factor (c : ℚ) (p : Path) (hw : 0 < p.width) (hb : p.bridge = false) (hf : 0 < p.widthFactor) :
    (c = 0 → (backPressure c p).backPressure = 1) ∧
    (c = 1 → p.widthFactor ≤ 1000 → (backPressure c p).backPressure * (p.widthFactor * p.width) = p.width) ∧
    (0 ≤ c → c ≤ 1 → p.widthFactor ≤ 1000 →
      min 1 (1 / p.widthFactor) ≤ (backPressure c p).backPressure ∧
      (backPressure c p).backPressure ≤ max 1 (1 / p.widthFactor)) ∧
    1 / 1000 ≤ (backPressure c p).backPressure := by
  have hq : (0 : ℚ) < p.width := by exact_mod_cast hw
  rw [backPressure_eq c p hw hb hf]
  dsimp only
  have hinv : p.widthFactor ≤ 1000 → (1 / 1000 : ℚ) ≤ 1 / p.widthFactor := fun h =>
    one_div_le_one_div_of_le hf h
  refine ⟨?_, ?_, ?_, le_max_left _ _⟩
  · rintro rfl
    norm_num
  · rintro rfl h
    have e : (1 : ℚ) + (1 / p.widthFactor - 1) * 1 = 1 / p.widthFactor := by ring
    rw [e, max_eq_right (hinv h)]
    field_simp
  · intro h0 h1 h
    have hi := hinv h
    have e1 : min 1 (1 / p.widthFactor) ≤ 1 + (1 / p.widthFactor - 1) * c := by
      rcases le_total 1 (1 / p.widthFactor) with hc | hc
      · rw [min_eq_left hc]; nlinarith
      · rw [min_eq_right hc]; nlinarith
    have e2 : 1 + (1 / p.widthFactor - 1) * c ≤ max 1 (1 / p.widthFactor) := by
      rcases le_total 1 (1 / p.widthFactor) with hc | hc
      · rw [max_eq_right hc]; nlinarith
      · rw [max_eq_left hc]; nlinarith
    refine ⟨e1.trans (le_max_right _ _), max_le ?_ e2⟩
    exact hi.trans (le_max_right _ _)

end Verif.Cooling
