import Verif.Ooze.AmountLemmas

/-! # How much is retracted and primed, and when (C102) -/

namespace Verif.Ooze

variable {travel zHop : ℚ} {retract prime : Half} {keep : Bool}

/-- The three cases of the calculation, with the part `k` of the expected durations that is left. -/
theorem amounts_cases (ht : 0 ≤ travel) (hz : 0 ≤ zHop) (hr : Valid retract) (hp : Valid prime) :
    (∃ k lessR lessP, 0 ≤ k ∧ k ≤ 1 ∧ k * (retract.duration zHop + prime.duration zHop) = travel ∧ travel < retract.duration zHop + prime.duration zHop ∧
      (lessR = 0 ∨ lessP = 0) ∧ 0 ≤ lessR ∧ 0 ≤ lessP ∧
      (prime.distance - (1 - k) * prime.during zHop - lessP) * retract.distance = (retract.distance - (1 - k) * retract.during zHop - lessR) * prime.distance ∧
      amounts travel zHop retract prime keep =
        (⟨retract.still - lessR, retract.still + retract.hop zHop - lessR, retract.still + retract.hop zHop - lessR + k * retract.during zHop,
          k * retract.during zHop, retract.speed⟩,
         ⟨prime.still - lessP, prime.still + prime.hop zHop - lessP, prime.still + prime.hop zHop - lessP + k * prime.during zHop,
          k * prime.during zHop, prime.speed⟩)) ∨
    (retract.duration zHop + prime.duration zHop ≤ travel ∧
      amounts travel zHop retract prime keep =
        (⟨retract.still, retract.still + retract.hop zHop, retract.distance, retract.during zHop,
          if keep = true ∧ retract.duration zHop + prime.duration zHop < travel then
            retract.during zHop / (travel - prime.duration zHop) else retract.speed⟩,
         ⟨prime.still, prime.still + prime.hop zHop, prime.distance, prime.during zHop, prime.speed⟩)) := by
  have hsr := Half.sum hr hz
  have hsp := Half.sum hp hz
  unfold amounts
  dsimp only
  by_cases hfree : travel - (retract.duration zHop + prime.duration zHop) < 0
  · left
    rw [if_pos hfree]
    have hdr := retract.duration_nonneg zHop
    have hdp := prime.duration_nonneg zHop
    have hd0 := hr.distance
    have hp0 := hp.distance
    have hE : 0 < retract.duration zHop + prime.duration zHop := by linarith
    generalize hEe : retract.duration zHop + prime.duration zHop = E at *
    have hk : ∀ x : ℚ, x - x * -((travel - E) / E) = travel / E * x := by
      intro x
      field_simp
      ring
    have hk' : ∀ x : ℚ, x * -((travel - E) / E) = (1 - travel / E) * x := by
      intro x
      field_simp
      ring
    have h0 : 0 ≤ travel / E := by positivity
    have h1 : travel / E ≤ 1 := by rw [div_le_one hE]; linarith
    simp only [hk, hk']
    generalize hkk : travel / E = k at *
    have hkE : k * E = travel := by rw [← hkk]; field_simp
    have hR := Half.during_nonneg hr zHop
    have hP := Half.during_nonneg hp zHop
    split
    · next hc =>
      refine ⟨k, retract.distance - (1 - k) * retract.during zHop - (prime.distance - (1 - k) * prime.during zHop) / (prime.distance / retract.distance), 0,
        h0, h1, hkE, by linarith, .inr rfl, ?_, le_refl _, ?_, ?_⟩
      · rw [sub_nonneg, div_div_eq_mul_div, div_le_iff₀ hp0]
        linarith
      · field_simp
        ring
      · congr 2 <;> ring
    · next hc =>
      split
      · next hc2 =>
        refine ⟨k, 0, prime.distance - (1 - k) * prime.during zHop - (retract.distance - (1 - k) * retract.during zHop) * (prime.distance / retract.distance),
          h0, h1, hkE, by linarith, .inl rfl, le_refl _, ?_, ?_, ?_⟩
        · rw [sub_nonneg, mul_div_assoc', div_le_iff₀ hd0]
          linarith
        · field_simp
          ring
        · congr 2 <;> ring
      · next hc2 =>
        refine ⟨k, 0, 0, h0, h1, hkE, by linarith, .inl rfl, le_refl _, le_refl _, ?_, ?_⟩
        · linarith
        · congr 2 <;> ring
  · right
    rw [if_neg hfree]
    refine ⟨by linarith, ?_⟩
    congr 2
    · by_cases hk : keep = true
      · by_cases hf : retract.duration zHop + prime.duration zHop < travel
        · simp only [hk, hf, true_and, if_true, Bool.true_and, sub_pos, decide_true]
          congr 1
          ring
        · simp only [hk, hf, true_and, Bool.true_and, sub_pos, decide_false, if_false, Bool.false_eq_true]
      · simp [hk]

/-- C102: retracting and priming fit into the travel one after the other. If the time does not suffice for what is to be processed during
the travel, they take all of it. -/
theorem C102_fits (ht : 0 ≤ travel) (hz : 0 ≤ zHop) (hr : Valid retract) (hp : Valid prime) :
    let a := amounts travel zHop retract prime keep
    0 ≤ a.1.duration ∧ 0 ≤ a.2.duration ∧ a.1.duration + a.2.duration ≤ travel ∧
    (travel < max 0 (retract.distance * retract.ratio / retract.speed - zHop) + max 0 (prime.distance * prime.ratio / prime.speed - zHop) →
      a.1.duration + a.2.duration = travel) := by
  have er : max 0 (retract.distance * retract.ratio / retract.speed - zHop) = retract.duration zHop := by
    unfold Half.duration
    rw [div_mul_eq_mul_div]
  have ep : max 0 (prime.distance * prime.ratio / prime.speed - zHop) = prime.duration zHop := by
    unfold Half.duration
    rw [div_mul_eq_mul_div]
  rw [er, ep]
  have hdr := retract.duration_nonneg zHop
  have hdp := prime.duration_nonneg zHop
  have hs := hr.speed
  have hps := hp.speed
  rcases amounts_cases (keep := keep) ht hz hr hp with ⟨k, lessR, lessP, h0, h1, hkE, hlt, -, -, -, -, e⟩ | ⟨hle, e⟩
  · rw [e]
    unfold Amounts.duration
    dsimp only
    rw [mul_div_assoc, mul_div_assoc, Half.during_div hr, Half.during_div hp]
    refine ⟨by positivity, by positivity, by linarith, fun _ => by linarith⟩
  · rw [e]
    unfold Amounts.duration
    dsimp only
    rw [Half.during_div hp]
    have hd : 0 ≤ retract.during zHop := Half.during_nonneg hr zHop
    split
    · next hk =>
      have hpos : 0 < travel - prime.duration zHop := by linarith
      by_cases h0 : retract.during zHop = 0
      · rw [h0, zero_div]
        exact ⟨le_refl _, hdp, by linarith, fun h => by linarith⟩
      · have : retract.during zHop / (retract.during zHop / (travel - prime.duration zHop)) = travel - prime.duration zHop := by
          field_simp
        rw [this]
        exact ⟨hpos.le, hdp, by linarith, fun h => by linarith⟩
    · rw [Half.during_div hr]
      exact ⟨hdr, hdp, by linarith, fun h => by linarith⟩

/-- C102: if there is enough time, everything is retracted and primed, the given part of it while the nozzle stands still, and at most at the
given speed; and if the retraction is to be kept up, it ends when priming begins (if there is anything left for it), otherwise it has the
given speed. -/
theorem C102_whole (ht : 0 ≤ travel) (hz : 0 ≤ zHop) (hr : Valid retract) (hp : Valid prime)
    (h : max 0 (retract.distance * retract.ratio / retract.speed - zHop) + max 0 (prime.distance * prime.ratio / prime.speed - zHop) ≤ travel) :
    let a := amounts travel zHop retract prime keep
    a.1.travel = retract.distance ∧ a.1.still = (1 - retract.ratio) * retract.distance ∧ a.2.travel = prime.distance ∧
    a.2.still = (1 - prime.ratio) * prime.distance ∧
    (keep = true → a.1.zHop < a.1.travel → a.1.duration + a.2.duration = travel) ∧ (keep = false → a.1.speed = retract.speed) := by
  have er : max 0 (retract.distance * retract.ratio / retract.speed - zHop) = retract.duration zHop := by
    unfold Half.duration
    rw [div_mul_eq_mul_div]
  have ep : max 0 (prime.distance * prime.ratio / prime.speed - zHop) = prime.duration zHop := by
    unfold Half.duration
    rw [div_mul_eq_mul_div]
  rw [er, ep] at h
  rcases amounts_cases (keep := keep) ht hz hr hp with ⟨k, lessR, lessP, h0, h1, hkE, hlt, -, -, -, -, e⟩ | ⟨hle, e⟩
  · exact absurd hlt (not_lt.2 h)
  · rw [e]
    dsimp only
    have hsum := Half.sum hr hz
    refine ⟨rfl, by unfold Half.still; ring, rfl, by unfold Half.still; ring, ?_, fun hk => by simp [hk]⟩
    intro hk hlt
    unfold Amounts.duration
    dsimp only
    rw [Half.during_div hp]
    have hd : retract.during zHop ≠ 0 := by
      intro h0
      rw [h0] at hsum
      linarith
    by_cases hf : retract.duration zHop + prime.duration zHop < travel
    · rw [if_pos ⟨hk, hf⟩]
      have hdr := retract.duration_nonneg zHop
      have hpos : travel - prime.duration zHop ≠ 0 := by
        intro h0
        linarith
      field_simp
      ring
    · rw [if_neg (fun h => hf h.2), Half.during_div hr]
      linarith

/-- C102: however short the travel, the amount primed is to the amount retracted as the settings say. -/
theorem C102_proportion (ht : 0 ≤ travel) (hz : 0 ≤ zHop) (hr : Valid retract) (hp : Valid prime) :
    let a := amounts travel zHop retract prime keep
    a.2.travel * retract.distance = a.1.travel * prime.distance := by
  have hsr := Half.sum hr hz
  have hsp := Half.sum hp hz
  rcases amounts_cases (keep := keep) ht hz hr hp with ⟨k, lessR, lessP, h0, h1, hkE, hlt, -, -, -, hprop, e⟩ | ⟨hle, e⟩
  · rw [e]
    dsimp only
    have e1 : prime.still + prime.hop zHop - lessP + k * prime.during zHop = prime.distance - (1 - k) * prime.during zHop - lessP := by
      linear_combination hsp
    have e2 : retract.still + retract.hop zHop - lessR + k * retract.during zHop = retract.distance - (1 - k) * retract.during zHop - lessR := by
      linear_combination hsr
    rw [e1, e2]
    exact hprop
  · rw [e]
    ring

/-- C102: the amounts rise from one phase to the next and never exceed the settings; what is processed during the travel is the rest, at no
more than the given speed. -/
theorem C102_order (ht : 0 ≤ travel) (hz : 0 ≤ zHop) (hr : Valid retract) (hp : Valid prime) :
    let a := amounts travel zHop retract prime keep
    (a.1.still ≤ a.1.zHop ∧ 0 ≤ a.1.zHop ∧ a.1.zHop ≤ a.1.travel ∧ a.1.travel ≤ retract.distance ∧ a.1.duration * a.1.speed = a.1.travel - a.1.zHop ∧
      a.1.speed ≤ retract.speed) ∧
    (a.2.still ≤ a.2.zHop ∧ 0 ≤ a.2.zHop ∧ a.2.zHop ≤ a.2.travel ∧ a.2.travel ≤ prime.distance ∧ a.2.duration * a.2.speed = a.2.travel - a.2.zHop ∧
      a.2.speed = prime.speed) := by
  have hsr := Half.sum hr hz
  have hsp := Half.sum hp hz
  have hhr := Half.hop_nonneg hr zHop
  have hhp := Half.hop_nonneg hp zHop
  have hdr := Half.during_nonneg hr zHop
  have hdp := Half.during_nonneg hp zHop
  have htr := Half.still_nonneg hr
  have htp := Half.still_nonneg hp
  have hs := hr.speed
  have hps := hp.speed
  have hd := hr.distance
  have hpd := hp.distance
  rcases amounts_cases (keep := keep) ht hz hr hp with ⟨k, lessR, lessP, h0, h1, hkE, hlt, hor, hlr, hlp, hprop, e⟩ | ⟨hle, e⟩
  · rw [e]
    unfold Amounts.duration
    dsimp only
    have m1 : 0 ≤ (1 - k) * retract.during zHop := mul_nonneg (by linarith) hdr
    have m2 : 0 ≤ (1 - k) * prime.during zHop := mul_nonneg (by linarith) hdp
    have m3 : 0 ≤ k * retract.during zHop := mul_nonneg h0 hdr
    have m4 : 0 ≤ k * prime.during zHop := mul_nonneg h0 hdp
    refine ⟨⟨by linarith, ?_, by linarith, by nlinarith, by field_simp; ring, le_refl _⟩, ⟨by linarith, ?_, by linarith, by nlinarith, by field_simp; ring, rfl⟩⟩
    · rcases hor with h | h
      · rw [h]; linarith
      · rw [h, sub_zero] at hprop
        have hx : (retract.still + retract.hop zHop - lessR) * prime.distance =
            (prime.distance - prime.during zHop) * retract.distance * (1 - k) + k * ((retract.distance - retract.during zHop) * prime.distance) := by
          linear_combination prime.distance * hsr - hprop
        have : 0 ≤ (retract.still + retract.hop zHop - lessR) * prime.distance := by
          rw [hx]
          have a1 : 0 ≤ prime.distance - prime.during zHop := by linarith
          have a2 : 0 ≤ retract.distance - retract.during zHop := by linarith
          have a3 : 0 ≤ 1 - k := by linarith
          positivity
        exact nonneg_of_mul_nonneg_left this hpd
    · rcases hor with h | h
      · rw [h, sub_zero] at hprop
        have hx : (prime.still + prime.hop zHop - lessP) * retract.distance =
            (retract.distance - retract.during zHop) * prime.distance * (1 - k) + k * ((prime.distance - prime.during zHop) * retract.distance) := by
          linear_combination retract.distance * hsp + hprop
        have : 0 ≤ (prime.still + prime.hop zHop - lessP) * retract.distance := by
          rw [hx]
          have a1 : 0 ≤ prime.distance - prime.during zHop := by linarith
          have a2 : 0 ≤ retract.distance - retract.during zHop := by linarith
          have a3 : 0 ≤ 1 - k := by linarith
          positivity
        exact nonneg_of_mul_nonneg_left this hd
      · rw [h]; linarith
  · rw [e]
    unfold Amounts.duration
    dsimp only
    refine ⟨⟨by linarith, by linarith, by linarith, le_refl _, ?_, ?_⟩, ⟨by linarith, by linarith, by linarith, le_refl _, by field_simp; linarith, rfl⟩⟩
    · split
      · next hk =>
        have := retract.duration_nonneg zHop
        have hpos : travel - prime.duration zHop ≠ 0 := by intro h0; linarith
        by_cases h0 : retract.during zHop = 0
        · rw [h0]
          simp
          linarith
        · field_simp
          linarith
      · field_simp
        linarith
    · split
      · next hk =>
        have := retract.duration_nonneg zHop
        have hpos : 0 < travel - prime.duration zHop := by linarith
        rw [div_le_iff₀ hpos]
        unfold Half.during
        nlinarith
      · exact le_refl _

/-- C102: without a z-hop, no amount is negative. -/
theorem C102_nonneg_partial (ht : 0 ≤ travel) (hr : Valid retract) (hp : Valid prime) :
    let a := amounts travel 0 retract prime keep
    0 ≤ a.1.still ∧ 0 ≤ a.2.still := by
  have h := C102_order (keep := keep) ht (le_refl 0) hr hp
  have e : ∀ h : Half, h.hop 0 = 0 := by intro h; unfold Half.hop; simp
  rcases amounts_cases (keep := keep) ht (le_refl 0) hr hp with ⟨k, lessR, lessP, h0, h1, hkE, hlt, hor, hlr, hlp, hprop, e'⟩ | ⟨hle, e'⟩
  · rw [e'] at h ⊢
    dsimp only at h ⊢
    rw [e, e] at h
    simp only [add_zero] at h
    exact ⟨h.1.2.1, h.2.2.1⟩
  · rw [e']
    exact ⟨Half.still_nonneg hr, Half.still_nonneg hp⟩

/-- C102 fails with a z-hop: where priming is slower than retracting and the travel is too short for it, the "retraction" before the z-hop is
negative: material is extruded on the spot before the travel. -/
theorem C102_blob_counterexample :
    (amounts 0 (1 / 10) ⟨4, 40, 1⟩ ⟨4, 20, 1⟩ false).1.still = -2 := by decide +kernel

end Verif.Ooze
