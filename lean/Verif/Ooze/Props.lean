import Verif.Ooze.WriteLemmas

/-! # Travels with retraction and priming on the way (C101) -/

namespace Verif.Ooze
section
variable {X : Type} (G : Geo X) (speed : ℚ)

/-- The part that is common to the two theorems below: `slack` is a millisecond, or nothing if no point is in the way. -/
theorem written (hG : Laws G) (hs : 0 < speed) (retract prime : Half) (hr : Valid retract) (hp : Valid prime) (keep : Bool) (zHop : ℚ) (hz : 0 ≤ zHop)
    (start : X) (points : List X) (hpts : points ≠ []) (slack : ℚ)
    (hslack : slack = 1 / 1000 ∨ (slack = 0 ∧
      ClearStart G speed start points (amounts (elapsed G speed start points) zHop retract prime keep).1.duration ∧
      ClearEnd G speed start points (amounts (elapsed G speed start points) zHop retract prime keep).2.duration)) :
    let r := (amounts (elapsed G speed start points) zHop retract prime keep).1
    let p := (amounts (elapsed G speed start points) zHop retract prime keep).2
    (0 < r.travel → ∃ out a b c u v s t, write G speed retract prime keep false zHop start points = some out ∧
      Written G speed slack start points r.duration p.duration r.zHop r.travel (p.zHop + (r.travel - p.travel)) out a b c u v s t) ∧
    (r.travel ≤ 0 → write G speed retract prime keep false zHop start points = some (points.map (.move · none))) := by
  unfold write
  rw [total_eq]
  obtain ⟨hfr, hfp, hfit, -⟩ := C102_fits (keep := keep) (elapsed_nonneg hG hs start points) hz hr hp
  generalize amounts (elapsed G speed start points) zHop retract prime keep = am at *
  obtain ⟨r, p⟩ := am
  dsimp only at *
  constructor
  swap
  · intro h
    rw [if_neg (not_lt.2 h)]
    exact write_none points _ _ [] points rfl
  intro h
  rw [if_pos h]
  have hsl : 0 ≤ slack := by
    rcases hslack with h | h
    · rw [h]; norm_num
    · rw [h.1]
  -- the retraction
  obtain ⟨a, u, n, s, a1, a2, a3, a4, a5, a6, a7⟩ := splitLoop_spec hG hs r.duration r.zHop r.travel 0 start points hpts hfr (by linarith)
  simp only [zero_add] at a3 a5 a6 a7
  -- the priming
  obtain ⟨last, l, hrev⟩ : ∃ last l, points.reverse ++ [start] = last :: l := by
    cases hx : points.reverse with
    | nil => exact ⟨start, [], rfl⟩
    | cons y ys => exact ⟨y, ys ++ [start], rfl⟩
  have hl : l ≠ [] := by
    intro e
    have := congrArg List.length hrev
    rw [e] at this
    simp at this
    exact hpts this
  obtain ⟨l', rfl⟩ : ∃ l', l = l' ++ [start] := by
    have := congrArg List.getLast? hrev
    rw [List.getLast?_append_of_ne_nil _ (by simp), List.getLast?_cons_of_ne_nil hl] at this
    rw [List.getLast?_singleton] at this
    exact ⟨l.dropLast, (List.dropLast_append_getLast? start this.symm).symm⟩
  have hpr : points = l'.reverse ++ [last] := by
    have : points.reverse = last :: l' := by
      rw [← List.cons_append] at hrev
      exact List.append_cancel_right hrev
    rw [← List.reverse_reverse points, this, List.reverse_cons]
  have hT : elapsed G speed last (l' ++ [start]) = elapsed G speed start points := by
    rw [elapsed_reverse hG, hpr]
  obtain ⟨m, w, k, t, b1, b2, b3, b4, b5, b6, b7⟩ := splitLoop_spec hG hs p.duration p.zHop p.travel 0 last (l' ++ [start]) (by simp) hfp (by rw [hT]; linarith)
  simp only [zero_add] at b3 b5 b6 b7
  -- points and the reversed points
  have hk : ∃ ab, (w :: k).reverse = start :: ab := by
    have := congrArg List.reverse b1
    rw [List.reverse_append, List.reverse_append, List.reverse_singleton, List.singleton_append] at this
    cases hx : (w :: k).reverse with
    | nil => simp at hx
    | cons y ys =>
      rw [hx, List.cons_append, List.cons.injEq] at this
      exact ⟨ys, by rw [this.1]⟩
  obtain ⟨ab, hab⟩ := hk
  have hpc : points = ab ++ (m.reverse ++ [last]) := by
    have := congrArg List.reverse b1
    rw [List.reverse_append, List.reverse_append, hab, List.reverse_singleton, List.singleton_append, List.cons_append, List.cons.injEq] at this
    rw [hpr, this.2, List.append_assoc]
  have hw : endOf start ab = w := by
    have : (w :: k).reverse.getLast? = some w := by rw [List.getLast?_reverse]; rfl
    rw [hab] at this
    unfold endOf
    rw [List.getLast?_cons, Option.some.injEq] at this
    rw [List.getLastD_eq_getLast?]
    exact this
  have hEm : elapsed G speed start points = elapsed G speed start ab + G.len w (endOf last m) / speed + elapsed G speed last m := by
    rw [← hT, b1, elapsed_append, elapsed_cons]
    have : elapsed G speed w k = elapsed G speed start ab := by
      cases k using List.reverseRecOn with
      | nil =>
        simp at hab
        rw [hab.2]
        rfl
      | append_singleton k y =>
        simp at hab
        rw [elapsed_reverse hG, ← hab.2, hab.1]
    rw [this, hG.symm w]
    ring
  -- the retraction ends before the priming begins
  have horder : ∃ b, ab = a ++ b := by
    have hpre1 : a <+: points := ⟨u :: n, a1.symm⟩
    have hpre2 : ab <+: points := ⟨_, hpc.symm⟩
    rcases List.prefix_or_prefix_of_prefix hpre1 hpre2 with h' | ⟨b, hb⟩
    · obtain ⟨b, hb⟩ := h'
      exact ⟨b, hb.symm⟩
    · cases b with
      | nil => exact ⟨[], by rw [← hb]; simp⟩
      | cons y b =>
        exfalso
        have hne : a ≠ [] := by rw [← hb]; simp
        have h1 : elapsed G speed start a < r.duration - 1 / 1000 := by
          rcases a3 with a3 | a3
          · exact absurd a3 hne
          · exact a3
        have hle : elapsed G speed start ab + G.len w (endOf last m) / speed ≤ elapsed G speed start a := by
          rw [← hb, elapsed_append, elapsed_cons, hw]
          have hy : y = endOf last m := by
            have : a ++ u :: n = ab ++ (m.reverse ++ [last]) := by rw [← a1, ← hpc]
            rw [← hb, List.append_assoc, List.append_cancel_left_eq, List.cons_append] at this
            cases m using List.reverseRecOn with
            | nil =>
              rw [List.reverse_nil, List.nil_append, List.cons.injEq] at this
              rw [this.1]
              rfl
            | append_singleton m q =>
              rw [List.reverse_append, List.reverse_singleton, List.singleton_append, List.cons_append, List.cons.injEq] at this
              rw [this.1]
              simp [endOf]
          rw [hy]
          have := elapsed_nonneg (speed := speed) hG hs (endOf last m) b
          linarith
        rcases b3 with b3 | b3
        · have := congrArg List.length (a1.symm.trans hpc)
          rw [b3, ← hb] at this
          simp at this
        · linarith
  obtain ⟨b, rfl⟩ := horder
  have hc : m.reverse ++ [last] ≠ [] := by simp
  have hv : (m.reverse ++ [last]).head? = some (endOf last m) := by
    cases m using List.reverseRecOn with
    | nil => rfl
    | append_singleton m q => simp [endOf]
  have hu : (b ++ (m.reverse ++ [last])).head? = some u := by
    have : a ++ (b ++ (m.reverse ++ [last])) = a ++ u :: n := by rw [← a1, hpc, List.append_assoc]
    rw [List.append_cancel_left this]
    rfl
  have hR : splitRetract G speed r start points = ⟨G.lerp (endOf start a) u s, ((times G speed 0 start a).map fun τ => r.zHop + (r.travel - r.zHop) * (τ / r.duration)) ++ [r.travel]⟩ := by
    unfold splitRetract
    dsimp only
    rw [a2, if_neg hpts]
  have hP : splitPrime G speed p (r.travel - p.travel) start points = ⟨G.lerp (endOf last m) w t,
      (p.zHop :: (times G speed 0 last m).map fun τ => p.zHop + (p.travel - p.zHop) * (τ / p.duration)).map (· + (r.travel - p.travel))⟩ := by
    unfold splitPrime
    rw [hrev]
    dsimp only
    rw [b2, if_neg hpts]
  rw [hR, hP]
  have hout := write_retracting points
    ⟨G.lerp (endOf start a) u s, ((times G speed 0 start a).map fun τ => r.zHop + (r.travel - r.zHop) * (τ / r.duration)) ++ [r.travel]⟩
    ⟨G.lerp (endOf last m) w t, (p.zHop :: (times G speed 0 last m).map fun τ => p.zHop + (p.travel - p.zHop) * (τ / p.duration)).map (· + (r.travel - p.travel))⟩
    [] a b (m.reverse ++ [last]) [] ((times G speed 0 start a).map fun τ => r.zHop + (r.travel - r.zHop) * (τ / r.duration)) r.travel hpc
    (by simp [times_length]) hc rfl rfl (by rw [List.length_map, times_length])
  rw [← hpc] at hout
  refine ⟨_, a, b, m.reverse ++ [last], u, endOf last m, s, t, hout, ⟨hpc, hu, hv, ?_, a4, ?_, ?_, ?_, b4, ?_, ?_, ?_⟩⟩
  · rw [sampled_eq, sampled_eq, hw]
    have htr := times_reverse (speed := speed) hG (elapsed G speed start (a ++ b)) (elapsed G speed start points) w last m (by
      conv_lhs => rw [hpc, elapsed_append, hw])
    rw [htr]
    have e : ((((times G speed 0 last m).map (elapsed G speed start points - ·)).reverse ++ [elapsed G speed start points]).map fun τ =>
        p.zHop + (r.travel - p.travel) + (r.travel - (p.zHop + (r.travel - p.travel))) * ((elapsed G speed start points - τ) / p.duration)) =
        ((p.zHop :: (times G speed 0 last m).map fun τ => p.zHop + (p.travel - p.zHop) * (τ / p.duration)).map (· + (r.travel - p.travel))).reverse := by
      rw [List.map_append, List.map_reverse, List.map_map, List.map_singleton, List.map_cons (a := p.zHop), List.reverse_cons, List.map_map]
      congr 1
      · congr 1
        apply List.map_congr_left
        intro τ _
        simp only [Function.comp_apply]
        rw [sub_sub_cancel]
        ring
      · simp
    rw [e]
    simp only [List.append_assoc, List.cons_append]
  · rcases hslack with h' | ⟨h', hcs, -⟩
    · rw [h']
      rcases a7 with ⟨-, a7⟩ | ⟨-, a7⟩
      · linarith
      · rw [a7, zero_mul]
        have := div_nonneg (hG.nonneg (endOf start a) u) hs.le
        linarith
    · rw [h', add_zero]
      have hx := hcs (a ++ [u]) n (by rw [a1]; simp)
      rw [elapsed_append, elapsed_cons, elapsed_nil, add_zero] at hx
      have hle : r.duration ≤ elapsed G speed start a + G.len (endOf start a) u / speed := by
        by_contra hcon
        exact hx ⟨by linarith, by linarith⟩
      rcases a7 with ⟨-, a7⟩ | ⟨-, a7⟩
      · linarith
      · rw [a7, zero_mul]
        exact div_nonneg (hG.nonneg _ _) hs.le
  · rcases a7 with ⟨-, a7⟩ | ⟨-, a7⟩
    · linarith
    · rw [a7, zero_mul]; linarith
  · rcases hslack with h' | ⟨h', hcs, -⟩
    · rw [h']
      rcases a7 with ⟨-, a7⟩ | ⟨a8, a7⟩
      · linarith
      · rw [a7, zero_mul]; linarith
    · rw [h', mul_zero, add_zero]
      rcases a7 with ⟨-, a7⟩ | ⟨a8, a7⟩
      · linarith
      · rw [a7, zero_mul, add_zero]
        have hx := hcs (a ++ [u]) n (by rw [a1]; simp)
        have hy := hcs a (u :: n) a1
        rw [elapsed_append, elapsed_cons, elapsed_nil, add_zero] at hx
        by_contra hcon
        have hle : r.duration ≤ elapsed G speed start a + G.len (endOf start a) u / speed := by
          by_contra hcon
          exact hx ⟨by linarith, by linarith⟩
        exact hy ⟨by linarith, by linarith⟩
  all_goals rw [hw]
  all_goals
    have htail : elapsed G speed (endOf last m) (m.reverse ++ [last]).tail = elapsed G speed last m := by
      cases m using List.reverseRecOn with
      | nil => rfl
      | append_singleton m q =>
        rw [elapsed_reverse hG]
        simp [endOf]
  all_goals
    have hcons : m.reverse ++ [last] = endOf last m :: (m.reverse ++ [last]).tail := by
      cases hx : m.reverse ++ [last] with
      | nil => exact absurd hx hc
      | cons y ys =>
        rw [hx] at hv
        simp only [List.head?_cons, Option.some.injEq] at hv
        rw [hv]
        rfl
  · rcases hslack with h' | ⟨h', -, hce⟩
    · rw [h']
      rcases b7 with ⟨-, b7⟩ | ⟨-, b7⟩
      · linarith
      · rw [b7, zero_mul]
        have := div_nonneg (hG.nonneg (endOf last m) w) hs.le
        linarith
    · rw [h', add_zero]
      have hx := hce (a ++ b) (m.reverse ++ [last]) hpc
      rw [hw, hcons, elapsed_cons, htail, hG.symm w] at hx
      have hle : p.duration ≤ elapsed G speed last m + G.len (endOf last m) w / speed := by
        by_contra hcon
        exact hx ⟨by linarith, by linarith⟩
      rcases b7 with ⟨-, b7⟩ | ⟨-, b7⟩
      · linarith
      · rw [b7, zero_mul]
        exact div_nonneg (hG.nonneg _ _) hs.le
  · rw [htail]
    rcases b7 with ⟨-, b7⟩ | ⟨-, b7⟩
    · linarith
    · rw [b7, zero_mul]; linarith
  · rw [htail]
    rcases hslack with h' | ⟨h', -, hce⟩
    · rw [h']
      rcases b7 with ⟨-, b7⟩ | ⟨b8, b7⟩
      · linarith
      · rw [b7, zero_mul]; linarith
    · rw [h', mul_zero, add_zero]
      rcases b7 with ⟨-, b7⟩ | ⟨b8, b7⟩
      · linarith
      · rw [b7, zero_mul, add_zero]
        have hx := hce (a ++ b) (m.reverse ++ [last]) hpc
        rw [hw, hcons, elapsed_cons, htail, hG.symm w] at hx
        have hy := hce (a ++ b ++ [endOf last m]) (m.reverse ++ [last]).tail (by
          conv_lhs => rw [hpc, hcons]
          simp)
        rw [endOf_append (l := a ++ b), show endOf (endOf start (a ++ b)) [endOf last m] = endOf last m from rfl, htail] at hy
        by_contra hcon
        have hle : p.duration ≤ elapsed G speed last m + G.len (endOf last m) w / speed := by
          by_contra hcon
          exact hx ⟨by linarith, by linarith⟩
        exact hy ⟨by linarith, by linarith⟩

/-- **C101** (partial): a travel with retraction goes through all its points in their order, with two more positions: one where the
retraction ends, and, not before it, one where priming begins. While the nozzle goes to the first of them, the retracted amount rises in
proportion to the time; from the second on, it falls in proportion to the time. The two positions are where they should be up to two
milliseconds, on the line through a segment of the travel, not more than a millisecond beyond its end. If nothing is to be retracted, the travel just
goes through its points. The amounts and times are those of C102. -/
theorem C101_travel_partial (hG : Laws G) (hs : 0 < speed) (retract prime : Half) (hr : Valid retract) (hp : Valid prime) (keep : Bool) (zHop : ℚ)
    (hz : 0 ≤ zHop) (start : X) (points : List X) (hpts : points ≠ []) :
    let r := (amounts (elapsed G speed start points) zHop retract prime keep).1
    let p := (amounts (elapsed G speed start points) zHop retract prime keep).2
    (0 < r.travel → ∃ out a b c u v s t, write G speed retract prime keep false zHop start points = some out ∧
      Written G speed (1 / 1000) start points r.duration p.duration r.zHop r.travel (p.zHop + (r.travel - p.travel)) out a b c u v s t) ∧
    (r.travel ≤ 0 → write G speed retract prime keep false zHop start points = some (points.map (.move · none))) :=
  written G speed hG hs retract prime hr hp keep zHop hz start points hpts _ (.inl rfl)

/-- **C101** (partial): the two positions are exactly where they should be, on segments of the travel, unless a point of the travel is within a millisecond
before one of them. -/
theorem C101_exact_partial (hG : Laws G) (hs : 0 < speed) (retract prime : Half) (hr : Valid retract) (hp : Valid prime) (keep : Bool) (zHop : ℚ)
    (hz : 0 ≤ zHop) (start : X) (points : List X) (hpts : points ≠ [])
    (hcs : ClearStart G speed start points (amounts (elapsed G speed start points) zHop retract prime keep).1.duration)
    (hce : ClearEnd G speed start points (amounts (elapsed G speed start points) zHop retract prime keep).2.duration) :
    let r := (amounts (elapsed G speed start points) zHop retract prime keep).1
    let p := (amounts (elapsed G speed start points) zHop retract prime keep).2
    0 < r.travel → ∃ out a b c u v s t, write G speed retract prime keep false zHop start points = some out ∧
      Written G speed 0 start points r.duration p.duration r.zHop r.travel (p.zHop + (r.travel - p.travel)) out a b c u v s t :=
  (written G speed hG hs retract prime hr hp keep zHop hz start points hpts _ (.inr ⟨rfl, hcs, hce⟩)).1

end

/-- Positions on a line. -/
def line : Geo ℚ := ⟨fun a b => if a ≤ b then b - a else a - b, fun a b t => a + (b - a) * t⟩

/-- C101 fails by up to a millisecond: the nozzle goes beyond the end of a segment and back. Here it overshoots the point 10, which is reached
after 0.1 seconds, because the retraction takes 0.1008 seconds. -/
theorem C101_overshoot_counterexample :
    write line 100 ⟨4.032, 40, 1⟩ ⟨4.032, 40, 0⟩ false false 0 0 [10, 0] =
      some [.move 10.08 (some 4.032), .move 10 none, .move 0 none, .move 0 (some 4.032)] := by decide +kernel

/-- When the filament is to be unretracted before the last move of a travel, it is retracted again: during that move, or at its end. The
settings of the first two cases are without any retraction during travels. -/
theorem C101_unretract_counterexample :
    write line 100 ⟨4, 40, 0⟩ ⟨4, 40, 0⟩ false true 0 0 [10, 20] =
      some [.move 0 (some 4), .move 10 none, .unretract, .move 20 none, .move 20 (some 4)] ∧
    write line 100 ⟨4, 40, 0⟩ ⟨4, 40, 0⟩ false true 0 0 [10] = some [.unretract, .move 0 (some 4), .move 10 none, .move 10 (some 4)] ∧
    (write line 100 ⟨4, 40, 0⟩ ⟨4, 40, 0⟩ false true 0 0 [10, 20]).map (level 4) = some 4 ∧
    (write line 100 ⟨4, 40, 0⟩ ⟨4, 40, 1 / 2⟩ false true 0 0 [10, 20]).map (level 4) = some 2 := by decide +kernel

end Verif.Ooze
