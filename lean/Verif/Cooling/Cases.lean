import Verif.Cooling.FanProps
import Mathlib.Tactic.NormNum

/-! # C57, C58: concrete layers, and layers for which the property fails -/

namespace Verif.Cooling

/-- The result of processing a layer, for the examples. -/
def resultOf (plans : List Plan) : List Plan × Bool :=
  match process 0 plans with
  | .ok r => r
  | _ => ([], false)

/-- Settings of the examples: minimum layer time `t`, minimum speed `m`, fan threshold 10 s. -/
def demoSettings (t m : ℚ) : Settings :=
  { minTime := t, minTimeOverhang := t, overhangLength := 5, fanTime := 10, fan0 := 0, fanMin := 50,
    fanMax := 100, minSpeed := m, fullLayer := 4 }

/-- An extrusion of one move. -/
def line (v l : ℚ) : Path := { width := 400, speed := v, lens := [l] }

/-- A retracted travel of one move. -/
def hop (v l : ℚ) : Path := { width := 0, speed := v, retract := true, lens := [l] }

def demoPlan (ext : Nat) (t m : ℚ) (paths : List Path) : Plan :=
  { ext := ext, layer := 7, settings := demoSettings t m, retraction := ⟨5, 25, 25⟩, paths := paths }

theorem line_fresh {v l : ℚ} (hv : 0 < v) (hm : v ≤ 1000) (hl : 0 ≤ l) : (line v l).Fresh := by
  refine ⟨hv, by norm_num [line], ?_, ?_, rfl⟩
  · simp only [line, mul_one]
    exact hm.trans (by decide +kernel)
  · simp [line, hl]

theorem hop_fresh {v l : ℚ} (hv : 0 < v) (hm : v ≤ 1000) (hl : 0 ≤ l) : (hop v l).Fresh := by
  refine ⟨hv, by norm_num [hop], ?_, ?_, rfl⟩
  · simp only [hop, mul_one]
    exact hm.trans (by decide +kernel)
  · simp [hop, hl]

theorem demo_fresh {ext : Nat} {t m : ℚ} {paths : List Path} (hm : 0 < m) (ht : 0 ≤ t)
    (h : ∀ p ∈ paths, p.Fresh) : (demoPlan ext t m paths).Fresh :=
  ⟨h, hm, by norm_num [demoPlan], by norm_num [demoPlan], ht, ht, rfl, rfl⟩

/-- A layer with two extruders that is much too short: 100 mm at 50 mm/s, 20 mm at 100 mm/s and a travel with
extruder 1 after 30 mm at 60 mm/s with extruder 0; the minimum layer time is 8 s. -/
def twoPlans : List Plan :=
  [demoPlan 0 8 10 [line 60 30], demoPlan 1 8 10 [line 50 100, hop 200 20, line 100 20]]

theorem twoPlans_fresh : ∀ q ∈ twoPlans, q.Fresh := by
  intro q hq
  simp only [twoPlans, List.mem_cons, List.not_mem_nil, or_false] at hq
  rcases hq with rfl | rfl
  · apply demo_fresh (by norm_num) (by norm_num)
    intro p hp
    simp only [List.mem_cons, List.not_mem_nil, or_false] at hp
    subst hp
    exact line_fresh (by norm_num) (by norm_num) (by norm_num)
  · apply demo_fresh (by norm_num) (by norm_num)
    intro p hp
    simp only [List.mem_cons, List.not_mem_nil, or_false] at hp
    rcases hp with rfl | rfl | rfl
    · exact line_fresh (by norm_num) (by norm_num) (by norm_num)
    · exact hop_fresh (by norm_num) (by norm_num) (by norm_num)
    · exact line_fresh (by norm_num) (by norm_num) (by norm_num)

/-- The hypotheses of the theorems hold for `twoPlans`. -/
theorem twoPlans_layer : Layer 0 [demoPlan 0 8 10 [line 60 30]] []
    (demoPlan 1 8 10 [line 50 100, hop 200 20, line 100 20]) 8 50 (resultOf twoPlans) where
  fresh := twoPlans_fresh
  before := by simp [demoPlan]
  after := by simp
  minTime := ⟨⟨_, List.mem_cons_self, by simp [demoPlan, demoSettings]⟩, by simp [demoPlan, demoSettings]⟩
  slowest := by
    refine ⟨⟨line 50 100, by simp [demoPlan], by simp [line], by norm_num [line]⟩, ?_⟩
    intro p hp hw
    simp only [demoPlan, List.mem_cons, List.not_mem_nil, or_false] at hp
    rcases hp with rfl | rfl | rfl
    · norm_num [line]
    · exact absurd rfl hw
    · norm_num [line]
  extrudes := by decide +kernel
  result := by decide +kernel

/-- The layer is slowed down to the time needed, and the second half of `C57_reached_partial`'s hypotheses holds. -/
example : othersTime 1 twoPlans + (demoPlan 1 8 10 [line 50 100, hop 200 20, line 100 20]).travelTime
      + (demoPlan 1 8 10 [line 50 100, hop 200 20, line 100 20]).extrusion / 50 ≤ 8 ∧
    (demoPlan 1 8 10 [line 50 100, hop 200 20, line 100 20]).extrusion / 50 + 1 / 100
      ≤ (demoPlan 1 8 10 [line 50 100, hop 200 20, line 100 20]).extrusion / 10 ∧
    layerTime twoPlans = 3 ∧ layerTime (resultOf twoPlans).1 = 8 ∧ (resultOf twoPlans).2 = true ∧
    layerWait (resultOf twoPlans).1 = 0 := by decide +kernel

example : 8 - 1 / 100 ≤ layerTime (resultOf twoPlans).1 + layerWait (resultOf twoPlans).1 :=
  C57_reached_partial twoPlans_layer (by decide +kernel) (Or.inr (by decide +kernel))

example := C57_moves twoPlans_layer

example := C57_speeds_partial twoPlans_layer (by decide +kernel) (Or.inr (Or.inr (by decide +kernel)))

example := C57_not_longer_partial twoPlans_layer (by simp [demoPlan]) (by decide +kernel)
  (Or.inr (Or.inr (by decide +kernel))) (by decide +kernel)

example := C58_slowed twoPlans_layer (by decide +kernel) (by decide +kernel)

/-- The fan runs at full speed for the slowed plan. -/
example : (resultOf twoPlans).1.map Plan.fan = [50, 100] := by decide +kernel

/-- A layer of one plan that takes 6 s of at least 4 s: nothing is slowed, the fan is between 50 and 100. -/
theorem long_layer : Layer 0 [] [] (demoPlan 0 4 10 [line 50 300]) 4 50
    (resultOf [demoPlan 0 4 10 [line 50 300]]) where
  fresh := by
    intro q hq
    simp only [List.nil_append, List.mem_cons, List.not_mem_nil, or_false] at hq
    subst hq
    apply demo_fresh (by norm_num) (by norm_num)
    intro p hp
    simp only [List.mem_cons, List.not_mem_nil, or_false] at hp
    subst hp
    exact line_fresh (by norm_num) (by norm_num) (by norm_num)
  before := by simp
  after := by simp
  minTime := ⟨⟨_, List.mem_cons_self, by simp [demoPlan, demoSettings]⟩, by simp [demoPlan, demoSettings]⟩
  slowest := by
    refine ⟨⟨line 50 300, by simp [demoPlan], by simp [line], by norm_num [line]⟩, ?_⟩
    intro p hp hw
    simp only [demoPlan, List.mem_cons, List.not_mem_nil, or_false] at hp
    subst hp
    norm_num [line]
  extrudes := by decide +kernel
  result := by decide +kernel

example := C57_enough long_layer (by decide +kernel)

example := C58_interpolated long_layer (by decide +kernel) (by decide +kernel)

example : (resultOf [demoPlan 0 4 10 [line 50 300]]).1.map Plan.fan = [100 - 50 * (2 / 6)] := by decide +kernel

/-- A layer of one plan that is too short even at the minimum speed: the rest is waited for. -/
theorem tiny_layer : Layer 0 [] [] (demoPlan 0 4 10 [line 50 20]) 4 50
    (resultOf [demoPlan 0 4 10 [line 50 20]]) where
  fresh := by
    intro q hq
    simp only [List.nil_append, List.mem_cons, List.not_mem_nil, or_false] at hq
    subst hq
    apply demo_fresh (by norm_num) (by norm_num)
    intro p hp
    simp only [List.mem_cons, List.not_mem_nil, or_false] at hp
    subst hp
    exact line_fresh (by norm_num) (by norm_num) (by norm_num)
  before := by simp
  after := by simp
  minTime := ⟨⟨_, List.mem_cons_self, by simp [demoPlan, demoSettings]⟩, by simp [demoPlan, demoSettings]⟩
  slowest := by
    refine ⟨⟨line 50 20, by simp [demoPlan], by simp [line], by norm_num [line]⟩, ?_⟩
    intro p hp hw
    simp only [demoPlan, List.mem_cons, List.not_mem_nil, or_false] at hp
    subst hp
    norm_num [line]
  extrudes := by decide +kernel
  result := by decide +kernel

example : layerWait (resultOf [demoPlan 0 4 10 [line 50 20]]).1 = 2 := by decide +kernel

example := C57_wait_partial tiny_layer (by decide +kernel) (by decide +kernel)

/-- The first layers: layer 1 of 4 has a quarter of the regular fan speed. -/
example : (fanFirst { demoPlan 0 4 10 [] with layer := 1 }).fan = 25 / 2 := by decide +kernel

/-- **C57**, negation: when the slowest speed would suffice the speeds are interpolated, and the layer takes less
than the minimum layer time. Here 10 mm at 10 mm/s and 10 mm at 100 mm/s have to take 1.5 s and take less than
1.25 s. -/
theorem C57_short_counterexample :
    let pl := demoPlan 0 (3 / 2) 5 [line 10 10, line 100 10]
    pl.Fresh ∧ process 0 [pl] = .ok (resultOf [pl]) ∧ (resultOf [pl]).2 = true ∧
      layerTime (resultOf [pl]).1 + layerWait (resultOf [pl]).1 < 5 / 4 := by
  refine ⟨?_, by decide +kernel, by decide +kernel, by decide +kernel⟩
  apply demo_fresh (by norm_num) (by norm_num)
  intro p hp
  simp only [List.mem_cons, List.not_mem_nil, or_false] at hp
  rcases hp with rfl | rfl <;> exact line_fresh (by norm_num) (by norm_num) (by norm_num)

/-- **C57**, negation: an extrusion planned faster than the minimum speed (10 mm/s) is slowed below it if another
one is slower. -/
theorem C57_below_minimum_counterexample :
    let pl := demoPlan 0 (37 / 10) 10 [line 5 1, line 12 1, line 100 36]
    pl.Fresh ∧ process 0 [pl] = .ok (resultOf [pl]) ∧
      ((resultOf [pl]).1.map fun x => x.paths.map fun p => decide (p.speed * p.factor < 7))
        = [[true, true, false]] := by
  refine ⟨?_, by decide +kernel, by decide +kernel⟩
  apply demo_fresh (by norm_num) (by norm_num)
  intro p hp
  simp only [List.mem_cons, List.not_mem_nil, or_false] at hp
  rcases hp with rfl | rfl | rfl <;> exact line_fresh (by norm_num) (by norm_num) (by norm_num)

/-- **C57**, negation: if the times at the slowest and at the minimum speed differ by less than 0.01 s, the speeds
are extrapolated and can get negative. -/
theorem C57_negative_speed_counterexample :
    let pl := demoPlan 0 (1009 / 1000) (10 / (1 + 95 / 10000)) [line 10 (10 - 1222 / 100000), line 100 (1222 / 100000)]
    pl.Fresh ∧ pl.settings.minSpeed < 10 ∧ process 0 [pl] = .ok (resultOf [pl]) ∧
      ∃ x ∈ (resultOf [pl]).1, ∃ p ∈ x.paths, p.speed * p.factor < 0 := by
  refine ⟨?_, by decide +kernel, by decide +kernel, by decide +kernel⟩
  apply demo_fresh (by norm_num) (by norm_num)
  intro p hp
  simp only [List.mem_cons, List.not_mem_nil, or_false] at hp
  rcases hp with rfl | rfl <;> exact line_fresh (by norm_num) (by norm_num) (by norm_num)

/-- **C57**, negation: the wait ignores the time of the other extruders. Extruder 0 takes 3 s of the 4 s, extruder 1
prints 5 mm, which takes 0.5 s at the minimum speed; still the code waits 3.5 s instead of 0.5 s. -/
theorem C57_wait_counterexample :
    let plans := [demoPlan 0 4 10 [line 50 150], demoPlan 1 4 10 [line 50 5]]
    process 0 plans = .ok (resultOf plans) ∧ layerTime (resultOf plans).1 = 7 / 2 ∧
      layerWait (resultOf plans).1 = 7 / 2 := by
  decide +kernel

/-- **C57**, negation: if the plan of the highest extruder only travels, the layer is not slowed down at all. -/
theorem C57_travel_only_counterexample :
    let plans := [demoPlan 0 4 10 [line 50 50], demoPlan 1 4 10 [hop 100 50]]
    process 0 plans = .ok (resultOf plans) ∧ (resultOf plans).2 = false ∧
      layerTime (resultOf plans).1 + layerWait (resultOf plans).1 < 2 := by
  decide +kernel

/-- **C58**, negation: if the threshold for the regular fan speed is not above the minimum layer time (here 10 s, and
an overhang time of 11 s), a layer shorter than the minimum gets the regular fan speed, not the maximum. -/
theorem C58_threshold_counterexample :
    let pl := demoPlan 0 11 10 [line 50 50]
    process 0 [pl] = .ok (resultOf [pl]) ∧ (resultOf [pl]).2 = true ∧
      ∃ x ∈ (resultOf [pl]).1, x.fan = pl.settings.fanMin ∧ x.fan < pl.settings.fanMax := by
  decide +kernel

/-- A line twice as wide as its type gets half the speed with full compensation. -/
example : (backPressure 1 { line 50 20 with widthFactor := 2 }).backPressure = 1 / 2 := by decide +kernel

end Verif.Cooling
