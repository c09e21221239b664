import Verif.Heat.Preheat
import Mathlib.Tactic.Linarith
import Mathlib.Tactic.FieldSimp
import Mathlib.Tactic.Ring
import Mathlib.Tactic.NormNum

/-! # C27: the preheat computation -/

namespace Verif.Heat

variable {s : Speeds} {window start mid stop : ℚ} {printing : Bool}

theorem duration_nonneg {x : ℚ} (h : 0 ≤ x) : duration x = x := by
  unfold duration
  split_ifs with hx
  · rfl
  · exact le_antisymm h (not_lt.1 hx)

theorem timeUp (hu : 0 < s.up printing) {a b : ℚ} (h : a ≤ b) :
    timeFromTo s a b printing = (b - a) / s.up printing := by
  unfold timeFromTo
  have h0 : 0 ≤ (b - a) / s.up printing := div_nonneg (by linarith) hu.le
  rcases h.lt_or_eq with h | rfl
  · rw [if_pos h, duration_nonneg h0, max_eq_right h0]
  · rw [if_neg (lt_irrefl _), sub_self, zero_div, zero_div]
    simp [duration]

theorem timeDown (hd : 0 < s.down printing) {a b : ℚ} (h : b ≤ a) :
    timeFromTo s a b printing = (a - b) / s.down printing := by
  unfold timeFromTo
  have h0 : 0 ≤ (a - b) / s.down printing := div_nonneg (by linarith) hd.le
  rw [if_neg (not_lt.2 h), duration_nonneg h0, max_eq_right h0]

/-- The time to go to another temperature is the difference divided by the speed. -/
theorem C27_time (hu : 0 < s.up printing) (hd : 0 < s.down printing) (a b : ℚ) :
    0 ≤ timeFromTo s a b printing ∧
    (a ≤ b → a + s.up printing * timeFromTo s a b printing = b) ∧
    (b ≤ a → a - s.down printing * timeFromTo s a b printing = b) := by
  refine ⟨le_max_left _ _, fun h => ?_, fun h => ?_⟩
  · rw [timeUp hu h]; field_simp; ring
  · rw [timeDown hd h]; field_simp; ring

/-- What a plan to cool down, wait and heat up must satisfy: starting at `start`, cooling to `turn` and heating
for `time` fits in the window and ends at `stop`. -/
def Feasible (s : Speeds) (printing : Bool) (window start stop turn time : ℚ) : Prop :=
  0 ≤ time ∧ turn ≤ start ∧ turn ≤ stop ∧ turn + s.up printing * time = stop ∧
    (start - turn) / s.down printing + time ≤ window

theorem warmUpWithin_spec (hu : 0 < s.up printing) (hd : 0 < s.down printing) {w extra limited outer : ℚ}
    (hl : 0 ≤ limited) (hm : mid ≤ outer) (hstop : outer + s.up printing * extra = stop) :
    let p := warmUpWithin s printing w extra limited outer mid stop
    extra ≤ p.time ∧ mid ≤ p.turn ∧ p.turn ≤ outer ∧ p.turn + s.up printing * p.time = stop ∧
    (outer - p.turn) / s.down printing + (p.time - extra) ≤ limited ∧
    (mid < p.turn → (outer - p.turn) / s.down printing + (p.time - extra) = limited) := by
  set u := s.up printing with hu'
  set d := s.down printing with hd'
  have h1 : duration (1 / d) = 1 / d := duration_nonneg (by positivity)
  have h2 : duration (1 / u) = 1 / u := duration_nonneg (by positivity)
  have h3 : timeFromTo s mid outer printing = (outer - mid) / u := timeUp hu hm
  have h30 : 0 ≤ (outer - mid) / u := div_nonneg (by linarith) hu.le
  have h4 : duration (limited * (1 / u)) = limited * (1 / u) := duration_nonneg (by positivity)
  have h5 : duration (1 / d + 1 / u) = 1 / d + 1 / u := duration_nonneg (by positivity)
  have h6 : limited * (1 / u) / (1 / d + 1 / u) = limited * d / (u + d) := by field_simp
  have h7 : duration (limited * d / (u + d)) = limited * d / (u + d) := duration_nonneg (by positivity)
  unfold warmUpWithin
  simp only [← hu', ← hd', h1, h2, h3, h4, h5, h6, h7, duration_nonneg h30]
  have hud : 0 < u + d := by positivity
  split_ifs with hc
  · dsimp only
    have e : (outer - mid) / u * (1 + 1 / d / (1 / u)) = (outer - mid) / d + (outer - mid) / u := by
      field_simp; ring
    refine ⟨by linarith, le_rfl, hm, ?_, by rw [e] at hc; linarith, fun h => absurd h (lt_irrefl _)⟩
    rw [← hstop]; field_simp; ring
  · dsimp only
    have e : (outer - mid) / u * (1 + 1 / d / (1 / u)) = (outer - mid) * (u + d) / (u * d) := by
      field_simp; ring
    rw [e, not_lt, le_div_iff₀ (by positivity)] at hc
    have e2 : stop - (extra + limited * d / (u + d)) / (1 / u) = outer - limited * (u * d) / (u + d) := by
      rw [← hstop]; field_simp; ring
    have e3 : mid ≤ outer - limited * (u * d) / (u + d) := by
      have : limited * (u * d) / (u + d) ≤ outer - mid := by
        rw [div_le_iff₀ hud]; exact hc
      linarith
    rw [e2, max_eq_right e3]
    have pos : 0 ≤ limited * (u * d) / (u + d) := by positivity
    have e4 : (outer - (outer - limited * (u * d) / (u + d))) / d + (extra + limited * d / (u + d) - extra) =
        limited := by field_simp; ring
    refine ⟨?_, e3, by linarith, ?_, e4.le, fun _ => e4⟩
    · have : 0 ≤ limited * d / (u + d) := by positivity
      linarith
    · rw [← hstop]; field_simp; ring

/-- **C27.** If the window is long enough for going from the start to the final temperature at all, the plan
computed for an idle time is feasible (it fits, and heating from the lowest point for the planned time ends at
exactly the target), it does not go below the standby temperature, and it goes as low as possible. -/
theorem C27_warm_up_partial (hu : 0 < s.up printing) (hd : 0 < s.down printing) (h1 : mid ≤ start) (h2 : mid ≤ stop)
    (hw : timeFromTo s start stop printing ≤ window) :
    let p := warmUp s window start mid stop printing
    Feasible s printing window start stop p.turn p.time ∧ p.time ≤ window ∧ p.window = window ∧ mid ≤ p.turn ∧
    (∀ turn time, mid ≤ turn → Feasible s printing window start stop turn time → p.turn ≤ turn) := by
  set u := s.up printing with hu'
  set d := s.down printing with hd'
  have g1 : duration (1 / d) = 1 / d := duration_nonneg (by positivity)
  have g2 : duration (1 / u) = 1 / u := duration_nonneg (by positivity)
  have hw0 : 0 ≤ window := le_trans (le_max_left _ _) hw
  have g3 : duration window = window := duration_nonneg hw0
  -- any feasible plan leads to the same time sum
  have least : ∀ t lo, (start - t) / d + (stop - t) / u = window → mid ≤ lo →
      ∀ time, Feasible s printing window start stop lo time → t ≤ lo := by
    intro t lo e _ time hf
    obtain ⟨f1, f2, f3, f4, f5⟩ := hf
    rw [← hu'] at f4
    rw [← hd'] at f5
    have ht : time = (stop - lo) / u := by field_simp; linarith
    rw [ht, ← e] at f5
    by_contra hc
    push Not at hc
    have k1 : (start - t) / d < (start - lo) / d := div_lt_div_of_pos_right (by linarith) hd
    have k2 : (stop - t) / u < (stop - lo) / u := div_lt_div_of_pos_right (by linarith) hu
    linarith
  unfold warmUp
  simp only [← hu', ← hd', g1, g2, g3]
  by_cases hlt : start < stop
  · have g4 : duration ((stop - start) * (1 / u)) = (stop - start) / u := by
      rw [duration_nonneg (mul_nonneg (by linarith) (by positivity))]; field_simp
    rw [timeUp hu hlt.le, ← hu'] at hw
    simp only [if_pos hlt, g4]
    rw [if_neg (by linarith)]
    have hx : 0 ≤ (stop - start) / u := div_nonneg (by linarith) hu.le
    obtain ⟨k1, k2, k3, k4, k5, k6⟩ := warmUpWithin_spec (s := s) (printing := printing) (w := window)
      (extra := (stop - start) / u) (limited := window - (stop - start) / u) (outer := start) (mid := mid)
      (stop := stop) hu hd (by linarith) h1 (by rw [← hu']; field_simp; ring)
    rw [← hu'] at k4
    rw [← hd'] at k5 k6
    have hwin : (warmUpWithin s printing window ((stop - start) / u) (window - (stop - start) / u) start mid
        stop).window = window := by unfold warmUpWithin; dsimp only; split_ifs <;> rfl
    generalize warmUpWithin s printing window ((stop - start) / u) (window - (stop - start) / u) start mid
      stop = p at *
    have hcool : 0 ≤ (start - p.turn) / d := div_nonneg (by linarith) hd.le
    refine ⟨⟨by linarith, k3, by linarith, k4, by linarith⟩, by linarith, hwin, k2, ?_⟩
    intro turn time hm hf
    rcases k2.lt_or_eq with k2 | k2
    · refine least p.turn turn ?_ hm time hf
      have ht : p.time = (stop - p.turn) / u := by field_simp; linarith
      have := k6 k2
      rw [ht] at this
      linarith
    · rw [← k2]; exact hm
  · have g4 : duration ((start - stop) * (1 / d)) = (start - stop) / d := by
      rw [duration_nonneg (mul_nonneg (by linarith) (by positivity))]; field_simp
    rw [timeDown hd (not_lt.1 hlt), ← hd'] at hw
    simp only [if_neg hlt, g4]
    rw [if_neg (by linarith)]
    have hx : 0 ≤ (start - stop) / d := div_nonneg (by linarith) hd.le
    obtain ⟨k1, k2, k3, k4, k5, k6⟩ := warmUpWithin_spec (s := s) (printing := printing) (w := window)
      (extra := 0) (limited := window - (start - stop) / d) (outer := stop) (mid := mid)
      (stop := stop) hu hd (by linarith) h2 (by rw [mul_zero, add_zero])
    rw [← hu'] at k4
    rw [← hd'] at k5 k6
    have hwin : (warmUpWithin s printing window 0 (window - (start - stop) / d) stop mid
        stop).window = window := by unfold warmUpWithin; dsimp only; split_ifs <;> rfl
    generalize warmUpWithin s printing window 0 (window - (start - stop) / d) stop mid stop = p at *
    have hcool : (start - p.turn) / d = (start - stop) / d + (stop - p.turn) / d := by field_simp; ring
    have hcool2 : 0 ≤ (stop - p.turn) / d := div_nonneg (by linarith) hd.le
    refine ⟨⟨by linarith, by linarith, by linarith, k4, by rw [← hd']; linarith⟩, by linarith, hwin, k2, ?_⟩
    intro turn time hm hf
    rcases k2.lt_or_eq with k2 | k2
    · refine least p.turn turn ?_ hm time hf
      have ht : p.time = (stop - p.turn) / u := by field_simp; linarith
      have := k6 k2
      rw [ht] at this
      linarith
    · rw [← k2]; exact hm

/-- **C27.** If the window is too short, no heating time is planned at all. -/
theorem C27_warm_up_short (hu : 0 < s.up printing) (hd : 0 < s.down printing)
    (hw : window < timeFromTo s start stop printing) :
    (warmUp s window start mid stop printing).time = 0 ∧
      (warmUp s window start mid stop printing).turn = min start stop := by
  have g1 : duration (1 / s.down printing) = 1 / s.down printing := duration_nonneg (by positivity)
  have g2 : duration (1 / s.up printing) = 1 / s.up printing := duration_nonneg (by positivity)
  unfold warmUp
  simp only [g1, g2]
  by_cases hlt : start < stop
  · have g4 : duration ((stop - start) * (1 / s.up printing)) = (stop - start) / s.up printing := by
      rw [duration_nonneg (mul_nonneg (by linarith) (by positivity))]; field_simp
    rw [timeUp hu hlt.le] at hw
    simp only [if_pos hlt, g4]
    rw [if_pos (by linarith)]
    exact ⟨rfl, rfl⟩
  · have g4 : duration ((start - stop) * (1 / s.down printing)) = (start - stop) / s.down printing := by
      rw [duration_nonneg (mul_nonneg (by linarith) (by positivity))]; field_simp
    rw [timeDown hd (not_lt.1 hlt)] at hw
    simp only [if_neg hlt, g4]
    rw [if_pos (by linarith)]
    exact ⟨rfl, rfl⟩

/-- A nozzle that heats with 2 and cools with 1 degree per second. -/
def slow : Speeds := ⟨2, 1, 1/2⟩

/-- Thirty idle seconds between 200 and 210 degrees: cooling to 190 in ten seconds is possible, and to 183 1/3
if the standby temperature is low; a window of 4 seconds is too short. -/
example : warmUp slow 30 200 190 210 false = ⟨30, 10, 190⟩ ∧
    warmUp slow 30 200 100 210 false = ⟨30, 40 / 3, 550 / 3⟩ ∧
    timeFromTo slow 200 210 false = 5 ∧ warmUp slow 4 200 190 210 false = ⟨4, 0, 200⟩ := by decide +kernel

/-- **C27** does not hold for windows that are too short for heating up: although the nozzle has to get 10 degrees
hotter, heating starts only when the window is over. -/
theorem C27_short_window_counterexample :
    ∃ (s : Speeds) (window start mid stop : ℚ), 0 < s.up false ∧ 0 < s.down false ∧ 0 ≤ window ∧ mid ≤ start ∧
      mid ≤ stop ∧ (warmUp s window start mid stop false).turn +
        s.up false * (warmUp s window start mid stop false).time + 10 = stop :=
  ⟨slow, 4, 200, 190, 210, by decide +kernel⟩

theorem coolDownWithin_spec (hu : 0 < s.up printing) (hd : 0 < s.down printing) {w extra limited outer : ℚ}
    (hl : 0 ≤ limited) (hm : outer ≤ mid) (hstop : outer - s.down printing * extra = stop) :
    let p := coolDownWithin s printing w extra limited outer mid stop
    extra ≤ p.time ∧ p.time ≤ extra + limited ∧ p.turn ≤ mid ∧ outer ≤ p.turn ∧
    p.turn - s.down printing * p.time ≤ stop ∧
    (p.turn < mid → p.turn - s.down printing * p.time = stop) := by
  set u := s.up printing with hu'
  set d := s.down printing with hd'
  have h1 : duration (1 / d) = 1 / d := duration_nonneg (by positivity)
  have h2 : duration (1 / u) = 1 / u := duration_nonneg (by positivity)
  have h3 : timeFromTo s mid outer printing = (mid - outer) / d := timeDown hd hm
  have h30 : 0 ≤ (mid - outer) / d := div_nonneg (by linarith) hd.le
  have h4 : duration (limited * (1 / u)) = limited * (1 / u) := duration_nonneg (by positivity)
  have h5 : duration (1 / d + 1 / u) = 1 / d + 1 / u := duration_nonneg (by positivity)
  have h6 : limited * (1 / u) / (1 / d + 1 / u) = limited * d / (u + d) := by field_simp
  have h7 : duration (limited * d / (u + d)) = limited * d / (u + d) := duration_nonneg (by positivity)
  have hud : 0 < u + d := by positivity
  unfold coolDownWithin
  simp only [← hu', ← hd', h1, h2, h3, h4, h5, h6, h7, duration_nonneg h30]
  split_ifs with hc
  · dsimp only
    have e : (mid - outer) / d ≤ (mid - outer) / d * (1 + 1 / d / (1 / u)) := by
      have : 0 ≤ (mid - outer) / d * (1 / d / (1 / u)) := by positivity
      linarith
    refine ⟨by linarith, by linarith, le_rfl, hm, ?_, fun h => absurd h (lt_irrefl _)⟩
    rw [← hstop]
    have : mid - d * (extra + (mid - outer) / d) = outer - d * extra := by field_simp; ring
    exact this.le
  · dsimp only
    have k : 0 ≤ limited * d / (u + d) := by positivity
    have k2 : limited * d / (u + d) ≤ limited := by
      rw [div_le_iff₀ hud]; nlinarith
    have e2 : stop + (extra + limited * d / (u + d)) / (1 / d) = outer + limited * d / (u + d) * d := by
      rw [← hstop]; field_simp; ring
    have k3 : 0 ≤ limited * d / (u + d) * d := by positivity
    rw [e2]
    refine ⟨by linarith, by linarith, min_le_left _ _, le_min hm (by linarith), ?_, ?_⟩
    · have : outer + limited * d / (u + d) * d - d * (extra + limited * d / (u + d)) = stop := by
        rw [← hstop]; ring
      have := min_le_right mid (outer + limited * d / (u + d) * d)
      linarith
    · intro h
      rcases min_choice mid (outer + limited * d / (u + d) * d) with hc' | hc'
      · rw [hc'] at h; exact absurd h (lt_irrefl _)
      · rw [hc', ← hstop]; ring

/-- **C27.** The plan for heating up and cooling down again at the end of a print: the cooling time fits in
the window, the highest temperature is between the outer temperatures and the printing temperature, and cooling
from it for the planned time ends at the target or below. What is missing: that the highest temperature can be
reached in the time before (see `C27_cool_down_counterexample`). -/
theorem C27_cool_down_partial (hu : 0 < s.up printing) (hd : 0 < s.down printing) (h1 : start ≤ mid) (h2 : stop ≤ mid)
    (hw : timeFromTo s start stop printing ≤ window) :
    let p := coolDown s window start mid stop printing
    0 ≤ p.time ∧ p.time ≤ window ∧ p.window = window ∧ max start stop ≤ p.turn ∧ p.turn ≤ mid ∧
    p.turn - s.down printing * p.time ≤ stop ∧
    (p.turn < mid → p.turn - s.down printing * p.time = stop) := by
  have hw0 : 0 ≤ window := le_trans (le_max_left _ _) hw
  have g1 : duration (1 / s.down printing) = 1 / s.down printing := duration_nonneg (by positivity)
  have g2 : duration (1 / s.up printing) = 1 / s.up printing := duration_nonneg (by positivity)
  have g3 : duration window = window := duration_nonneg hw0
  have hwin : ∀ extra limited outer, (coolDownWithin s printing window extra limited outer mid stop).window =
      window := by
    intro extra limited outer
    unfold coolDownWithin; dsimp only; split_ifs <;> rfl
  unfold coolDown
  simp only [g1, g2, g3]
  by_cases hlt : start < stop
  · have g4 : duration ((stop - start) * (1 / s.up printing)) = (stop - start) / s.up printing := by
      rw [duration_nonneg (mul_nonneg (by linarith) (by positivity))]; field_simp
    rw [timeUp hu hlt.le] at hw
    have hx : 0 ≤ (stop - start) / s.up printing := div_nonneg (by linarith) hu.le
    simp only [if_pos hlt, g4]
    rw [if_neg (by linarith)]
    obtain ⟨k1, k2, k3, k4, k5, k6⟩ := coolDownWithin_spec (s := s) (printing := printing) (w := window)
      (extra := 0) (limited := window - (stop - start) / s.up printing) (outer := stop) (mid := mid)
      (stop := stop) hu hd (by linarith) h2 (by rw [mul_zero, sub_zero])
    exact ⟨k1, by linarith, hwin _ _ _, max_le (by linarith) k4, k3, k5, k6⟩
  · have g4 : duration ((start - stop) * (1 / s.down printing)) = (start - stop) / s.down printing := by
      rw [duration_nonneg (mul_nonneg (by linarith) (by positivity))]; field_simp
    rw [timeDown hd (not_lt.1 hlt)] at hw
    have hx : 0 ≤ (start - stop) / s.down printing := div_nonneg (by linarith) hd.le
    simp only [if_neg hlt, g4]
    rw [if_neg (by linarith)]
    obtain ⟨k1, k2, k3, k4, k5, k6⟩ := coolDownWithin_spec (s := s) (printing := printing) (w := window)
      (extra := (start - stop) / s.down printing) (limited := window - (start - stop) / s.down printing)
      (outer := start) (mid := mid) (stop := stop) hu hd (by linarith) h1 (by field_simp; ring)
    exact ⟨by linarith, by linarith, hwin _ _ _, max_le k4 (by linarith), k3, k5, k6⟩

/-- With equal speeds the computation is right. -/
example : coolDown ⟨2, 1, 1/2⟩ 100 200 220 190 true = ⟨100, 20, 220⟩ ∧
    coolDown ⟨2, 1, 1/2⟩ 10 200 220 200 true = ⟨10, 5, 415/2⟩ := by decide +kernel

/-- **C27** does not hold for cooling down: the shares of heating and cooling are swapped. With a nozzle that
heats with 1 and cools with 4 degrees per second, in a window of 10 seconds from 200 to 200 degrees, 8 seconds of cooling are
planned: the 2 seconds of heating reach 202 degrees, and 8 seconds of cooling end 30 degrees too low. The shares the
other way round (2 seconds of cooling from 208 degrees) would end at exactly 200 degrees. -/
theorem C27_cool_down_counterexample :
    ∃ (s : Speeds) (window start mid stop : ℚ), 0 < s.up true ∧ 0 < s.down true ∧ start ≤ mid ∧ stop ≤ mid ∧
      timeFromTo s start stop true ≤ window ∧
      start + s.up true * (window - (coolDown s window start mid stop true).time) = 202 ∧
      (coolDown s window start mid stop true).turn = 232 ∧
      start + s.up true * (window - (coolDown s window start mid stop true).time) -
        s.down true * (coolDown s window start mid stop true).time = stop - 30 ∧
      start + s.up true * (window - 2) - s.down true * 2 = stop :=
  ⟨⟨1, 4, 0⟩, 10, 200, 250, 200, by decide +kernel⟩

end Verif.Heat
