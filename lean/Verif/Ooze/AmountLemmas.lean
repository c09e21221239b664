import Verif.Ooze.Spec
import Mathlib.Tactic.Linarith
import Mathlib.Tactic.FieldSimp
import Mathlib.Tactic.Ring
import Mathlib.Tactic.Positivity
import Mathlib.Tactic.LinearCombination

namespace Verif.Ooze

theorem Half.duration_nonneg (h : Half) (z : ℚ) : 0 ≤ h.duration z := le_max_left _ _

theorem Half.during_nonneg {h : Half} (hv : Valid h) (z : ℚ) : 0 ≤ h.during z := mul_nonneg (h.duration_nonneg z) hv.speed.le

theorem Half.hop_nonneg {h : Half} (hv : Valid h) (z : ℚ) : 0 ≤ h.hop z := by
  unfold Half.hop
  split
  · next hz => exact le_min (mul_nonneg hv.distance.le hv.lower) (mul_nonneg hv.speed.le hz.le)
  · exact le_refl _

theorem Half.still_nonneg {h : Half} (hv : Valid h) : 0 ≤ h.still := by
  unfold Half.still
  have := mul_le_mul_of_nonneg_left hv.upper hv.distance.le
  linarith

/-- What is processed in the three phases is the whole distance. -/
theorem Half.sum {h : Half} (hv : Valid h) {z : ℚ} (hz : 0 ≤ z) : h.still + h.hop z + h.during z = h.distance := by
  have hs := hv.speed
  have e : h.distance / h.speed * h.ratio * h.speed = h.distance * h.ratio := by field_simp
  unfold Half.still Half.hop Half.during Half.duration
  by_cases h0 : 0 < z
  · rw [if_pos h0]
    by_cases hle : h.distance * h.ratio ≤ h.speed * z
    · rw [min_eq_left hle, max_eq_left]
      · ring
      · by_contra hc
        have := mul_lt_mul_of_pos_right (lt_of_not_ge hc) hs
        rw [zero_mul, sub_mul, e] at this
        linarith
    · rw [min_eq_right (le_of_not_ge hle), max_eq_right]
      · rw [sub_mul, e]
        ring
      · by_contra hc
        have := mul_lt_mul_of_pos_right (lt_of_not_ge hc) hs
        rw [zero_mul, sub_mul, e] at this
        linarith
  · rw [if_neg h0]
    have : z = 0 := le_antisymm (le_of_not_gt h0) hz
    subst this
    rw [max_eq_right, sub_zero, e]
    · ring
    · have := hv.distance
      have := hv.lower
      rw [sub_zero]
      positivity

theorem Half.during_div {h : Half} (hv : Valid h) (z : ℚ) : h.during z / h.speed = h.duration z := by
  unfold Half.during
  have := hv.speed
  field_simp

end Verif.Ooze
