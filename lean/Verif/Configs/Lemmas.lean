import Verif.Configs.Model
import Mathlib.Tactic.Linarith
import Mathlib.Tactic.Ring
import Mathlib.Tactic.FieldSimp
import Mathlib.Tactic.SplitIfs
import Mathlib.Tactic.Positivity

namespace Verif.Configs

open Spec

theorem smoothValue_ramp (a b : ℚ) (count : Nat) (layer : Int) (h0 : 0 ≤ layer) (h : layer < count) : smoothValue a b layer count = min a b + (a - min a b) * (layer / count) := by
  have hc : (count : ℚ) ≠ 0 := by
    have : (0 : Int) < count := lt_of_le_of_lt h0 h
    exact_mod_cast (ne_of_gt this)
  unfold smoothValue
  field_simp
  ring

theorem config_keeps (v : Env) (l : Int) (f : Feature) :
    (config v l f).width = (baseConfig v l f).width ∧ (config v l f).flow = (baseConfig v l f).flow ∧ (config v l f).thickness = (baseConfig v l f).thickness := by
  unfold config
  dsimp only
  split_ifs
  · cases firstSpeeds v l f <;> exact ⟨rfl, rfl, rfl⟩
  · exact ⟨rfl, rfl, rfl⟩

theorem baseConfig_speeds (v : Env) (l l' : Int) (f : Feature) : (baseConfig v l f).speeds = (baseConfig v l' f).speeds := by
  cases f with
  | mesh m k => cases k <;> rfl
  | _ => rfl

theorem ramp_mono {a b : ℚ} {count : Nat} {i j : Int} {x y : ℚ} (h0 : 0 ≤ i) (hij : i ≤ j) (hx : Ramp a b count i x) (hy : Ramp a b count j y) : min a b ≤ x ∧ x ≤ y ∧ y ≤ a := by
  have hd : 0 ≤ a - min a b := sub_nonneg.2 (min_le_left a b)
  have hfrac : ∀ k : Int, 0 ≤ k → k < count → 0 ≤ (k : ℚ) / count ∧ (k : ℚ) / count ≤ 1 := by
    intro k hk0 hk
    have hc : (0 : ℚ) < count := by
      have : (0 : Int) < count := lt_of_le_of_lt hk0 hk
      exact_mod_cast this
    refine ⟨div_nonneg (by exact_mod_cast hk0) (le_of_lt hc), ?_⟩
    rw [div_le_one hc]
    exact_mod_cast le_of_lt hk
  by_cases hj : j < count
  · have hi : i < count := lt_of_le_of_lt hij hj
    obtain ⟨i0, i1⟩ := hfrac i h0 hi
    obtain ⟨j0, j1⟩ := hfrac j (le_trans h0 hij) hj
    have hc : (0 : ℚ) ≤ count := by positivity
    have hle : (i : ℚ) / count ≤ (j : ℚ) / count := div_le_div_of_nonneg_right (by exact_mod_cast hij) hc
    rw [hx.1 hi, hy.1 hj]
    have p1 := mul_nonneg hd i0
    have p2 := mul_le_mul_of_nonneg_left hle hd
    have p3 := mul_le_mul_of_nonneg_left j1 hd
    refine ⟨by linarith, by linarith, by linarith⟩
  · rw [hy.2 (not_lt.1 hj)]
    by_cases hi : i < count
    · obtain ⟨i0, i1⟩ := hfrac i h0 hi
      rw [hx.1 hi]
      have p1 := mul_nonneg hd i0
      have p3 := mul_le_mul_of_nonneg_left i1 hd
      refine ⟨by linarith, by linarith, le_refl _⟩
    · rw [hx.2 (not_lt.1 hi)]
      exact ⟨min_le_left a b, le_refl _, le_refl _⟩

end Verif.Configs
