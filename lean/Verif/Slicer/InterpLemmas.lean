import Verif.Slicer.Model
import Mathlib.Tactic.Linarith
import Mathlib.Tactic.Ring
import Mathlib.Algebra.Order.Field.Rat
import Mathlib.Tactic.FieldSimp
import Mathlib.Tactic.Push

/-! # Lemmas on `interpolate` -/

namespace Verif.Slicer

theorem tdiv_of_lt {a b : Int} (h1 : 0 ≤ a) (h2 : a < b) : a.tdiv b = 0 := Int.tdiv_eq_zero_of_lt h1 h2

theorem interp_neg (x x0 x1 y0 y1 : Int) : interpolate x x0 x1 (-y0) (-y1) = -interpolate x x0 x1 y0 y1 := by
  unfold interpolate
  dsimp only
  have e : (-y1 - -y0) * (x - x0) = -((y1 - y0) * (x - x0)) := by ring
  rw [e]
  generalize (y1 - y0) * (x - x0) = n
  generalize x1 - x0 = d
  rcases lt_trichotomy n 0 with h | h | h
  · rw [if_pos (by omega), if_neg (by omega)]
    have : -n + d.tdiv 4 = -(n + (-d).tdiv 4) := by rw [Int.neg_tdiv]; ring
    rw [this, Int.neg_tdiv]; ring
  · subst h
    simp only [neg_zero, gt_iff_lt, lt_self_iff_false, if_false, zero_add]
    have : ((-d).tdiv 4).tdiv d = 0 := by
      rw [Int.neg_tdiv, Int.neg_tdiv]
      have : (d.tdiv 4).tdiv d = 0 := by
        rcases le_total 0 d with hd | hd
        · rcases eq_or_lt_of_le hd with h0 | h0
          · rw [← h0]; rfl
          · rw [Int.tdiv_eq_ediv_of_nonneg hd]
            exact tdiv_of_lt (by positivity) (by omega)
        · have hd' : d = -(-d) := by ring
          rw [hd', Int.neg_tdiv, Int.neg_tdiv, Int.tdiv_neg, neg_neg]
          rcases eq_or_lt_of_le hd with h0 | h0
          · rw [h0]; rfl
          · rw [Int.tdiv_eq_ediv_of_nonneg (a := -d) (by omega)]
            exact tdiv_of_lt (by omega) (by omega)
      rw [this]; rfl
    rw [this]; ring
  · rw [if_neg (by omega), if_pos (by omega)]
    have : -n + (-d).tdiv 4 = -(n + d.tdiv 4) := by rw [Int.neg_tdiv]; ring
    rw [this, Int.neg_tdiv]; ring

/-- From below, with increasing values. -/
theorem interp_up {x x0 x1 y0 y1 : Int} (h : x0 < x1) (hx : x0 ≤ x) (hy : y0 ≤ y1) :
    interpolate x x0 x1 y0 y1 = y0 + ((y1 - y0) * (x - x0) + (x1 - x0) / 4) / (x1 - x0) := by
  unfold interpolate
  dsimp only
  have hn : 0 ≤ (y1 - y0) * (x - x0) := mul_nonneg (by omega) (by omega)
  generalize (y1 - y0) * (x - x0) = n at *
  have hd : 0 < x1 - x0 := by omega
  generalize x1 - x0 = d at *
  congr 1
  rcases eq_or_lt_of_le hn with h0 | h0
  · subst h0
    simp only [gt_iff_lt, lt_self_iff_false, if_false, zero_add]
    rw [Int.neg_tdiv, Int.neg_tdiv, Int.tdiv_eq_ediv_of_nonneg (a := d) (by omega), tdiv_of_lt (by omega) (by omega),
      Int.ediv_eq_zero_of_lt (by omega) (by omega)]
    rfl
  · rw [if_pos h0, Int.tdiv_eq_ediv_of_nonneg (a := d) (by omega), Int.tdiv_eq_ediv_of_nonneg (by omega)]

/-- From above, with values increasing away from the apex. -/
theorem interp_down {x x0 x1 y0 y1 : Int} (h : x1 < x0) (hx : x ≤ x0) (hy : y0 ≤ y1) :
    interpolate x x0 x1 y0 y1 = y0 + max 0 (((y1 - y0) * (x0 - x) - (x0 - x1) / 4) / (x0 - x1)) := by
  unfold interpolate
  dsimp only
  have hn : 0 ≤ (y1 - y0) * (x0 - x) := mul_nonneg (by omega) (by omega)
  have e : (y1 - y0) * (x - x0) = -((y1 - y0) * (x0 - x)) := by ring
  have e2 : x1 - x0 = -(x0 - x1) := by ring
  rw [e, e2]
  generalize (y1 - y0) * (x0 - x) = n at *
  have hd : 0 < x0 - x1 := by omega
  generalize x0 - x1 = d at *
  congr 1
  rw [if_neg (by omega), neg_neg, Int.tdiv_neg, Int.tdiv_eq_ediv_of_nonneg (a := d) (by omega)]
  have : -n + d / 4 = -(n - d / 4) := by ring
  rw [this, Int.neg_tdiv, neg_neg]
  rcases le_total (d / 4) n with h1 | h1
  · rw [Int.tdiv_eq_ediv_of_nonneg (by omega), max_eq_right (Int.ediv_nonneg (by omega) (by omega))]
  · have h2 : (n - d / 4) = -(d / 4 - n) := by ring
    have h3 : (n - d / 4).tdiv d = 0 := by
      rw [h2, Int.neg_tdiv, tdiv_of_lt (by omega) (by omega)]; rfl
    rw [h3]
    symm
    apply max_eq_left
    have : (n - d / 4) / d < 1 := Int.ediv_lt_of_lt_mul hd (by omega)
    omega

/-- From below: accuracy. -/
theorem up_bounds {x x0 x1 y0 y1 : Int} (h : x0 < x1) (hx : x0 ≤ x) (hx' : x ≤ x1) (hy : y0 ≤ y1) :
    let r := interpolate x x0 x1 y0 y1
    y0 ≤ r ∧ r ≤ y1 ∧ (r - y0) * (x1 - x0) ≤ (y1 - y0) * (x - x0) + (x1 - x0) / 4 ∧
      (y1 - y0) * (x - x0) + (x1 - x0) / 4 < (r - y0 + 1) * (x1 - x0) := by
  intro r
  have hr : r - y0 = ((y1 - y0) * (x - x0) + (x1 - x0) / 4) / (x1 - x0) := by
    show interpolate x x0 x1 y0 y1 - y0 = _
    rw [interp_up h hx hy]; ring
  have hn : 0 ≤ (y1 - y0) * (x - x0) := mul_nonneg (by omega) (by omega)
  have hn' : (y1 - y0) * (x - x0) ≤ (y1 - y0) * (x1 - x0) := mul_le_mul_of_nonneg_left (by omega) (by omega)
  have hd : 0 < x1 - x0 := by omega
  have h1 : (r - y0) * (x1 - x0) ≤ (y1 - y0) * (x - x0) + (x1 - x0) / 4 := by
    rw [hr]; exact Int.ediv_mul_le _ (by omega)
  have h2 : (y1 - y0) * (x - x0) + (x1 - x0) / 4 < (r - y0 + 1) * (x1 - x0) := by
    rw [hr]; exact Int.lt_ediv_add_one_mul_self _ hd
  have h3 : 0 ≤ r - y0 := by rw [hr]; exact Int.ediv_nonneg (by omega) (by omega)
  refine ⟨by omega, ?_, h1, h2⟩
  have : (r - y0) * (x1 - x0) < (y1 - y0 + 1) * (x1 - x0) := by
    have : (y1 - y0 + 1) * (x1 - x0) = (y1 - y0) * (x1 - x0) + (x1 - x0) := by ring
    omega
  have := lt_of_mul_lt_mul_right this (by omega)
  omega

/-- From above: accuracy. -/
theorem down_bounds {x x0 x1 y0 y1 : Int} (h : x1 < x0) (hx : x ≤ x0) (hx' : x1 ≤ x) (hy : y0 ≤ y1) :
    let r := interpolate x x0 x1 y0 y1
    y0 ≤ r ∧ r ≤ y1 ∧ (r = y0 ∨ (r - y0) * (x0 - x1) ≤ (y1 - y0) * (x0 - x) - (x0 - x1) / 4) ∧
      (y1 - y0) * (x0 - x) - (x0 - x1) / 4 < (r - y0 + 1) * (x0 - x1) := by
  intro r
  have hr : r - y0 = max 0 (((y1 - y0) * (x0 - x) - (x0 - x1) / 4) / (x0 - x1)) := by
    show interpolate x x0 x1 y0 y1 - y0 = _
    rw [interp_down h hx hy]; ring
  have hn : 0 ≤ (y1 - y0) * (x0 - x) := mul_nonneg (by omega) (by omega)
  have hn' : (y1 - y0) * (x0 - x) ≤ (y1 - y0) * (x0 - x1) := mul_le_mul_of_nonneg_left (by omega) (by omega)
  have hd : 0 < x0 - x1 := by omega
  have g1 := Int.ediv_mul_le ((y1 - y0) * (x0 - x) - (x0 - x1) / 4) (b := x0 - x1) (by omega)
  have g2 := Int.lt_ediv_add_one_mul_self ((y1 - y0) * (x0 - x) - (x0 - x1) / 4) hd
  generalize ((y1 - y0) * (x0 - x) - (x0 - x1) / 4) / (x0 - x1) = q at *
  have h1 : r = y0 ∨ (r - y0) * (x0 - x1) ≤ (y1 - y0) * (x0 - x) - (x0 - x1) / 4 := by
    rcases le_total 0 q with hq | hq
    · right; rw [hr, max_eq_right hq]; exact g1
    · left; rw [max_eq_left hq] at hr; omega
  have h2 : (y1 - y0) * (x0 - x) - (x0 - x1) / 4 < (r - y0 + 1) * (x0 - x1) := by
    refine lt_of_lt_of_le g2 (mul_le_mul_of_nonneg_right ?_ (by omega))
    rw [hr]; have := le_max_right 0 q; omega
  have h3 : 0 ≤ r - y0 := by rw [hr]; exact le_max_left _ _
  refine ⟨by omega, ?_, h1, h2⟩
  rcases h1 with h1 | h1
  · omega
  · have : (r - y0) * (x0 - x1) < (y1 - y0 + 1) * (x0 - x1) := by
      have : (y1 - y0 + 1) * (x0 - x1) = (y1 - y0) * (x0 - x1) + (x0 - x1) := by ring
      omega
    have := lt_of_mul_lt_mul_right this (by omega)
    omega

/-- Both directions agree up to one unit, increasing values. -/
theorem both_bounds {x x0 x1 y0 y1 : Int} (h : x0 < x1) (hx : x0 ≤ x) (hx' : x ≤ x1) (hy : y0 ≤ y1) :
    interpolate x x0 x1 y0 y1 ≤ interpolate x x1 x0 y1 y0 ∧
    interpolate x x1 x0 y1 y0 ≤ interpolate x x0 x1 y0 y1 + 1 := by
  obtain ⟨a1, a2, a3, a4⟩ := up_bounds h hx hx' hy
  have hneg := interp_neg x x1 x0 (-y1) (-y0)
  rw [neg_neg, neg_neg] at hneg
  obtain ⟨b1, b2, b3, b4⟩ := down_bounds (x := x) (x0 := x1) (x1 := x0) (y0 := -y1) (y1 := -y0) h hx' hx (by omega)
  rw [hneg]
  generalize interpolate x x0 x1 y0 y1 = r at *
  generalize interpolate x x1 x0 (-y1) (-y0) = t at *
  have hd : 0 < x1 - x0 := by omega
  have e : (-y0 - -y1) * (x1 - x) = (y1 - y0) * (x1 - x0) - (y1 - y0) * (x - x0) := by ring
  rw [e] at b3 b4
  constructor
  · rcases b3 with b3 | b3
    · omega
    · by_contra hc
      have h1 : (t - -y1 + (r - y0)) * (x1 - x0) ≤ (y1 - y0) * (x1 - x0) := by
        have : (t - -y1 + (r - y0)) * (x1 - x0) = (t - -y1) * (x1 - x0) + (r - y0) * (x1 - x0) := by ring
        omega
      have := le_of_mul_le_mul_right h1 hd
      omega
  · have h1 : (y1 - y0) * (x1 - x0) < (t - -y1 + 1 + (r - y0 + 1)) * (x1 - x0) := by
      have : (t - -y1 + 1 + (r - y0 + 1)) * (x1 - x0) = (t - -y1 + 1) * (x1 - x0) + (r - y0 + 1) * (x1 - x0) := by ring
      omega
    have := lt_of_mul_lt_mul_right h1 (by omega)
    omega

theorem interp_abs_dir {x x0 x1 y0 y1 : Int} (h : x0 < x1) (hx : x0 ≤ x) (hx' : x ≤ x1) :
    |interpolate x x0 x1 y0 y1 - interpolate x x1 x0 y1 y0| ≤ 1 := by
  rcases le_total y0 y1 with hy | hy
  · obtain ⟨h1, h2⟩ := both_bounds h hx hx' hy
    rw [abs_le]; omega
  · obtain ⟨h1, h2⟩ := both_bounds (y0 := -y0) (y1 := -y1) h hx hx' (by omega)
    rw [interp_neg, interp_neg] at h1 h2
    rw [abs_le]; omega

/-- From below the value at the far end is exact. -/
theorem interp_far_up {x0 x1 y0 y1 : Int} (h : x0 < x1) : interpolate x1 x0 x1 y0 y1 = y1 := by
  have key : ∀ y0 y1 : Int, y0 ≤ y1 → interpolate x1 x0 x1 y0 y1 = y1 := by
    intro y0 y1 hy
    obtain ⟨h1, h2, h3, h4⟩ := up_bounds h (le_of_lt h) le_rfl hy
    generalize interpolate x1 x0 x1 y0 y1 = r at *
    have : (y1 - y0) * (x1 - x0) < (r - y0 + 1) * (x1 - x0) := by omega
    have := lt_of_mul_lt_mul_right this (by omega)
    omega
  rcases le_total y0 y1 with hy | hy
  · exact key _ _ hy
  · have := key (-y0) (-y1) (by omega)
    rw [interp_neg] at this; omega

/-- From above the value at the far end is off by at most one unit. -/
theorem interp_far_down {x0 x1 y0 y1 : Int} (h : x1 < x0) : |interpolate x1 x0 x1 y0 y1 - y1| ≤ 1 := by
  have := interp_abs_dir (x := x1) (x0 := x1) (x1 := x0) (y0 := y1) (y1 := y0) h le_rfl (le_of_lt h)
  have h2 : interpolate x1 x1 x0 y1 y0 = y1 := by
    unfold interpolate
    simp only [sub_self, mul_zero, gt_iff_lt, lt_self_iff_false, if_false, zero_add]
    rw [Int.neg_tdiv, Int.neg_tdiv, Int.tdiv_eq_ediv_of_nonneg (a := x0 - x1) (by omega), tdiv_of_lt (by omega) (by omega)]
    omega
  rw [h2, abs_sub_comm] at this
  exact this

/-- The value at the near end is exact. -/
theorem interp_near {x0 x1 y0 y1 : Int} (h : x0 ≠ x1) : interpolate x0 x0 x1 y0 y1 = y0 := by
  unfold interpolate
  simp only [sub_self, mul_zero, gt_iff_lt, lt_self_iff_false, if_false, zero_add]
  have : ((-(x1 - x0)).tdiv 4).tdiv (x1 - x0) = 0 := by
    rcases lt_or_gt_of_ne h with h | h
    · rw [Int.neg_tdiv, Int.neg_tdiv, Int.tdiv_eq_ediv_of_nonneg (a := x1 - x0) (by omega), tdiv_of_lt (by omega) (by omega)]
      rfl
    · rw [Int.tdiv_eq_ediv_of_nonneg (a := -(x1 - x0)) (by omega)]
      have e : x1 - x0 = -(x0 - x1) := by ring
      rw [e, neg_neg, Int.tdiv_neg, tdiv_of_lt (by omega) (by omega)]
      rfl
  rw [this]; omega

end Verif.Slicer
