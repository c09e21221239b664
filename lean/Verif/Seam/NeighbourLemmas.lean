import Verif.Seam.NeighbourModel
import Verif.Seam.NeighbourSpec
import Mathlib.Algebra.BigOperators.Intervals
import Mathlib.Algebra.BigOperators.Fin
import Mathlib.Data.List.Rotate
import Mathlib.Tactic.Linarith
import Mathlib.Tactic.Ring
import Mathlib.Tactic.FieldSimp
import Mathlib.Tactic.NormNum
import Mathlib.Tactic.Positivity

/-! # Lemmas about points at a distance along a wall -/

namespace Verif.Seam

open NeighbourSpec

theorem position_forward (n v k : ℕ) (hn : n < 2 ^ 32) (hv : v < n) (hk : k ≤ n) :
    position n v k = (v + k) % n := by
  unfold position
  have h : ((v : ℤ) + k + n) % 2 ^ 64 = v + k + n := Int.emod_eq_of_lt (by positivity) (by
    have : ((v + k + n : ℕ) : ℤ) < 2 ^ 64 := by exact_mod_cast (by omega : v + k + n < 2 ^ 64)
    push_cast at this
    exact this)
  rw [h]
  have : ((v : ℤ) + k + n).toNat = v + k + n := by omega
  rw [this, Nat.add_mod_right]

theorem position_backward (n v k : ℕ) (hn : n < 2 ^ 32) (hv : v < n) (hk : k ≤ n) :
    position n v (-(k : ℤ)) = (v + n - k) % n := by
  unfold position
  have h0 : (v : ℤ) + -(k : ℤ) + n = ((v + n - k : ℕ) : ℤ) := by omega
  rw [h0]
  have h : ((v + n - k : ℕ) : ℤ) % 2 ^ 64 = ((v + n - k : ℕ) : ℤ) := Int.emod_eq_of_lt (by positivity) (by
    exact_mod_cast (by omega : v + n - k < 2 ^ 64))
  rw [h, Int.toNat_natCast]

/-- The loop passes segments until the distance is reached. -/
theorem walkLoop_ok (segs : List ℕ) (v : ℕ) (direction sizeDelta : ℤ) (d n : ℕ) (seg : ℕ → ℕ)
    (hseg : ∀ i, i < n → segs.getD (position segs.length v ((i + 1 : ℕ) * direction + sizeDelta)) 0 = seg i)
    (htot : d ≤ passed seg n) (fuel j : ℕ) (hj : n ≤ j + fuel) (hjn : j ≤ n) (s : ℕ) (hlt : passed seg j < d) :
    ∃ k, k < n ∧ passed seg k < d ∧ d ≤ passed seg (k + 1) ∧
      walkLoop segs v direction sizeDelta d fuel ⟨j * direction, passed seg j, s⟩ =
        some ⟨(k + 1 : ℕ) * direction, passed seg (k + 1), seg k⟩ := by
  induction fuel generalizing j s with
  | zero =>
    have : j = n := by omega
    subst this
    omega
  | succ fuel ih =>
    have hj' : j < n := by
      by_contra h
      have : j = n := by omega
      subst this
      omega
    have e1 : (j : ℤ) * direction + direction = ((j + 1 : ℕ) : ℤ) * direction := by push_cast; ring
    have e2 : passed seg j + seg j = passed seg (j + 1) := by unfold passed; rw [Finset.sum_range_succ]
    unfold walkLoop
    simp only
    rw [if_pos hlt, e1, hseg j hj', e2]
    by_cases h : passed seg (j + 1) < d
    · exact ih (j + 1) (by omega) (by omega) (seg j) h
    · refine ⟨j, hj', hlt, not_lt.1 h, ?_⟩
      cases fuel with
      | zero => unfold walkLoop; rw [if_neg h]
      | succ f => unfold walkLoop; rw [if_neg h]

/-- Once round the wall. -/
theorem passed_round (segs : List ℕ) (v : ℕ) :
    passed (fun i => segs.getD ((v + i) % segs.length) 0) segs.length = segs.sum := by
  have h : segs.sum = (segs.rotate v).sum := (List.Perm.sum_eq (List.rotate_perm segs v)).symm
  rw [h]
  unfold passed
  rw [Finset.sum_range]
  have hl : (segs.rotate v).length = segs.length := List.length_rotate ..
  rw [← Fin.sum_univ_getElem (segs.rotate v)]
  refine Fintype.sum_equiv (finCongr hl.symm) _ _ ?_
  intro i
  simp only [finCongr_apply, Fin.val_cast]
  have hm : (v + i.1) % segs.length < segs.length := Nat.mod_lt _ (by have := i.2; omega)
  rw [List.getElem_rotate, List.getD_eq_getElem?_getD, List.getElem?_eq_getElem hm, Option.getD_some]
  congr 2
  rw [Nat.add_comm]

theorem passed_round_back (segs : List ℕ) (v : ℕ) :
    passed (fun i => segs.getD ((v + segs.length - (i + 1)) % segs.length) 0) segs.length = segs.sum := by
  rw [← passed_round segs v]
  unfold passed
  rw [← Finset.sum_range_reflect]
  apply Finset.sum_congr rfl
  intro i hi
  have := Finset.mem_range.1 hi
  have e : v + segs.length - (segs.length - 1 - i + 1) = v + i := by omega
  simp only [e]

theorem tdiv_close (a b : ℤ) (hb : 0 < b) : |((a.tdiv b : ℤ) : ℚ) - a / b| ≤ 1 := by
  have hq : (0 : ℚ) < b := by exact_mod_cast hb
  have h1 : (a : ℚ) / b = (a.tdiv b : ℤ) + ((a.tmod b : ℤ) : ℚ) / b := by
    have h : a = b * a.tdiv b + a.tmod b := (Int.mul_tdiv_add_tmod a b).symm
    have hq' : (a : ℚ) = b * (a.tdiv b : ℤ) + (a.tmod b : ℤ) := by exact_mod_cast h
    generalize a.tdiv b = q at hq' ⊢
    generalize a.tmod b = r at hq' ⊢
    rw [hq', add_div, mul_div_cancel_left₀ _ (ne_of_gt hq)]
  have h2 : |((a.tmod b : ℤ) : ℚ)| < b := by
    have h3 : |a.tmod b| < b := by
      rw [abs_lt]
      constructor
      · have := Int.lt_tmod_of_pos a hb; linarith
      · exact Int.tmod_lt_of_pos a hb
    exact_mod_cast h3
  rw [h1, sub_add_cancel_left, abs_neg, abs_div, abs_of_pos hq]
  exact le_of_lt ((div_lt_one hq).2 h2)

theorem backward_close (a b : ℤ) (s r : ℕ) (hs : r < s) :
    |((backward a b s r : ℤ) : ℚ) - (a + (b - a) * (r / s))| ≤ r / 1000 + 1 := by
  have hs0 : (0 : ℤ) < s := by omega
  have hsq : (0 : ℚ) < s := by exact_mod_cast hs0
  have hr : (0 : ℚ) ≤ r := Nat.cast_nonneg r
  have h1 := tdiv_close ((b - a) * 1000) s hs0
  have h2 := tdiv_close (((b - a) * 1000).tdiv s * r) 1000 (by norm_num)
  unfold backward
  generalize ((b - a) * 1000).tdiv (s : ℤ) = u at h1 h2 ⊢
  generalize (u * (r : ℤ)).tdiv 1000 = t at h2 ⊢
  push_cast at h1 h2 ⊢
  have e : (a : ℚ) + t - (a + (b - a) * (r / s)) = (t - u * r / 1000) + (u - (b - a) * 1000 / s) * (r / 1000) := by
    field_simp
    ring
  rw [e]
  refine le_trans (abs_add_le _ _) ?_
  rw [abs_mul, abs_of_nonneg (by positivity : (0 : ℚ) ≤ (r : ℚ) / 1000)]
  have : |(u : ℚ) - (b - a) * 1000 / s| * ((r : ℚ) / 1000) ≤ 1 * (r / 1000) :=
    mul_le_mul_of_nonneg_right h1 (by positivity)
  linarith

theorem tdiv_between (x : ℤ) (k m : ℕ) (hk : k ≤ m) (hm : 0 < m) :
    min 0 x ≤ (x * k).tdiv m ∧ (x * k).tdiv m ≤ max 0 x := by
  have hm' : (0 : ℤ) < m := by exact_mod_cast hm
  have hk' : (k : ℤ) ≤ m := by exact_mod_cast hk
  rcases le_total 0 x with h | h
  · rw [min_eq_left h, max_eq_right h]
    refine ⟨Int.tdiv_nonneg (by positivity) hm'.le, ?_⟩
    rw [Int.tdiv_eq_ediv_of_nonneg (by positivity)]
    exact Int.ediv_le_of_le_mul hm' (by nlinarith)
  · rw [min_eq_right h, max_eq_left h]
    have e : x * k = -((-x) * k) := by ring
    rw [e, Int.neg_tdiv]
    have h' : 0 ≤ -x := by linarith
    have h0 : 0 ≤ ((-x) * (k : ℤ)).tdiv m := Int.tdiv_nonneg (by positivity) hm'.le
    have h1 : ((-x) * (k : ℤ)).tdiv m ≤ -x := by
      rw [Int.tdiv_eq_ediv_of_nonneg (by positivity)]
      exact Int.ediv_le_of_le_mul hm' (by nlinarith)
    constructor <;> linarith

theorem backward_between (a b : ℤ) (s r : ℕ) (hs : r < s) :
    min a b ≤ backward a b s r ∧ backward a b s r ≤ max a b := by
  have hs0 : (0 : ℤ) < s := by omega
  have key : min 0 (b - a) ≤ (((b - a) * 1000).tdiv s * r).tdiv 1000 ∧
      (((b - a) * 1000).tdiv s * r).tdiv 1000 ≤ max 0 (b - a) := by
    generalize hx : b - a = x
    have hr : (r : ℤ) ≤ s := by omega
    rcases le_total 0 x with h | h
    · rw [min_eq_left h, max_eq_right h]
      have h0 : 0 ≤ (x * 1000).tdiv s := Int.tdiv_nonneg (by positivity) hs0.le
      refine ⟨Int.tdiv_nonneg (by positivity) (by norm_num), ?_⟩
      have h1 : (x * 1000).tdiv s * s ≤ x * 1000 := by
        rw [Int.tdiv_eq_ediv_of_nonneg (by positivity)]
        exact Int.ediv_mul_le _ (ne_of_gt hs0)
      rw [Int.tdiv_eq_ediv_of_nonneg (by positivity)]
      exact Int.ediv_le_of_le_mul (by norm_num) (by nlinarith)
    · rw [min_eq_right h, max_eq_left h]
      have e : x * 1000 = -((-x) * 1000) := by ring
      rw [e, Int.neg_tdiv, neg_mul, Int.neg_tdiv]
      generalize hy : -x = y
      have hy0 : 0 ≤ y := by linarith
      have h0 : 0 ≤ (y * 1000).tdiv s := Int.tdiv_nonneg (by positivity) hs0.le
      have h2 : 0 ≤ ((y * 1000).tdiv s * r).tdiv 1000 := Int.tdiv_nonneg (by positivity) (by norm_num)
      have h1 : (y * 1000).tdiv s * s ≤ y * 1000 := by
        rw [Int.tdiv_eq_ediv_of_nonneg (by positivity)]
        exact Int.ediv_mul_le _ (ne_of_gt hs0)
      have h3 : ((y * 1000).tdiv s * r).tdiv 1000 ≤ y := by
        rw [Int.tdiv_eq_ediv_of_nonneg (by positivity)]
        exact Int.ediv_le_of_le_mul (by norm_num) (by nlinarith)
      constructor <;> linarith
  unfold backward
  obtain ⟨h1, h2⟩ := key
  constructor
  · rcases le_total a b with h | h
    · rw [min_eq_left h]; rw [min_eq_left (by linarith)] at h1; linarith
    · rw [min_eq_right h]; rw [min_eq_right (by linarith)] at h1; linarith
  · rcases le_total a b with h | h
    · rw [max_eq_right h]; rw [max_eq_right (by linarith)] at h2; linarith
    · rw [max_eq_left h]; rw [max_eq_left (by linarith)] at h2; linarith

/-- The last step: the point on the last segment. -/
theorem finish_on (a b : ℤ × ℤ) (s d before : ℕ) (h1 : before < d) (h2 : d ≤ before + s) :
    On a b s (d - before)
      (if d < before + s then
        (backward a.1 b.1 s (s - (before + s - d)), backward a.2 b.2 s (s - (before + s - d))) else b) := by
  by_cases h : d < before + s
  · rw [if_pos h]
    have e : s - (before + s - d) = d - before := by omega
    rw [e]
    have hs : d - before < s := by omega
    exact Or.inr ⟨hs, backward_between _ _ _ _ hs, backward_between _ _ _ _ hs, backward_close _ _ _ _ hs,
      backward_close _ _ _ _ hs⟩
  · rw [if_neg h]
    exact Or.inl ⟨by omega, rfl⟩

end Verif.Seam
