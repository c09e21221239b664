import Verif.Grid.Spec
import Mathlib.Tactic.Linarith
import Mathlib.Tactic.FieldSimp
import Mathlib.Tactic.NormNum
import Mathlib.Algebra.Order.Floor.Ring
import Mathlib.Data.Rat.Floor

namespace Verif.Grid

/-- The cell of a rational coordinate. -/
def cellR (s : Int) (v : ℚ) : Int := if 0 ≤ v then ⌊v / s⌋ else ⌈v / s⌉

variable {s : Int}

theorem cellR_le_iff (hs : 0 < s) (v : ℚ) (c : Int) :
    cellR s v ≤ c ↔ if 0 ≤ c then v < (c + 1) * s else v ≤ c * s := by
  have hq : (0 : ℚ) < s := by exact_mod_cast hs
  unfold cellR
  split_ifs with h1 h2 h2
  · rw [← Int.lt_add_one_iff, Int.floor_lt, div_lt_iff₀ hq]; push_cast; rfl
  · constructor
    · intro h
      have : (0 : Int) ≤ ⌊v / s⌋ := Int.floor_nonneg.2 (div_nonneg h1 hq.le)
      omega
    · intro h
      have : (c : ℚ) ≤ -1 := by exact_mod_cast (by omega : c ≤ -1)
      nlinarith
  · constructor
    · intro _
      have : (0 : ℚ) ≤ c := by exact_mod_cast h2
      nlinarith
    · intro _
      have : ⌈v / (s : ℚ)⌉ ≤ 0 := by
        rw [Int.ceil_le]; push_cast
        exact div_nonpos_of_nonpos_of_nonneg (by linarith) hq.le
      omega
  · rw [Int.ceil_le, div_le_iff₀ hq]

theorem cellR_mono (hs : 0 < s) {u v : ℚ} (h : u ≤ v) : cellR s u ≤ cellR s v := by
  rw [cellR_le_iff hs]
  have := (cellR_le_iff hs v (cellR s v)).1 le_rfl
  split_ifs with h1
  · rw [if_pos h1] at this; linarith
  · rw [if_neg h1] at this; linarith

theorem le_cellR_iff (hs : 0 < s) (v : ℚ) (c : Int) :
    c ≤ cellR s v ↔ if 0 < c then c * s ≤ v else (c - 1) * s < v := by
  rw [← not_lt, ← Int.le_sub_one_iff, cellR_le_iff hs]
  split_ifs with h1 h2 h2 <;> first | omega | (push_cast; simp only [not_lt, not_le, sub_add_cancel])

theorem inCell1_iff (hs : 0 < s) (c : Int) (v : ℚ) : InCell1 s c v ↔ cellR s v = c := by
  rw [le_antisymm_iff, cellR_le_iff hs, le_cellR_iff hs]
  unfold InCell1
  rcases lt_trichotomy c 0 with h | h | h
  · simp only [h, if_neg (not_le.2 h), if_neg (not_lt.2 h.le)]
    constructor
    · intro ⟨_, _, h3⟩; exact ⟨(h3 trivial).2, (h3 trivial).1⟩
    · intro ⟨h3, h4⟩; exact ⟨by omega, by omega, fun _ => ⟨h4, h3⟩⟩
  · subst h
    simp only [le_refl, lt_irrefl, if_true, if_false]
    push_cast
    constructor
    · intro ⟨_, h3, _⟩
      have := h3 trivial
      exact ⟨by linarith, by linarith⟩
    · intro ⟨h3, h4⟩
      exact ⟨by simp, fun _ => ⟨by linarith, by linarith⟩, by simp⟩
  · simp only [h, if_pos h.le, if_true]
    constructor
    · intro ⟨h3, _, _⟩; exact ⟨(h3 trivial).2, (h3 trivial).1⟩
    · intro ⟨h3, h4⟩; exact ⟨fun _ => ⟨h4, h3⟩, by omega, by omega⟩

theorem floor_div (a b : Int) (hb : 0 < b) : ⌊(a : ℚ) / b⌋ = a / b := by
  have hq : (0 : ℚ) < b := by exact_mod_cast hb
  rw [Int.floor_eq_iff]
  constructor
  · rw [le_div_iff₀ hq]
    exact_mod_cast Int.ediv_mul_le a hb.ne'
  · rw [div_lt_iff₀ hq]
    have := Int.lt_ediv_add_one_mul_self a hb
    exact_mod_cast this

theorem toGridCoord_eq (hs : 0 < s) (v : Int) : toGridCoord s v = cellR s v := by
  unfold toGridCoord cellR
  split_ifs with h
  · have h' : 0 ≤ v := by exact_mod_cast h
    rw [Int.tdiv_eq_ediv_of_nonneg h', floor_div _ _ hs]
  · have h' : ¬ 0 ≤ v := by exact_mod_cast h
    have e : v.tdiv s = -((-v).tdiv s) := by rw [Int.neg_tdiv]; omega
    rw [e, Int.tdiv_eq_ediv_of_nonneg (by omega), ← floor_div _ _ hs]
    have : v / (s : ℚ) = -(((-v : Int) : ℚ) / s) := by push_cast; ring
    rw [this, Int.ceil_neg]

/-- Rounding a coordinate towards zero before looking up its cell changes nothing. -/
theorem cellR_floor (hs : 0 < s) (v : ℚ) (h : 0 ≤ v) : cellR s (⌊v⌋ : Int) = cellR s v := by
  have key : ∀ c, cellR s (⌊v⌋ : Int) ≤ c ↔ cellR s v ≤ c := by
    intro c
    rw [cellR_le_iff hs, cellR_le_iff hs]
    split_ifs with h1
    · have := @Int.floor_lt ℚ _ _ _ ((c + 1) * s) v
      push_cast at this
      rw [← this]
      exact_mod_cast Iff.rfl
    · have hc : (c : ℚ) ≤ -1 := by exact_mod_cast (by omega : c ≤ -1)
      have hq : (0 : ℚ) < s := by exact_mod_cast hs
      have hf : (0 : ℚ) ≤ (⌊v⌋ : Int) := by exact_mod_cast Int.floor_nonneg.2 h
      constructor
      · intro h2; nlinarith
      · intro h2; nlinarith
  exact le_antisymm ((key _).2 le_rfl) ((key _).1 le_rfl)

theorem cellR_ceil (hs : 0 < s) (v : ℚ) (h : v < 0) : cellR s (⌈v⌉ : Int) = cellR s v := by
  have hq : (0 : ℚ) < s := by exact_mod_cast hs
  have key : ∀ c, cellR s (⌈v⌉ : Int) ≤ c ↔ cellR s v ≤ c := by
    intro c
    rw [cellR_le_iff hs, cellR_le_iff hs]
    split_ifs with h1
    · have hc : (0 : ℚ) ≤ c := by exact_mod_cast h1
      have hf : ((⌈v⌉ : Int) : ℚ) ≤ 0 := by
        have : ⌈v⌉ ≤ 0 := Int.ceil_le.2 (by push_cast; exact h.le)
        exact_mod_cast this
      constructor
      · intro h2; nlinarith
      · intro h2; nlinarith
    · have := @Int.ceil_le ℚ _ _ _ (c * s) v
      push_cast at this
      rw [← this]
      exact_mod_cast Iff.rfl
  exact le_antisymm ((key _).2 le_rfl) ((key _).1 le_rfl)

/-- Quotient and remainder of two numbers of the same sign. -/
theorem tdiv_same (A D : Int) (hD : D ≠ 0) (h : (0 : ℚ) ≤ (A : ℚ) / D) :
    A.tdiv D = ⌊(A : ℚ) / D⌋ ∧ (A.tmod D = 0 → (A : ℚ) / D = ⌊(A : ℚ) / D⌋) ∧
      (A.tmod D ≠ 0 → ⌈(A : ℚ) / D⌉ = ⌊(A : ℚ) / D⌋ + 1) := by
  have hDq : (D : ℚ) ≠ 0 := by exact_mod_cast hD
  have e1 : A.tdiv D = ⌊(A : ℚ) / D⌋ := by
    rcases lt_or_gt_of_ne hD with h1 | h1
    · have hA : A ≤ 0 := by
        have : (A : ℚ) ≤ 0 := by
          have hd : (D : ℚ) < 0 := by exact_mod_cast h1
          by_contra hc
          push Not at hc
          have := div_neg_of_pos_of_neg hc hd
          linarith
        exact_mod_cast this
      have e : (A : ℚ) / D = ((-A : Int) : ℚ) / ((-D : Int) : ℚ) := by push_cast; rw [neg_div_neg_eq]
      rw [e, floor_div _ _ (by omega), ← Int.tdiv_eq_ediv_of_nonneg (by omega), Int.neg_tdiv, Int.tdiv_neg]
      omega
    · have hA : 0 ≤ A := by
        have : (0 : ℚ) ≤ A := by
          have hd : (0 : ℚ) < D := by exact_mod_cast h1
          by_contra hc
          push Not at hc
          have := div_neg_of_neg_of_pos hc hd
          linarith
        exact_mod_cast this
      rw [floor_div _ _ h1, Int.tdiv_eq_ediv_of_nonneg hA]
  have e2 : (A : ℚ) = D * (A.tdiv D : Int) + (A.tmod D : Int) := by
    exact_mod_cast (Int.mul_tdiv_add_tmod A D).symm
  refine ⟨e1, ?_, ?_⟩
  · intro h0
    rw [← e1]
    rw [h0] at e2
    push_cast at e2
    field_simp
    linarith
  · intro h0
    have hne : (A : ℚ) / D ≠ (⌊(A : ℚ) / D⌋ : Int) := by
      intro hc
      rw [← e1] at hc
      have : (A : ℚ) = D * (A.tdiv D : Int) := by
        field_simp at hc; linarith
      have h3 : ((A.tmod D : Int) : ℚ) = 0 := by linarith
      exact h0 (by exact_mod_cast h3)
    rw [Int.ceil_eq_iff]
    push_cast
    have h4 := Int.floor_le ((A : ℚ) / D)
    have h5 := Int.lt_floor_add_one ((A : ℚ) / D)
    exact ⟨by simpa using lt_of_le_of_ne h4 (Ne.symm hne), h5.le⟩

/-- The column of the crossing with a row border is exact. -/
theorem crossing_cell (hs : 0 < s) (a b : Pt) (ny : Int) (hy : b.y - a.y ≠ 0) (hx : a.x ≤ b.x)
    (ht : (0 : ℚ) ≤ ((ny : ℚ) - a.y) / ((b.y : ℚ) - a.y)) :
    toGridCoord s (crossingX a b ny) =
      cellR s (lerp a.x b.x (((ny : ℚ) - a.y) / ((b.y : ℚ) - a.y))) := by
  have hxq : (a.x : ℚ) ≤ b.x := by exact_mod_cast hx
  have eq0 : (((b.x - a.x) * (ny - a.y) : Int) : ℚ) / ((b.y - a.y : Int) : ℚ)
      = (b.x - a.x) * (((ny : ℚ) - a.y) / ((b.y : ℚ) - a.y)) := by push_cast; ring
  have hnn : (0 : ℚ) ≤ (((b.x - a.x) * (ny - a.y) : Int) : ℚ) / ((b.y - a.y : Int) : ℚ) := by
    rw [eq0]; exact mul_nonneg (by linarith) ht
  obtain ⟨h1, h2, h3⟩ := tdiv_same _ _ hy hnn
  rw [toGridCoord_eq hs]
  unfold lerp
  rw [← eq0]
  unfold crossingX
  dsimp only
  generalize hA : ((b.x - a.x) * (ny - a.y)) = A at *
  generalize hD : (b.y - a.y) = D at *
  generalize hQ : (A : ℚ) / (D : ℚ) = Q at *
  rw [h1]
  have hfl : ⌊(a.x : ℚ) + Q⌋ = a.x + ⌊Q⌋ := Int.floor_intCast_add _ _
  have hce : ⌈(a.x : ℚ) + Q⌉ = a.x + ⌈Q⌉ := by
    rw [add_comm, Int.ceil_add_intCast, add_comm]
  by_cases hneg : (a.x : ℚ) + Q < 0
  · have hn : a.x + ⌊Q⌋ < 0 := by
      rw [← hfl]; exact Int.floor_lt.2 (by push_cast; exact hneg)
    by_cases hm : A.tmod D = 0
    · rw [if_neg (by tauto), h2 hm, Int.floor_intCast]
      congr 1
      push_cast
      ring
    · rw [if_pos ⟨hn, hm⟩, ← cellR_ceil hs _ hneg, hce, h3 hm]
      congr 2
      ring
  · have hn : ¬ a.x + ⌊Q⌋ < 0 := by
      rw [← hfl, not_lt]; exact Int.floor_nonneg.2 (not_lt.1 hneg)
    rw [if_neg (by tauto), ← cellR_floor hs _ (not_lt.1 hneg), hfl]
    congr 2
    ring

end Verif.Grid
