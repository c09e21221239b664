import Verif.Interlock.Model
import Mathlib.Tactic.Linarith
import Mathlib.Tactic.Ring
import Mathlib.Tactic.Tauto
import Mathlib.Tactic.SplitIfs

/-! # Interlocking: lemmas -/

namespace Verif.Interlock

open Verif.Voxel Spec

/-- The beam of a cell. -/
def beam (s : Setup) (c : P3) (mesh : Fin 2) (j : Nat) : Rect := (micro s ((j : Int) % 2 = 1) mesh).move (c 0 * s.cell 0) (c 1 * s.cell 1)

theorem cell_zero (s : Setup) : s.cell 0 = s.wa + s.wb := rfl
theorem cell_one (s : Setup) : s.cell 1 = s.wa + s.wb := rfl
theorem cell_two (s : Setup) : s.cell 2 = 2 * s.count := rfl

/-- One cell, of one mesh. -/
theorem layersLoop_spec (s : Setup) (hc : 0 < s.count) (max : Nat) (c : P3) (h0 : 0 ≤ c 2) (mesh : Fin 2) (st : Structure) :
    ∃ st', layersLoop s max c mesh 3 (c 2 * s.cell 2) st = some st' ∧
      ∀ m j r, r ∈ st' m j ↔ r ∈ st m j ∨ (m = mesh ∧ (j : Int) / 2 = c 2 ∧ (j : Int) * s.count < max ∧ r = beam s c mesh j) := by
  obtain ⟨k, hk⟩ : ∃ k : Nat, c 2 = k := ⟨(c 2).toNat, by omega⟩
  rw [hk, cell_two]
  have hlow : ∀ i : Int, 0 ≤ i → (i * s.count).tdiv s.count = i := fun i hi => by
    rw [Int.tdiv_eq_ediv_of_nonneg (by positivity), Int.mul_ediv_cancel _ (by omega)]
  have e0 : (k : Int) * (2 * s.count) = (2 * k : Int) * s.count := by ring
  have e1 : (2 * k : Int) * s.count + s.count = (2 * k + 1 : Int) * s.count := by ring
  have e2 : (2 * k + 1 : Int) * s.count + s.count = (2 * k + 2 : Int) * s.count := by ring
  have eb : (2 * k : Int) * s.count + 2 * s.count = (2 * k + 2 : Int) * s.count := by ring
  have b0 : (2 * k : Int) * s.count < (2 * k + 2 : Int) * s.count := by nlinarith
  have b1 : (2 * k + 1 : Int) * s.count < (2 * k + 2 : Int) * s.count := by nlinarith
  have b01 : (2 * k : Int) * s.count < (2 * k + 1 : Int) * s.count := by nlinarith
  rw [layersLoop, hk, cell_two, e0, eb]
  by_cases h1 : (2 * k : Int) * s.count < max
  · rw [if_pos ⟨b0, h1⟩, hlow _ (by omega)]
    dsimp only
    rw [if_neg (by omega), e1, layersLoop, hk, cell_two, e0, eb]
    have t0 : (2 * (k : Int)).toNat = 2 * k := by omega
    have t1 : (2 * (k : Int) + 1).toNat = 2 * k + 1 := by omega
    by_cases h2 : (2 * k + 1 : Int) * s.count < max
    · rw [if_pos ⟨b1, h2⟩, hlow _ (by omega)]
      dsimp only
      rw [if_neg (by omega), e2, layersLoop, hk, cell_two, e0, eb, if_neg (by omega), t0, t1]
      refine ⟨_, rfl, ?_⟩
      intro m j r
      simp only [Structure.push]
      by_cases hm : m = mesh
      · subst hm
        by_cases hj : j = 2 * k + 1
        · subst hj
          have hb : beam s c m (2 * k + 1) = (micro s ((2 * (k : Int) + 1) % 2 = 1) m).move (c 0 * s.cell 0) (c 1 * s.cell 1) := by
            rw [beam]
            push_cast
            rfl
          rw [if_pos ⟨rfl, rfl⟩, if_neg (by omega), List.mem_append, List.mem_singleton, hb]
          have : ((2 * k + 1 : Nat) : Int) / 2 = k := by omega
          have h2' : ((2 * k + 1 : Nat) : Int) * s.count < max := by push_cast; exact h2
          tauto
        · rw [if_neg (by omega)]
          by_cases hj' : j = 2 * k
          · subst hj'
            have hb : beam s c m (2 * k) = (micro s ((2 * (k : Int)) % 2 = 1) m).move (c 0 * s.cell 0) (c 1 * s.cell 1) := by
              rw [beam]
              push_cast
              rfl
            rw [if_pos ⟨rfl, rfl⟩, List.mem_append, List.mem_singleton, hb]
            have : ((2 * k : Nat) : Int) / 2 = k := by omega
            have h1' : ((2 * k : Nat) : Int) * s.count < max := by push_cast; exact h1
            tauto
          · rw [if_neg (by omega)]
            have : ¬ (j : Int) / 2 = k := by omega
            tauto
      · rw [if_neg (by tauto), if_neg (by tauto)]
        tauto
    · rw [if_neg (by omega), t0]
      refine ⟨_, rfl, ?_⟩
      intro m j r
      simp only [Structure.push]
      by_cases hm : m = mesh
      · subst hm
        by_cases hj' : j = 2 * k
        · subst hj'
          have hb : beam s c m (2 * k) = (micro s ((2 * (k : Int)) % 2 = 1) m).move (c 0 * s.cell 0) (c 1 * s.cell 1) := by
            rw [beam]
            push_cast
            rfl
          rw [if_pos ⟨rfl, rfl⟩, List.mem_append, List.mem_singleton, hb]
          have : ((2 * k : Nat) : Int) / 2 = k := by omega
          have h1' : ((2 * k : Nat) : Int) * s.count < max := by push_cast; exact h1
          tauto
        · rw [if_neg (by omega)]
          have : ¬ ((j : Int) / 2 = k ∧ (j : Int) * s.count < max) := by
            rintro ⟨q1, q2⟩
            have : (j : Int) = 2 * k + 1 := by omega
            rw [this] at q2
            exact h2 q2
          tauto
      · rw [if_neg (by tauto)]
        tauto
  · rw [if_neg (by omega)]
    refine ⟨_, rfl, ?_⟩
    intro m j r
    have : ¬ ((j : Int) / 2 = k ∧ (j : Int) * s.count < max) := by
      rintro ⟨q1, q2⟩
      have : (j : Int) = 2 * k ∨ (j : Int) = 2 * k + 1 := by omega
      rcases this with h | h <;> rw [h] at q2 <;> omega
    tauto

/-- A cell below the first layer. -/
theorem layersLoop_below (s : Setup) (hc : 0 < s.count) (max : Nat) (c : P3) (h0 : c 2 < 0) (mesh : Fin 2) (st : Structure) :
    layersLoop s max c mesh 3 (c 2 * s.cell 2) st = none := by
  rw [layersLoop, cell_two]
  have h1 : c 2 * (2 * s.count) < 0 := by nlinarith
  rw [if_pos ⟨by nlinarith, by omega⟩]
  have h2 : (c 2 * (2 * s.count)).tdiv s.count = 2 * c 2 := by
    rw [show c 2 * (2 * s.count) = (2 * c 2) * s.count by ring, Int.mul_tdiv_cancel _ (by omega)]
  rw [h2]
  dsimp only
  rw [if_pos (by omega)]

/-- All cells. -/
theorem cellsLoop_spec (s : Setup) (hc : 0 < s.count) (max : Nat) (cells : List P3) (st : Structure) :
    (∀ st', cellsLoop s max cells st = some st' →
      ∀ m j r, r ∈ st' m j ↔ r ∈ st m j ∨ ∃ c ∈ cells, (j : Int) / 2 = c 2 ∧ (j : Int) * s.count < max ∧ r = beam s c m j) ∧
    (cellsLoop s max cells st = none ↔ ∃ c ∈ cells, c 2 < 0) := by
  induction cells generalizing st with
  | nil =>
    refine ⟨?_, by simp [cellsLoop]⟩
    intro st' h
    simp only [cellsLoop, Option.some.injEq] at h
    subst h
    simp
  | cons c cs ih =>
    by_cases h0 : 0 ≤ c 2
    · obtain ⟨s1, a1, a2⟩ := layersLoop_spec s hc max c h0 0 st
      obtain ⟨s2, b1, b2⟩ := layersLoop_spec s hc max c h0 1 s1
      have he : cellsLoop s max (c :: cs) st = cellsLoop s max cs s2 := by
        rw [cellsLoop, a1]
        show (do let st ← layersLoop s max c 1 3 (c 2 * s.cell 2) s1; cellsLoop s max cs st) = _
        rw [b1]
        rfl
      rw [he]
      obtain ⟨i1, i2⟩ := ih s2
      constructor
      · intro st' h m j r
        rw [i1 st' h, b2, a2]
        have hm : m = 0 ∨ m = 1 := by revert m; decide
        simp only [List.mem_cons, exists_eq_or_imp]
        rcases hm with rfl | rfl
        · simp only [true_and, show ¬ (0 : Fin 2) = 1 by decide, false_and, or_false]
          exact or_assoc
        · simp only [true_and, show ¬ (1 : Fin 2) = 0 by decide, false_and, or_false]
          exact or_assoc
      · rw [i2]
        simp only [List.mem_cons, exists_eq_or_imp]
        constructor
        · exact Or.inr
        · rintro (h | h)
          · omega
          · exact h
    · have he : cellsLoop s max (c :: cs) st = none := by
        rw [cellsLoop, layersLoop_below s hc max c (by omega)]
        rfl
      rw [he]
      exact ⟨by simp, by simp only [true_iff]; exact ⟨c, by simp, by omega⟩⟩

theorem ediv_eq_iff {x q w : Int} (hw : 0 < w) : x / w = q ↔ q * w ≤ x ∧ x < q * w + w := by
  have h1 := Int.mul_ediv_add_emod x w
  have h2 := Int.emod_nonneg x (show w ≠ 0 by omega)
  have h3 := Int.emod_lt_of_pos x hw
  constructor
  · rintro rfl
    constructor <;> nlinarith
  · rintro ⟨a, b⟩
    generalize x / w = y at *
    have : w * y = y * w := by ring
    have u1 : y * w < (q + 1) * w := by nlinarith
    have u2 : q * w < (y + 1) * w := by nlinarith
    have v1 := lt_of_mul_lt_mul_right u1 (by omega)
    have v2 := lt_of_mul_lt_mul_right u2 (by omega)
    omega

theorem emod_of {x q w : Int} (h : x / w = q) : x % w = x - q * w := by
  have := Int.mul_ediv_add_emod x w
  rw [h] at this
  linarith

/-- What a beam has: the places of its cell at which the beam is of its mesh. -/
theorem beam_has (s : Setup) (ha : 0 ≤ s.wa) (hb : 0 ≤ s.wb) (hw : 0 < s.wa + s.wb) (c : P3) (mesh : Fin 2) (j : Nat) (p : P2) :
    (beam s c mesh j).has p = true ↔ p.1 / (s.wa + s.wb) = c 0 ∧ p.2 / (s.wa + s.wb) = c 1 ∧
      (if (if (j : Int) % 2 = 0 then p.1 else p.2) % (s.wa + s.wb) < s.wa then (0 : Fin 2) else 1) = mesh := by
  have hmid : ((s.wa + s.wb) * s.wa).tdiv (s.wa + s.wb) = s.wa := by
    rw [Int.mul_tdiv_cancel_left _ (by omega)]
  have hm : mesh = 0 ∨ mesh = 1 := by revert mesh; decide
  simp only [beam, micro, cell_zero, cell_one, hmid, Rect.has, Rect.move]
  generalize hW : s.wa + s.wb = W at *
  rw [ediv_eq_iff hw, ediv_eq_iff hw]
  have hx : p.1 / W = c 0 → p.1 % W = p.1 - c 0 * W := emod_of
  have hy : p.2 / W = c 1 → p.2 % W = p.2 - c 1 * W := emod_of
  rw [ediv_eq_iff hw] at hx hy
  generalize c 0 * W = X at *
  generalize c 1 * W = Y at *
  generalize p.1 = x at *
  generalize p.2 = y at *
  rcases Int.emod_two_eq_zero_or_one (j : Int) with hj | hj
  · simp only [hj, show ¬ (0 : Int) = 1 by decide, decide_false, Bool.false_eq_true, if_false, if_true]
    rcases hm with rfl | rfl
    · simp only [if_true, Bool.and_eq_true, decide_eq_true_eq]
      constructor
      · rintro ⟨⟨⟨a, b⟩, d⟩, e⟩
        refine ⟨by omega, by omega, ?_⟩
        have := hx (by omega)
        rw [if_pos (by omega)]
      · rintro ⟨a, b, d⟩
        have := hx a
        split at d
        · omega
        · exact absurd d (by decide)
    · simp only [show ¬ (1 : Fin 2) = 0 by decide, if_false, Bool.and_eq_true, decide_eq_true_eq]
      constructor
      · rintro ⟨⟨⟨a, b⟩, d⟩, e⟩
        refine ⟨by omega, by omega, ?_⟩
        have := hx (by omega)
        rw [if_neg (by omega)]
      · rintro ⟨a, b, d⟩
        have := hx a
        split at d
        · exact absurd d (by decide)
        · omega
  · simp only [hj, show ¬ (1 : Int) = 0 by decide, decide_true, if_false, if_true]
    rcases hm with rfl | rfl
    · simp only [if_true, Bool.and_eq_true, decide_eq_true_eq]
      constructor
      · rintro ⟨⟨⟨a, b⟩, d⟩, e⟩
        refine ⟨by omega, by omega, ?_⟩
        have := hy (by omega)
        rw [if_pos (by omega)]
      · rintro ⟨a, b, d⟩
        have := hy b
        split at d
        · omega
        · exact absurd d (by decide)
    · simp only [show ¬ (1 : Fin 2) = 0 by decide, if_false, Bool.and_eq_true, decide_eq_true_eq]
      constructor
      · rintro ⟨⟨⟨a, b⟩, d⟩, e⟩
        refine ⟨by omega, by omega, ?_⟩
        have := hy (by omega)
        rw [if_neg (by omega)]
      · rintro ⟨a, b, d⟩
        have := hy b
        split at d
        · exact absurd d (by decide)
        · omega

end Verif.Interlock
