import Verif.Coasting.Spec
import Mathlib.Tactic.Linarith
import Mathlib.Tactic.Ring
import Mathlib.Algebra.Order.BigOperators.Group.List
import Mathlib.Algebra.Order.Field.Basic

namespace Verif.Coasting
section
variable {X : Type} {G : Geo X} {c : Cfg}

theorem segments_length (x : X) (l : List X) : (segments x l).length = l.length := by
  induction l generalizing x with
  | nil => rfl
  | cons p ps ih => simp [segments, ih]

/-- The nominal volume of segments of one path. -/
def vol (G : Geo X) (rate : ℚ) (l : List (X × X)) : ℚ := (l.map fun s => G.len s.1 s.2 * rate).sum

theorem vol_nonneg (hlen : ∀ a b, 0 ≤ G.len a b) {rate : ℚ} (hr : 0 ≤ rate) (l : List (X × X)) : 0 ≤ vol G rate l := by
  unfold vol
  apply List.sum_nonneg
  intro q hq
  rw [List.mem_map] at hq
  obtain ⟨s, -, rfl⟩ := hq
  exact mul_nonneg (hlen _ _) hr

theorem vol_cons (rate : ℚ) (s : X × X) (l : List (X × X)) : vol G rate (s :: l) = G.len s.1 s.2 * rate + vol G rate l := rfl

/-- Once the point has been reached, only the volume is added up. -/
theorem pointLoop_reached (hlen : ∀ a b, 0 ≤ G.len a b) {rate : ℚ} (hr : 0 ≤ rate) (l : List (X × X)) (r : Run X) (hreached : r.reached = true)
    (hmin : r.minReached = decide (c.minVolume ≤ r.acc)) (hnd : r.done = false) :
    ∃ acc, pointLoop G c rate r l = some ⟨acc, true, decide (c.minVolume ≤ r.acc + vol G rate l), r.found⟩ ∧
      (c.minVolume ≤ r.acc + vol G rate l ∨ acc = r.acc + vol G rate l) := by
  induction l generalizing r with
  | nil =>
    refine ⟨r.acc, ?_, .inr (by simp [vol])⟩
    rw [pointLoop]
    have : vol G rate [] = 0 := rfl
    rw [this, add_zero, ← hmin, ← hreached]
  | cons s l ih =>
    rw [pointLoop, pointStep]
    have hm : r.minReached = false := by
      unfold Run.done at hnd
      rw [hreached, Bool.and_true] at hnd
      exact hnd
    simp only [hreached, Bool.not_true, Bool.false_and, Bool.false_eq_true, if_false, hm, Bool.false_or, Option.bind_some]
    have hv := vol_nonneg hlen hr l
    by_cases hd : c.minVolume ≤ r.acc + G.len s.1 s.2 * rate
    · simp only [Run.done, hd, decide_true, Bool.and_self, if_true]
      refine ⟨r.acc + G.len s.1 s.2 * rate, ?_, .inl (by rw [vol_cons]; linarith)⟩
      rw [show decide (c.minVolume ≤ r.acc + vol G rate (s :: l)) = true from decide_eq_true (by rw [vol_cons]; linarith)]
    · simp only [Run.done, hd, decide_false, Bool.false_and, Bool.false_eq_true, if_false]
      obtain ⟨acc, h1, h2⟩ := ih ⟨r.acc + G.len s.1 s.2 * rate, true, false, r.found⟩ rfl (by simp [hd]) rfl
      rw [vol_cons, ← add_assoc]
      exact ⟨acc, h1, h2⟩

/-- The search for the point within a path. -/
theorem pointLoop_search (hlen : ∀ a b, 0 ≤ G.len a b) {rate : ℚ} (hr : 0 ≤ rate) (hc : c.volume ≤ c.minVolume) (l : List (X × X)) (r : Run X)
    (h1 : r.reached = false) (h2 : r.minReached = false) (h3 : r.found = .no) (hacc : r.acc < c.volume) :
    (r.acc + vol G rate l < c.volume ∧ ∃ how, (l = [] ∧ how = .no ∨ l ≠ [] ∧ how = .entire) ∧
      pointLoop G c rate r l = some ⟨r.acc + vol G rate l, false, false, how⟩) ∨
    (c.volume ≤ r.acc + vol G rate l ∧ ∃ b s a t acc, l = b ++ s :: a ∧ 0 ≤ t ∧ t ≤ 1 ∧
      r.acc + vol G rate b + (1 - t) * (G.len s.1 s.2 * rate) = c.volume ∧
      pointLoop G c rate r l = some ⟨acc, true, decide (c.minVolume ≤ r.acc + vol G rate l), .partly a.length (G.lerp s.1 s.2 t)⟩ ∧
      (c.minVolume ≤ r.acc + vol G rate l ∨ acc = r.acc + vol G rate l)) := by
  induction l generalizing r with
  | nil =>
    left
    have e : r.acc + vol G rate [] = r.acc := by simp [vol]
    rw [e]
    refine ⟨hacc, .no, .inl ⟨rfl, rfl⟩, ?_⟩
    rw [pointLoop, ← h1, ← h3]
    congr 1
    cases r
    simp_all
  | cons s l ih =>
    have hs : 0 ≤ G.len s.1 s.2 * rate := mul_nonneg (hlen _ _) hr
    have hv := vol_nonneg hlen hr l
    rw [pointLoop, pointStep]
    simp only [h1, h2, h3, Bool.not_false, Bool.true_and, if_true, Bool.false_or]
    rw [vol_cons, ← add_assoc]
    by_cases hreach : c.volume ≤ r.acc + G.len s.1 s.2 * rate
    · right
      refine ⟨by linarith, ?_⟩
      have hne : G.len s.1 s.2 * rate ≠ 0 := by
        intro h
        rw [h] at hreach
        linarith
      have hpos : 0 < G.len s.1 s.2 * rate := lt_of_le_of_ne hs (Ne.symm hne)
      rw [if_pos hreach, if_neg hne, Option.bind_some]
      have hrest : ∃ acc, (if (Run.done (X := X) ⟨r.acc + G.len s.1 s.2 * rate, true, decide (c.minVolume ≤ r.acc + G.len s.1 s.2 * rate),
            .partly l.length (G.lerp s.1 s.2 ((r.acc + G.len s.1 s.2 * rate - c.volume) / (G.len s.1 s.2 * rate)))⟩) = true then
          some (⟨r.acc + G.len s.1 s.2 * rate, true, decide (c.minVolume ≤ r.acc + G.len s.1 s.2 * rate),
            .partly l.length (G.lerp s.1 s.2 ((r.acc + G.len s.1 s.2 * rate - c.volume) / (G.len s.1 s.2 * rate)))⟩ : Run X)
          else pointLoop G c rate ⟨r.acc + G.len s.1 s.2 * rate, true, decide (c.minVolume ≤ r.acc + G.len s.1 s.2 * rate),
            .partly l.length (G.lerp s.1 s.2 ((r.acc + G.len s.1 s.2 * rate - c.volume) / (G.len s.1 s.2 * rate)))⟩ l) =
          some ⟨acc, true, decide (c.minVolume ≤ r.acc + G.len s.1 s.2 * rate + vol G rate l),
            .partly l.length (G.lerp s.1 s.2 ((r.acc + G.len s.1 s.2 * rate - c.volume) / (G.len s.1 s.2 * rate)))⟩ ∧
          (c.minVolume ≤ r.acc + G.len s.1 s.2 * rate + vol G rate l ∨ acc = r.acc + G.len s.1 s.2 * rate + vol G rate l) := by
        by_cases hd : c.minVolume ≤ r.acc + G.len s.1 s.2 * rate
        · refine ⟨r.acc + G.len s.1 s.2 * rate, ?_, .inl (by linarith)⟩
          have hd' : c.minVolume ≤ r.acc + G.len s.1 s.2 * rate + vol G rate l := by linarith
          simp [Run.done, hd, hd']
        · obtain ⟨acc, g1, g2⟩ := pointLoop_reached (c := c) hlen hr l ⟨r.acc + G.len s.1 s.2 * rate, true, decide (c.minVolume ≤ r.acc + G.len s.1 s.2 * rate),
            .partly l.length (G.lerp s.1 s.2 ((r.acc + G.len s.1 s.2 * rate - c.volume) / (G.len s.1 s.2 * rate)))⟩ rfl rfl (by simp [Run.done, hd])
          refine ⟨acc, ?_, g2⟩
          rw [if_neg (by simp [Run.done, hd])]
          exact g1
      obtain ⟨acc, g1, g2⟩ := hrest
      refine ⟨[], s, l, _, acc, rfl, ?_, ?_, ?_, g1, g2⟩
      · exact div_nonneg (by linarith) hs
      · rw [div_le_one hpos]
        linarith
      · rw [show vol G rate [] = 0 from rfl, add_zero, sub_mul, one_mul, div_mul_cancel₀ _ hne]
        ring
    · rw [if_neg hreach]
      rw [not_le] at hreach
      have hm : ¬ c.minVolume ≤ r.acc + G.len s.1 s.2 * rate := by linarith
      simp only [hm, decide_false]
      cases l with
      | nil =>
        left
        rw [show vol G rate [] = 0 from rfl, add_zero]
        refine ⟨hreach, .entire, .inr ⟨by simp, rfl⟩, ?_⟩
        rfl
      | cons s' l =>
        rw [if_neg (by simp), Option.bind_some, if_neg (by simp [Run.done])]
        rcases ih ⟨r.acc + G.len s.1 s.2 * rate, false, false, .no⟩ rfl rfl rfl hreach with ⟨g1, how, g2, g3⟩ | ⟨g1, b, s0, a, t, acc, g2, g3, g4, g5, g6, g7⟩
        · left
          refine ⟨g1, how, .inr ⟨by simp, ?_⟩, g3⟩
          rcases g2 with ⟨g2, -⟩ | ⟨-, g2⟩
          · exact absurd g2 (by simp)
          · exact g2
        · right
          refine ⟨g1, s :: b, s0, a, t, acc, by rw [g2]; rfl, g3, g4, ?_, g6, g7⟩
          rw [vol_cons, ← add_assoc]
          exact g5

end
end Verif.Coasting
