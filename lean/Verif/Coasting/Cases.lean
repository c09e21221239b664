import Verif.Coasting.Props

/-! # Cases that meet the hypotheses of the theorems on coasting -/

namespace Verif.Coasting

/-- A plan with a travel, two walls and a skin line, and another wall at its end. -/
def somePlan : List (Path ℚ) :=
  [⟨true, false, 0, 1, [10]⟩, ⟨false, true, 1, 1, [12, 14]⟩, ⟨false, true, 2, 1, [15]⟩, ⟨true, false, 0, 1, [20]⟩, ⟨false, false, 1, 1, [30]⟩,
   ⟨true, false, 0, 1, [40, 50]⟩, ⟨false, true, 1, 1, [51]⟩]

theorem line_len_nonneg : ∀ a b : ℚ, 0 ≤ line.len a b := by
  intro a b
  show 0 ≤ if a ≤ b then b - a else a - b
  split
  · linarith
  · linarith

/-- The first stretch coasts from 12.5, the others are extruded: one is skin, the other too short. -/
example : moves line ⟨3.5, 6⟩ 0 somePlan = some [[.travel 10], [.extrude 12 1, .extrude 12.5 1, .travel 14], [.travel 15], [.travel 20], [.extrude 30 1],
    [.travel 40, .travel 50], [.extrude 51 1]] := by decide +kernel

/-- The hypotheses of `C100_coasting_partial` are met and its stretches exist. -/
example : (∀ p ∈ somePlan, p.points ≠ []) ∧ (∀ p ∈ somePlan, 0 ≤ p.rate) := by decide +kernel

theorem someStretch : Stretch somePlan (somePlan.take 1) ((somePlan.drop 1).take 2) (somePlan.drop 3) where
  eq := by rfl
  nonempty := by decide
  extrudes := by decide
  left := by intro p hp; cases hp; rfl
  right := by intro p hp; cases hp; rfl

example : Stretch somePlan (somePlan.take 6) (somePlan.drop 6) [] where
  eq := by rfl
  nonempty := by decide
  extrudes := by decide
  left := by intro p hp; cases hp; rfl
  right := by simp

example : ∃ out a s b t, moves line ⟨3.5, 6⟩ 0 somePlan = some out ∧
    CoastedFrom line (segs 10 ((somePlan.drop 1).take 2)) 3.5 ((out.drop 1).take 2).flatten a s b t := by
  obtain ⟨out, h1, -, -, h2⟩ := C100_coasting_partial line ⟨3.5, 6⟩ line_len_nonneg (by norm_num) (by norm_num) 0 somePlan (by decide +kernel)
    (by decide +kernel)
  obtain ⟨a, s, b, t, h⟩ := (h2 _ _ _ someStretch).1 ⟨⟨_, rfl, rfl⟩, by decide +kernel⟩
  exact ⟨out, a, s, b, t, h1, h⟩

/-- The case of `C100_volume_partial`. -/
example : CoastedFrom line (segs 10 ((somePlan.drop 1).take 2)) 3.5 [.extrude 12 1, .extrude 12.5 1, .travel 14, .travel 15]
    [⟨10, 12, 1, 1⟩] ⟨12, 14, 1, 1⟩ [⟨14, 15, 2, 1⟩] (1 / 4) where
  eq := by rfl
  lower := by norm_num
  upper := by norm_num
  out := by decide +kernel
  left := by decide +kernel

end Verif.Coasting
