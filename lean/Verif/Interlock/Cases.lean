import Verif.Interlock.Props

/-! # Concrete cases for C121 -/

namespace Verif.Interlock

open Verif.Voxel Spec

/-- The first mesh is on the left of 4, the second one on its right, with a gap that is not closed. -/
example : ∃ a' b' x', generate ⟨2, 2, 1⟩ id [![0, 0, 0], ![1, 0, 0]] [![1, 0, 0], ![2, 0, 0]] [] true [fun p => p.1 < 6] [fun p => 6 ≤ p.1] = some (a', b') ∧
    a'[0]? = some x' ∧ x' (3, 0) = true ∧ x' (5, 0) = true ∧ x' (6, 0) = false := by
  refine ⟨_, _, _, rfl, rfl, ?_⟩
  decide +kernel

/-- On the second beam layer the beams lie in the other direction, and the first mesh reaches into the second one. -/
example : ∃ a' b' x' y', generate ⟨2, 2, 1⟩ id [![1, 0, 0]] [![1, 0, 0]] [] true [fun p => p.1 < 6, fun p => p.1 < 6] [fun p => 6 ≤ p.1, fun p => 6 ≤ p.1] = some (a', b') ∧
    a'[1]? = some x' ∧ b'[1]? = some y' ∧ x' (7, 1) = true ∧ x' (7, 2) = false ∧ y' (5, 2) = true ∧ y' (5, 1) = false ∧ y' (8, 1) = true := by
  refine ⟨_, _, _, _, rfl, rfl, rfl, ?_⟩
  decide +kernel

/-- A cell near air gets no structure. -/
example : ¬ Chosen [![1, 0, 0]] [![1, 0, 0]] [![1, 0, 0]] true ![1, 0, 0] ∧ Chosen [![1, 0, 0]] [![1, 0, 0]] [![1, 0, 0]] false ![1, 0, 0] := by
  constructor
  · rintro ⟨_, _, h⟩
    exact h ⟨rfl, by simp⟩
  · exact ⟨by simp, by simp, by rintro ⟨h, _⟩; exact absurd h (by decide)⟩

example : ((boundary ⟨5, 5, 2⟩ 2 20 (fun _ => []) 0 [[[(0, 0), (15, 0), (15, 15), (0, 15)]]]).map List.length).isSome = true := by decide +kernel

end Verif.Interlock
