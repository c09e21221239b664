import Verif.InfillOrder.Props

/-! # Order of the infill: cases that meet the hypotheses -/

namespace Verif.InfillOrder

open Spec

/-- Lines, a polygon and lines of support. -/
def three : List Part := [⟨true, .lines [[(50, 0), (60, 0)]]⟩, ⟨false, .polygons [[(20, 20), (30, 20), (30, 30)]]⟩, ⟨false, .lines [[(0, 0), (5, 5), (10, 0)], [(0, 9), (9, 9)]]⟩]

/-- **C126_order**: in the preferred order. -/
example : optimize false none three = [⟨false, .lines [[(0, 0), (5, 5), (10, 0)], [(0, 9), (9, 9)]]⟩, ⟨false, .polygons [[(20, 20), (30, 20), (30, 30)]]⟩, ⟨true, .lines [[(50, 0), (60, 0)]]⟩] := by decide +kernel

/-- **C126_closest** and **C126_end**: the lines are printed last, and the first one is divided where it is closest. -/
example : optimize false (some (5, 6)) three = [⟨false, .polygons [[(20, 20), (30, 20), (30, 30)]]⟩, ⟨true, .lines [[(50, 0), (60, 0)]]⟩, ⟨false, .lines [[(0, 0), (5, 5)], [(5, 5), (10, 0)], [(0, 9), (9, 9)]]⟩] := by decide +kernel

example : ∃ last, (optimize false (some (5, 6)) three).getLast? = some last ∧ ∀ p ∈ three, ¬ Fixed false p → ∀ x ∈ points p, ∃ y ∈ points last, dist2 y (5, 6) ≤ dist2 x (5, 6) :=
  C126_closest false (5, 6) three (by
    rintro ⟨p, hp, _, id, h⟩
    simp only [three, List.mem_cons, List.not_mem_nil, or_false] at hp
    rcases hp with rfl | rfl | rfl <;> simp at h) (by decide)

example : ∃ l ∈ [[((0 : Int), (0 : Int)), (5, 5)], [(5, 5), (10, 0)], [(0, 9), (9, 9)]], ∃ y, (l.head? = some y ∨ l.getLast? = some y) ∧ ∀ x ∈ [[((0 : Int), (0 : Int)), (5, 5)], [(5, 5), (10, 0)], [(0, 9), (9, 9)]].flatten, dist2 y (5, 6) ≤ dist2 x (5, 6) :=
  C126_end false (5, 6) three _ (by decide +kernel) (by decide)

/-- One part: it is divided too. -/
example : optimize false (some (5, 6)) [⟨false, .lines [[(0, 0), (5, 5), (10, 0)]]⟩] = [⟨false, .lines [[(0, 0), (5, 5)], [(5, 5), (10, 0)]]⟩] := by decide +kernel

/-- Interlaced lines are not moved, although they are closer. -/
example : optimize true (some (55, 0)) three = [⟨false, .lines [[(0, 0), (5, 5), (10, 0)], [(0, 9), (9, 9)]]⟩, ⟨true, .lines [[(50, 0), (60, 0)]]⟩, ⟨false, .polygons [[(20, 20), (30, 20), (30, 30)]]⟩] := by decide +kernel

/-- **C126_walls**. -/
example : optimize false (some (5, 6)) (⟨false, .walls 7⟩ :: three) = [⟨false, .lines [[(0, 0), (5, 5), (10, 0)], [(0, 9), (9, 9)]]⟩, ⟨false, .polygons [[(20, 20), (30, 20), (30, 30)]]⟩, ⟨true, .lines [[(50, 0), (60, 0)]]⟩, ⟨false, .walls 7⟩] := by decide +kernel

example : ∃ p, (optimize false (some (5, 6)) (⟨false, .walls 7⟩ :: three)).getLast? = some p ∧ p ∈ (⟨false, .walls 7⟩ :: three : List Part) ∧ InfillWalls p :=
  C126_walls false (5, 6) _ ⟨⟨false, .walls 7⟩, by simp, rfl, 7, rfl⟩

/-- **C126_plan**. -/
example : plan (some (1, 1)) (some (5, 6)) 3 0 three = [(⟨true, .lines [[(50, 0), (60, 0)]]⟩, some (1, 1), false), (⟨false, .polygons [[(20, 20), (30, 20), (30, 30)]]⟩, none, false), (⟨false, .lines [[(0, 0), (5, 5), (10, 0)], [(0, 9), (9, 9)]]⟩, some (5, 6), true)] := by decide +kernel

/-- **C126_added**. -/
example : addPart (addPart [] false (.lines [])) true (.walls 3) = [⟨true, .walls 3⟩] := by decide +kernel

end Verif.InfillOrder
