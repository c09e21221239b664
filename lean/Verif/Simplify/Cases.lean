import Verif.Simplify.Props

/-! # Simplification of polygons and lines: cases -/

namespace Verif.Simplify
open Relation

/-- A square with a bump of 100 micron in one side, a nearly straight vertex in another, and a cut corner. -/
def square : List Pt := [(0, 0), (5000, 0), (5050, 30), (5100, 0), (10000, 0), (10000, 5000), (9990, 10000), (0, 9900), (-4, 5000)]

example : simplify (points exactMeet 500 50 0) true square = some [(0, 0), (10000, 0), (9990, 10000), (0, 9900)] := by decide +kernel

/-- With a small maximum deviation the bump stays. -/
example : simplify (points exactMeet 500 20 0) true square =
    some [(0, 0), (5000, 0), (5050, 30), (5100, 0), (10000, 0), (9990, 10000), (0, 9900)] := by decide +kernel

/-- C98, C99: settings and a polygon as the theorems want them. -/
example : (points exactMeet 500 50 0).maxDev * (points exactMeet 500 50 0).maxDev < 2 ^ 63 - 1 ∧ 5 ≤ (points exactMeet 500 50 0).maxDev ∧
    fewest true < [((0, 0) : Pt), (10000, 0), (9990, 10000), (0, 9900)].length := by decide +kernel

/-- A corner of it. -/
example : Corner true [((0, 0) : Pt), (10000, 0), (9990, 10000), (0, 9900)] (0, 9900) (0, 0) (10000, 0) :=
  ⟨[], [(10000, 0), (9990, 10000), (0, 9900)], rfl, by simp, rfl, rfl⟩

/-- A segment of it, across the end of the list. -/
example : Joined true [((0, 0) : Pt), (10000, 0), (9990, 10000), (0, 9900)] (0, 9900) (0, 0) :=
  .inr ⟨rfl, [(10000, 0), (9990, 10000)], rfl⟩

/-- C98: a line keeps its ends, even if they are close together. -/
example : simplify (points exactMeet 500 50 0) false [(0, 0), (3, 0), (1000, 0), (2000, 500), (2003, 500)] =
    some [(0, 0), (1000, 0), (2003, 500)] := by decide +kernel

/-- A short edge between long ones is replaced by the point where they meet. -/
example : simplify (points exactMeet 500 50 0) false [(0, 0), (1000, 0), (1050, 50), (1050, 2000)] =
    some [(0, 0), (1050, 0), (1050, 2000)] := by decide +kernel

/-- The same as a step. -/
example : Step (points exactMeet 500 50 0) false (numbered [(0, 0), (1000, 0), (1050, 50), (1050, 2000)])
    (replace [(0, (0, 0)), (2, (1050, 50)), (3, (1050, 2000))] 2 (1050, 0)) := by
  refine Step.forth (l := [(0, (0, 0))]) (v := (1, (1000, 0))) (r := [(2, (1050, 50)), (3, (1050, 2000))]) (x := (1050, 0)) ⟨rfl, by simp⟩
    ?_ ?_ ?_ (by simp) ?_ ?_
  · unfold Unimportant; decide +kernel
  · unfold Short; decide +kernel
  · unfold Short; decide +kernel
  · decide +kernel
  · decide +kernel

/-- What is too small vanishes. -/
example : simplify (points exactMeet 500 50 0) true [(0, 0), (3, 0), (3, 3), (0, 3)] = some [] ∧
    Degenerate (points exactMeet 500 50 0) true [((0, 0) : Pt), (3, 0)] := by
  refine ⟨by decide +kernel, ?_⟩
  unfold Degenerate
  decide +kernel

/-- A triangle is left as it is, even if one of its sides is shorter than 5 micron. -/
example : simplify (points exactMeet 500 50 0) true [(0, 0), (1000, 0), (1000, 2)] = some [(0, 0), (1000, 0), (1000, 2)] := by
  decide +kernel

/-- C99 for junctions: a vertex on a straight line stays because the width changes there. -/
example : simplify (junctions exactMeet 500 50 20000) false [⟨(0, 0), 400⟩, ⟨(1000, 0), 400⟩, ⟨(2000, 0), 800⟩, ⟨(3000, 0), 800⟩, ⟨(4000, 0), 800⟩] =
    some [⟨(0, 0), 400⟩, ⟨(1000, 0), 400⟩, ⟨(2000, 0), 800⟩, ⟨(4000, 0), 800⟩] := by
  decide +kernel

end Verif.Simplify
