import Verif.SkinLine.Spec

/-! # Walls at top and bottom surfaces: the code

Modelled is `LayerPlan::addSkinExtrusion` (src/LayerPlan.cpp:795-867). Simplifications: the parts of the line in the mask (809) are given, and their ends are exactly on the line, so that they are known by their distance from the begin; distances are rational numbers. -/

namespace Verif.SkinLine

/-- Inserting into the ordered set (src/LayerPlan.cpp:812-822): nothing is inserted if there is a point at the same distance. -/
def insertPoint (x : ℚ) : List ℚ → List ℚ
  | [] => [x]
  | y :: ys => if x < y then x :: y :: ys else if y < x then y :: insertPoint x ys else y :: ys

/-- The ends of the parts (src/LayerPlan.cpp:818-822). -/
def points (segs : List (ℚ × ℚ)) : List ℚ := segs.foldl (fun s g => insertPoint g.2 (insertPoint g.1 s)) []

/-- Whether the line begins in the surface (src/LayerPlan.cpp:824). -/
def startsInside (pts : List ℚ) : Bool := pts.head? == some 0

/-- The places of the loop (src/LayerPlan.cpp:825-830). -/
def stops (len : ℚ) (pts : List ℚ) : List ℚ := insertPoint len (if startsInside pts then pts.tail else pts)

/-- The height of a place (src/LayerPlan.cpp:840-845; `lerp`, include/utils/Coord_t.h:37-41; ties are rounded up). -/
def height (z0 z1 : Int) (len d : ℚ) : Int := if z1 - z0 ≠ 0 then z0 + ⌊((z1 - z0 : Int) : ℚ) * (d / len) + 1 / 2⌋ else z0

/-- The loop (src/LayerPlan.cpp:833-866; EPSILON is 5, include/utils/Coord_t.h:20-21). -/
def run (z0 z1 : Int) (len : ℚ) : ℚ → Bool → Bool → List ℚ → List Sub
  | _, _, _, [] => []
  | cur, inside, travel, x :: xs =>
    if x = len ∨ (x - cur) ^ 2 > 25 then ⟨x, height z0 z1 len x, inside, travel⟩ :: run z0 z1 len x (!inside) false xs
    else run z0 z1 len x (!inside) travel xs

/-- The moves that are added (src/LayerPlan.cpp:795-867). -/
def add (z0 z1 : Int) (len : ℚ) (travel : Bool) (segs : List (ℚ × ℚ)) : List Sub :=
  run z0 z1 len 0 (startsInside (points segs)) travel (stops len (points segs))

end Verif.SkinLine
