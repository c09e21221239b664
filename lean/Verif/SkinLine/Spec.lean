import Mathlib.Data.Rat.Floor
import Mathlib.Data.List.Basic

/-! # Walls at top and bottom surfaces: what should be printed

A straight piece of a wall; its points are known by their distance from its begin. -/

namespace Verif.SkinLine

/-- A move that is added: where it ends (distance from the begin, and height), whether it has the settings of the surface, and whether the nozzle may move to its height before. -/
structure Sub where
  place : ℚ
  z : Int
  skin : Bool
  travelToZ : Bool
deriving DecidableEq, Repr

namespace Spec

/-- A place is inside of a part of the line (given by its ends in any order). -/
def Within (g : ℚ × ℚ) (t : ℚ) : Prop := (g.1 < t ∧ t < g.2) ∨ (g.2 < t ∧ t < g.1)

/-- The parts of the line in the surface: they are on the line, are not only points, do not overlap and do not touch. -/
structure Parts (len : ℚ) (segs : List (ℚ × ℚ)) : Prop where
  on : ∀ g ∈ segs, 0 ≤ g.1 ∧ g.1 ≤ len ∧ 0 ≤ g.2 ∧ g.2 ≤ len
  apart : segs.Pairwise fun g h => ∀ t, ¬ (Within g t ∧ Within h t)
  ends : (segs.flatMap fun g => [g.1, g.2]).Nodup

/-- No part begins or ends between two places. -/
def Clear (segs : List (ℚ × ℚ)) (s e : ℚ) : Prop := ∀ g ∈ segs, ¬ (s < g.1 ∧ g.1 < e) ∧ ¬ (s < g.2 ∧ g.2 < e)

/-- With which settings a place is printed: those of the first move that reaches it. -/
def skinAt (moves : List Sub) (t : ℚ) : Option Bool := (moves.find? fun m => decide (t ≤ m.place)).map Sub.skin

end Spec

end Verif.SkinLine
