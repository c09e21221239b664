import Verif.Slicer.Stitch

/-! # Specification of stitching (C35, C36) -/

namespace Verif.Slicer

/-- One of the original polylines and whether it is reversed. -/
abbrev Piece := Nat × Bool

/-- The points of a piece. -/
def oriented (lines : List (List P2)) (x : Piece) : List P2 := if x.2 then (lines.getD x.1 []).reverse else lines.getD x.1 []

/-- The points of pieces one after the other. -/
def piecePoints (lines : List (List P2)) (c : List Piece) : List P2 := c.flatMap (oriented lines)

/-- The first piece ends less than the distance from where the second starts. -/
def Joint (lines : List (List P2)) (maxDist : Int) (x y : Piece) : Prop :=
  ∃ p ∈ (oriented lines x).getLast?, ∃ q ∈ (oriented lines y).head?, dist2 p q < maxDist * maxDist

end Verif.Slicer
