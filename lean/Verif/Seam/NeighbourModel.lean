import Mathlib.Data.Int.Basic

/-! # Model of CornerScoringCriterion::findNeighbourPoint

The lengths of the segments are given, rounded down as in the code. Coordinates and lengths are unbounded integers;
positions in the list of points are 64-bit. -/

namespace Verif.Seam

/-- The positions `(vertex_index + delta + size) % size`, CornerScoringCriterion.cpp:95, 99 and 104: unsigned 64-bit
arithmetic. -/
def position (size vertex : ℕ) (delta : ℤ) : ℕ := (((vertex : ℤ) + delta + size) % 2 ^ 64).toNat % size

/-- What the loop knows. -/
structure Walk where
  delta : ℤ
  travelled : ℕ
  segment : ℕ
  deriving DecidableEq, Repr

/-- The loop, CornerScoringCriterion.cpp:92-97; `none` if it takes more steps than `fuel`. -/
def walkLoop (segs : List ℕ) (vertex : ℕ) (direction sizeDelta : ℤ) (distance : ℕ) : ℕ → Walk → Option Walk
  | 0, w => if w.travelled < distance then none else some w
  | fuel + 1, w =>
    if w.travelled < distance then
      let segment := segs.getD (position segs.length vertex (w.delta + direction + sizeDelta)) 0
      walkLoop segs vertex direction sizeDelta distance fuel ⟨w.delta + direction, w.travelled + segment, segment⟩
    else some w

/-- One coordinate of the point on the last segment, CornerScoringCriterion.cpp:107-110. -/
def backward (prev next : ℤ) (segment rest : ℕ) : ℤ := prev + (((next - prev) * 1000).tdiv segment * rest).tdiv 1000

/-- `CornerScoringCriterion::findNeighbourPoint`, CornerScoringCriterion.cpp:82-117, for a signed distance. -/
def findNeighbour (points : List (ℤ × ℤ)) (segs : List ℕ) (vertex : ℕ) (distance : ℤ) (fuel : ℕ) : Option (ℤ × ℤ) :=
  let direction : ℤ := if 0 < distance then 1 else -1
  let sizeDelta : ℤ := if 0 < distance then -1 else 0
  match walkLoop segs vertex direction sizeDelta distance.natAbs fuel ⟨0, 0, 0⟩ with
  | none => none
  | some w =>
    let next := points.getD (position points.length vertex w.delta) (0, 0)
    if distance.natAbs < w.travelled then
      let prev := points.getD (position points.length vertex (w.delta - direction)) (0, 0)
      let rest := w.segment - (w.travelled - distance.natAbs)
      some (backward prev.1 next.1 w.segment rest, backward prev.2 next.2 w.segment rest)
    else some next

/-- The two neighbours of `CornerScoringCriterion::cornerAngle`, CornerScoringCriterion.cpp:70-75, and the sum of the
lengths of the segments, lines 11-28. The previous one first. -/
def cornerNeighbours (points : List (ℤ × ℤ)) (segs : List ℕ) (vertex : ℕ) (query : ℕ) (fuel : ℕ) :
    Option ((ℤ × ℤ) × (ℤ × ℤ)) :=
  let distance : ℕ := min query (segs.sum / 2)
  match findNeighbour points segs vertex distance fuel, findNeighbour points segs vertex (-(distance : ℤ)) fuel with
  | some next, some previous => some (previous, next)
  | _, _ => none

end Verif.Seam
