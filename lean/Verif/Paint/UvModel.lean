import Verif.Grid.Model
import Mathlib.Data.Rat.Defs
import Mathlib.Algebra.Order.Ring.Rat

/-! # Model of src/SlicedUVCoordinates.cpp

Floating point numbers are rational, and distances are compared by their squares. `round` is `llrint`. -/

namespace Verif.Paint

open Verif.Grid (Pt dist2 getNearest)

/-- `SlicerSegment`, as far as `SlicedUVCoordinates` uses it. -/
structure Sliced where
  start : Pt
  stop : Pt
  uvStart : Option (ℚ × ℚ)
  uvEnd : Option (ℚ × ℚ)
  deriving DecidableEq

/-- `SlicedUVCoordinates::Segment`, SlicedUVCoordinates.h:27-31. -/
structure Seg where
  start : Pt
  stop : Pt
  uvStart : ℚ × ℚ
  uvEnd : ℚ × ℚ
  deriving DecidableEq

/-- The segments that the constructor keeps, SlicedUVCoordinates.cpp:16-25. -/
def keep (segments : List Sliced) : List Seg :=
  segments.filterMap fun s =>
    match s.uvStart, s.uvEnd with
    | some u, some v => some ⟨s.start, s.stop, u, v⟩
    | _, _ => none

/-- What the constructor inserts into the grid, SlicedUVCoordinates.cpp:20-21. -/
def located (segs : List Seg) : List (Pt × (ℚ × ℚ)) := segs.flatMap fun s => [(s.start, s.uvStart), (s.stop, s.uvEnd)]

/-- `lerp` of numbers: Coord_t.h:38-41 (before rounding) and Point2F.h:51-54. -/
def lerp (a b t : ℚ) : ℚ := a + t * (b - a)

/-- The distance to a segment, squared, and the factor: SlicedUVCoordinates.cpp:42-67; `none` if the segment is skipped.
Segments of integer coordinates are shorter than 0.001 only if their ends coincide. The comparisons of the dot product
are multiplied by the length. -/
def measure (round : ℚ → ℤ) (p : Pt) (s : Seg) : Option (ℤ × ℚ) :=
  if s.start = s.stop then none else
  let length2 := dist2 s.stop s.start
  let dot := (p.x - s.start.x) * (s.stop.x - s.start.x) + (p.y - s.start.y) * (s.stop.y - s.start.y)
  if length2 < dot then some (dist2 p s.stop, 1)
  else if dot < 0 then some (dist2 p s.start, 0)
  else
    let factor : ℚ := (dot : ℚ) / length2
    let projected : Pt := ⟨round (lerp s.start.x s.stop.x factor), round (lerp s.start.y s.stop.y factor)⟩
    some (dist2 p projected, factor)

/-- One round of the loop, SlicedUVCoordinates.cpp:40-74. The state is the closest distance, squared, and its
coordinates; `none` at the begin, when the distance is the maximum. -/
def scanStep (round : ℚ → ℤ) (p : Pt) (best : Option (ℤ × (ℚ × ℚ))) (s : Seg) : Option (ℤ × (ℚ × ℚ)) :=
  match measure round p s with
  | none => best
  | some (d, t) =>
    let uv := (lerp s.uvStart.1 s.uvEnd.1 t, lerp s.uvStart.2 s.uvEnd.2 t)
    match best with
    | none => some (d, uv)
    | some b => if d < b.1 then some (d, uv) else some b

/-- `SlicedUVCoordinates::getClosestUVCoordinates`, SlicedUVCoordinates.cpp:28-77; `look` is the lookup in the grid of
cell size 1000, see Verif/Grid. -/
def closestUV (round : ℚ → ℤ) (look : Pt → List (Pt × (ℚ × ℚ))) (segs : List Seg) (p : Pt) : Option (ℚ × ℚ) :=
  match getNearest 1000 look Prod.fst p 1000 (fun _ => true) with
  | some e => some e.2
  | none => (segs.foldl (scanStep round p) none).map Prod.snd

end Verif.Paint
