import Verif.Polylines.Props

/-! # Cases of stitching -/

namespace Verif.Polylines

open Grid (Pt dist2)

/-- Polylines of points, at most 100 apart, the same within 10. -/
def sample : Cfg Pt := ⟨id, true, 100, 10⟩

/-- Walls. -/
def walls : Cfg Pt := ⟨id, false, 100, 10⟩

/-- Three sides of a square whose fourth is the second line, the other way round and a bit apart, and a line elsewhere. -/
def square : List (Line Pt) :=
  [⟨[⟨0, 0⟩, ⟨1000, 0⟩, ⟨1000, 1000⟩], false⟩, ⟨[⟨0, 5⟩, ⟨0, 1000⟩, ⟨950, 1000⟩], false⟩, ⟨[⟨5000, 0⟩, ⟨6000, 0⟩], false⟩]

def table (c : Cfg Pt) (lines : List (Line Pt)) : Pt → List End := Grid.inOrder (Grid.pointGrid c.maxDist (place c lines) (ends lines))

/-- They are a closed polygon and a line. -/
example : (stitch sample square (table sample square)).map (fun rs => rs.map fun r => (r.pts, r.closed)) =
    some [([⟨0, 0⟩, ⟨1000, 0⟩, ⟨1000, 1000⟩, ⟨950, 1000⟩, ⟨0, 1000⟩, ⟨0, 5⟩], true), ([⟨6000, 0⟩, ⟨5000, 0⟩], false)] := by decide +kernel

example : 0 < sample.maxDist ∧ Grid.Lookup (Grid.pointGrid sample.maxDist (place sample square) (ends square)) (table sample square) ∧
    ∀ l ∈ square, l.pts ≠ [] := ⟨by decide, Grid.inOrder_lookup _, by decide⟩

/-- Walls are not reversed unless they are odd: the second line is not appended, but a third one is, before the first. -/
def directed : List (Line Pt) :=
  [⟨[⟨0, 0⟩, ⟨1000, 0⟩], false⟩, ⟨[⟨2000, 0⟩, ⟨1020, 0⟩], false⟩, ⟨[⟨0, 1000⟩, ⟨3, 4⟩], false⟩, ⟨[⟨2020, 0⟩, ⟨2500, 0⟩, ⟨2500, 70⟩], true⟩]

example : (stitch walls directed (table walls directed)).map (fun rs => rs.map fun r => (r.pts, r.closed)) =
    some [([⟨0, 1000⟩, ⟨0, 0⟩, ⟨1000, 0⟩], false), ([⟨2000, 0⟩, ⟨1020, 0⟩], false), ([⟨2500, 70⟩, ⟨2500, 0⟩, ⟨2020, 0⟩], false)] := by
  decide +kernel

example : 0 < walls.maxDist ∧ Grid.Lookup (Grid.pointGrid walls.maxDist (place walls directed) (ends directed)) (table walls directed) ∧
    ∀ l ∈ directed, l.pts ≠ [] := ⟨by decide, Grid.inOrder_lookup _, by decide⟩

/-- A contour of even walls that is closed up to 8 µm, and another even wall 9 µm from its end. -/
def even : List (Line Pt) :=
  [⟨[⟨0, 0⟩, ⟨1000, 0⟩, ⟨1000, 1000⟩, ⟨0, 1000⟩, ⟨8, 0⟩], false⟩, ⟨[⟨8, -9⟩, ⟨8, -1000⟩], false⟩]

/-- C105 is not what the comment says ("Prefer closing the polygon if it's 100% even lines"): the contour is not closed, although that is the
shortest connection, and the other wall is appended. With odd walls it is closed. -/
theorem C105_even_counterexample :
    (stitch walls even (table walls even)).map (fun rs => rs.map fun r => r.closed) = some [false] ∧
    size ⟨0, 0⟩ ⟨8, 0⟩ < size ⟨8, -9⟩ ⟨8, 0⟩ ∧
    (stitch walls (even.map fun l => { l with odd := true }) (table walls (even.map fun l => { l with odd := true }))).map
      (fun rs => rs.map fun r => r.closed) = some [true, false] := by
  refine ⟨?_, ?_, ?_⟩ <;> decide +kernel

end Verif.Polylines
