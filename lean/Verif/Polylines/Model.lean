import Verif.Grid.Model
import Verif.Simplify.Model

/-! # Stitching polylines

Models `PolylineStitcher::stitch` (src/utils/PolylineStitcher.cpp:95-279) for its three instances (16-93): polylines, which may be reversed
and are all of one kind, and walls of varying width (`ExtrusionLine`), of which only the odd ones may be reversed and which are connected
only to their kind. The grid is that of `Verif/Grid`: the order in which it yields the elements of a cell is arbitrary. Integers have no
bounds. The lines that are stitched are not closed. -/

namespace Verif.Polylines

open Grid (Pt dist2)

variable {J : Type}

/-- A line: its vertices (points, or junctions with a width) and whether it is odd (`is_odd_`, include/utils/ExtrusionLine.h; polylines are
not, src/utils/PolylineStitcher.cpp:59-75). -/
structure Line (J : Type) where
  pts : List J
  odd : Bool

/-- `make_point`, whether every line may be reversed (polylines), `max_stitch_distance` and `snap_distance`. -/
structure Cfg (J : Type) where
  pt : J → Pt
  free : Bool
  maxDist : Int
  snap : Int

/-- `vSize` of a difference (include/geometry/Point2LL.h:147-150). -/
def size (p q : Pt) : Int := Simplify.roundSqrt (dist2 p q).toNat

/-- The end of a line: `poly_idx_` and `point_idx_` (include/utils/PolygonsPointIndex.h:21-64). -/
abbrev End := Nat × Nat

/-- `PathsPointIndex::p` (include/utils/PolygonsPointIndex.h:63-70). There is always such a point for what is in the grid. -/
def place (c : Cfg J) (lines : List (Line J)) (e : End) : Pt :=
  (((lines[e.1]?).bind fun l => l.pts[e.2]?).map c.pt).getD ⟨0, 0⟩

/-- What is put into the grid (src/utils/PolylineStitcher.cpp:108-116). -/
def ends (lines : List (Line J)) : List End := lines.zipIdx.flatMap fun l => [(l.2, 0), (l.2, l.1.pts.length - 1)]

/-- `canReverse` (src/utils/PolylineStitcher.cpp:16-39). -/
def canReverse (c : Cfg J) (odd : Bool) : Bool := c.free || odd

/-- `length` (src/geometry/Polyline.cpp:135-145, src/utils/ExtrusionLine.cpp:15-33). -/
def length (c : Cfg J) : List J → Int
  | a :: b :: l => size (c.pt b) (c.pt a) + length c (b :: l)
  | _ => 0

/-- `closest` with `closest_distance`, and `closest_is_closing_polygon`. -/
structure Found where
  best : Option (End × Int)
  closing : Bool

/-- What a search depends on: the ends of the chain, how many vertices it has, its length, its kind, whether it is reversed, whether it should
be closed, and which lines have been used. -/
structure Search where
  front : Pt
  back : Pt
  count : Nat
  length : Int
  odd : Bool
  rev : Bool
  close : Bool
  done : List Nat

/-- The function that is called for each end that is nearby (src/utils/PolylineStitcher.cpp:160-213): whether to go on, and what has been found. -/
def visit (c : Cfg J) (lines : List (Line J)) (s : Search) (f : Found) (e : End) : Bool × Found :=
  let p := place c lines e
  let d := size p s.back
  if d > c.maxDist then (true, f)
  else
    let near := decide (dist2 p s.front < c.snap * c.snap)
    if near && (decide (s.length + d < 3 * c.maxDist) || decide (s.count ≤ 2)) then (true, f)
    else if !near && decide (e.1 ∈ s.done) then (true, f)
    else
      let d := if near then (if s.close then d - 10 else d + 10) else d
      let odd := ((lines[e.1]?).map Line.odd).getD false
      let reversed := decide (e.2 ≠ 0) != s.rev
      if !canReverse c odd && reversed then (true, f)
      else if s.odd != odd then (true, f)
      else (!decide (d < c.snap), if (f.best.map fun b => decide (d < b.2)).getD true then ⟨some (e, d), near⟩ else f)

/-- The chain while it grows: vertices, `chain_length`, `should_close` and which lines have been used. -/
structure Chain (J : Type) where
  pts : List J
  length : Int
  close : Bool
  done : List Nat

/-- The search for the next line (src/utils/PolylineStitcher.cpp:142-213). -/
def search (c : Cfg J) (lines : List (Line J)) (look : Pt → List End) (odd rev : Bool) (front back : J) (s : Chain J) : Found :=
  (Grid.processNearby c.maxDist look (c.pt back) c.maxDist
    (visit c lines ⟨c.pt front, c.pt back, s.pts.length, s.length, odd, rev, s.close, s.done⟩) ⟨none, false⟩).2

/-- Appending a line (src/utils/PolylineStitcher.cpp:223-250). -/
def append (c : Cfg J) (lines : List (Line J)) (back : J) (e : End) (s : Chain J) : Chain J :=
  let l := (lines[e.1]?).getD ⟨[], false⟩
  let pts := if e.2 = 0 then l.pts else l.pts.reverse
  let new := if size (c.pt back) (place c lines e) < c.snap then pts.tail else pts
  ⟨s.pts ++ new, s.length + length c (back :: new), s.close && !l.odd, e.1 :: s.done⟩

/-- The loop that extends a chain (src/utils/PolylineStitcher.cpp:140-251), and whether it ended because the chain is closed. The first argument
is a bound to the number of rounds; the theorems say that it suffices. `closest_is_closing_polygon` is false whenever a round begins. -/
def extend (c : Cfg J) (lines : List (Line J)) (look : Pt → List End) (odd rev : Bool) : Nat → Chain J → Option (Chain J × Bool)
  | 0, _ => none
  | n + 1, s =>
    match s.pts.head?, s.pts.getLast? with
    | some front, some back =>
      match (search c lines look odd rev front back s).best with
      | none => some (s, false)
      | some (e, _) =>
        if (search c lines look odd rev front back s).closing then some (s, true)
        else extend c lines look odd rev n (append c lines back e s)
    | _, _ => none

/-- A result: whether it is in `result_polygons` or in `result_lines`. -/
structure Result (J : Type) where
  pts : List J
  odd : Bool
  closed : Bool

/-- The body of the loop over the lines, for one that has not been used (src/utils/PolylineStitcher.cpp:120-278), with the lines that are used
then. -/
def fromLine (c : Cfg J) (lines : List (Line J)) (look : Pt → List End) (done : List Nat) (i : Nat) (l : Line J) : Option (Result J × List Nat) :=
  (extend c lines look l.odd false (lines.length + 1) ⟨l.pts, length c l.pts, l.odd, i :: done⟩).bind fun a =>
    if a.2 then some (⟨a.1.pts, l.odd, true⟩, a.1.done)
    else
      (extend c lines look l.odd true (lines.length + 1) { a.1 with pts := a.1.pts.reverse, length := length c a.1.pts.reverse }).map fun b =>
        if b.2 then (⟨b.1.pts.reverse, l.odd, true⟩, b.1.done)
        else (⟨if canReverse c l.odd then b.1.pts else b.1.pts.reverse, l.odd, false⟩, b.1.done)

/-- The loop over the lines from index `i` on (src/utils/PolylineStitcher.cpp:120-278). -/
def loop (c : Cfg J) (lines : List (Line J)) (look : Pt → List End) (done : List Nat) (i : Nat) : List (Line J) → Option (List (Result J))
  | [] => some []
  | l :: ls =>
    if i ∈ done then loop c lines look done (i + 1) ls
    else (fromLine c lines look done i l).bind fun r => (loop c lines look r.2 (i + 1) ls).map fun rs => r.1 :: rs

/-- `stitch` (src/utils/PolylineStitcher.cpp:95-279). A line without vertices is an error, since its last vertex is read. -/
def stitch (c : Cfg J) (lines : List (Line J)) (look : Pt → List End) : Option (List (Result J)) :=
  if lines.any fun l => l.pts.isEmpty then none else loop c lines look [] 0 lines

end Verif.Polylines
