import Mathlib.Data.List.Sort
import Mathlib.Data.Rat.Floor
import Mathlib.Algebra.Order.Ring.Rat
import Mathlib.Tactic.Linarith

/-! # Infill by parallel lines

Models the lines and zigzag patterns of src/infill.cpp and src/infill/ZigzagConnectorProcessor.cpp. The outline is turned so that the
lines are vertical; turning it and turning the result back are parameters (doubles, src/geometry/PointMatrix.cpp:52-64). Integers
have no bounds. -/

namespace Verif.Lines

abbrev Pt := Int × Int

/-- The `ZigzagConnectorProcessor` (include/infill/ZigzagConnectorProcessor.h:192-195). -/
structure Zigzag where
  endpieces : Bool
  connected : Bool
  skip : Bool
  skipCount : Int

/-- Parameters: the distance of lines, the shift of the lines (`extra_shift` and `shift_`), the width of lines, the rotation and its
inverse, and the connections of a zigzag pattern (none for the lines pattern). -/
structure Config where
  d : Int
  shift : Int
  width : Int
  rot : Pt → Pt
  unrot : Pt → Pt
  zigzag : Option Zigzag

/-- `computeScanSegmentIdx` (src/infill.cpp:47-56). -/
def segIdx (x d : Int) : Int := if x < 0 then (x + 1).tdiv d - 1 else x.tdiv d

/-- The shift is brought between 0 and the distance (src/infill.cpp:726-734). -/
def shiftOf (s d : Int) : Int := if s < 0 then d - (-s).tmod d else s.tmod d

/-- Where a scanline crosses an edge (src/infill.cpp:817). -/
def crossY (p0 p1 : Pt) (x : Int) : Int := p1.2 + ((p0.2 - p1.2) * (x - p1.1)).tdiv (p0.1 - p1.1)

/-- The scanlines that an edge crosses, in order (src/infill.cpp:785-814). The loop ends when the index is equal to the one behind the
last; the first one is never beyond it. -/
def scans (d shift : Int) (p0 p1 : Pt) : List Int :=
  if p1.1 = p0.1 then []
  else if p0.1 < p1.1 then
    (List.range (segIdx (p1.1 - shift) d + 1 - (segIdx (p0.1 - shift) d + 1)).toNat).map fun k : Nat => segIdx (p0.1 - shift) d + 1 + k
  else (List.range (segIdx (p0.1 - shift) d - (segIdx (p1.1 - shift) d + 1 - 1)).toNat).map fun k : Nat => segIdx (p0.1 - shift) d - k

/-- What happens on the way around a polygon. -/
inductive Event where
  | vertex (p : Pt)
  | cross (p : Pt) (scan : Int)
  deriving DecidableEq

/-- One edge (src/infill.cpp:784-825). -/
def edgeEvents (d shift : Int) (p0 p1 : Pt) : List Event :=
  ((scans d shift p0 p1).map fun s => .cross (s * d + shift, crossY p0 p1 (s * d + shift)) s) ++ [.vertex p1]

/-- The edges from a point along the vertices (src/infill.cpp:782-826). -/
def walk (d shift : Int) : Pt → List Pt → List Event
  | _, [] => []
  | p0, p1 :: rest => edgeEvents d shift p0 p1 ++ walk d shift p1 rest

/-- One polygon (src/infill.cpp:774-826). -/
def polyEvents (d shift : Int) (poly : List Pt) : List Event :=
  .vertex (poly.getLastD (0, 0)) :: walk d shift (poly.getLastD (0, 0)) poly

/-! ## Lines -/

/-- A crossing is put into `cut_list` and into `crossings_per_scanline`, which has no place for the first scanline; it is undefined
behaviour if there is no such scanline (src/infill.cpp:741, 763-766, 819-822). Of the second only the bounds are modelled. -/
def pushCut (min : Int) (cuts : List (List Int)) (c : Int × Int) : Option (List (List Int)) :=
  if 0 ≤ c.1 - (min + 1) ∧ (c.1 - min).toNat < cuts.length then some (cuts.modify (c.1 - min).toNat (· ++ [c.2])) else none

def Event.crossing? : Event → Option (Int × Int)
  | .vertex _ => none
  | .cross p s => some (s, p.2)

/-- All crossings in the order in which they are found (src/infill.cpp:772-828). -/
def crossings (d shift : Int) (outline : List (List Pt)) : List (Int × Int) :=
  (outline.flatMap (polyEvents d shift)).filterMap Event.crossing?

/-- Crossings by the even-odd rule; short lines are left out (src/infill.cpp:633-640). -/
def pairUp (width : Int) : List Int → List (Int × Int)
  | a :: b :: rest => if b - a < width.tdiv 5 then pairUp width rest else (a, b) :: pairUp width rest
  | _ => []

/-- `std::stable_sort` (src/infill.cpp:632). -/
def sorted (l : List Int) : List Int := l.insertionSort (· ≤ ·)

/-- `addLineInfill` (src/infill.cpp:613-643). -/
def addLines (d width maxX : Int) : Int → List (List Int) → List (List Pt)
  | _, [] => []
  | x, cut :: rest =>
    if x < maxX then ((pairUp width (sorted cut)).map fun ab => [(x, ab.1), (x, ab.2)]) ++ addLines d width maxX (x + d) rest else []

/-- The bounding box in the direction across the lines (src/infill.cpp:736). -/
def minX (outline : List (List Pt)) : Int := ((outline.flatten.map (·.1)).min?).getD 0
def maxX (outline : List (List Pt)) : Int := ((outline.flatten.map (·.1)).max?).getD 0

/-! ## Connections of a zigzag pattern -/

/-- The state of a `ZigzagConnectorProcessor` (include/infill/ZigzagConnectorProcessor.h:197-211). -/
structure Zig where
  isFirst : Bool
  firstEnd : Int
  last : Int
  first : List Pt
  cur : List Pt
  out : List (List Pt)

/-- `reset` (src/infill/ZigzagConnectorProcessor.cpp:174-181). -/
def Zig.reset (out : List (List Pt)) : Zig := ⟨true, 0, 0, [], [], out⟩

/-- `registerVertex` (src/infill/ZigzagConnectorProcessor.cpp:17-27). -/
def Zig.vertex (z : Zig) (p : Pt) : Zig := if z.isFirst then { z with first := z.first ++ [p] } else { z with cur := z.cur ++ [p] }

/-- `should_skip_this_connection` (src/infill/ZigzagConnectorProcessor.cpp:49-83). -/
def skips (c : Zigzag) (a b : Int) : Bool :=
  if c.skip && decide (c.skipCount > 0) then
    if b - a > 0 then decide (a.tmod c.skipCount = 0) else decide ((a - 1).tmod c.skipCount = 0)
  else false

/-- `shouldAddCurrentConnector` (src/infill/ZigzagConnectorProcessor.cpp:29-89). -/
def shouldAdd (c : Zigzag) (a b : Int) : Bool :=
  (decide (a.tmod 2 = 0) && !decide (a = b) && !skips c a b) || (c.endpieces && decide (a = b))

/-- `handleConnectorTooCloseToSegment` (src/infill/ZigzagConnectorProcessor.cpp:91-105). -/
def tooClose (cur : List Pt) (x dist : Int) : Bool := !cur.isEmpty && cur.all fun p => !decide (|p.1 - x| ≥ dist)

/-- `addZagConnector` (src/infill/ZigzagConnectorProcessor.cpp:159-172). -/
def addZag (c : Zigzag) (pts : List Pt) (endpiece : Bool) (out : List (List Pt)) : List (List Pt) :=
  if pts.length < 2 then out else out ++ [if endpiece && !c.connected then pts.dropLast else pts]

/-- The connection that ends at a crossing (src/infill/ZigzagConnectorProcessor.cpp:119-125). -/
def Zig.closed (c : Zigzag) (dist : Int) (z : Zig) (p : Pt) (s : Int) : List (List Pt) :=
  if shouldAdd c z.last s && !tooClose z.cur p.1 dist then addZag c (z.cur ++ [p]) (decide (s = z.last)) z.out else z.out

/-- `registerScanlineSegmentIntersection` (src/infill/ZigzagConnectorProcessor.cpp:107-132). -/
def Zig.cross (c : Zigzag) (dist : Int) (z : Zig) (p : Pt) (s : Int) : Zig :=
  if z.isFirst then { z with first := z.first ++ [p], firstEnd := s, isFirst := false, cur := [p], last := s }
  else { z with out := z.closed c dist p s, cur := [p], last := s }

def Zig.step (c : Zigzag) (dist : Int) (z : Zig) : Event → Zig
  | .vertex p => z.vertex p
  | .cross p s => z.cross c dist p s

/-- `registerPolyFinished` (src/infill/ZigzagConnectorProcessor.cpp:135-156). -/
def Zig.finish (c : Zigzag) (z : Zig) : Zig :=
  let endpiece := z.isFirst || decide (z.last = z.firstEnd)
  Zig.reset (if (endpiece && c.endpieces) || (!endpiece && shouldAdd c z.last z.firstEnd) then addZag c (z.cur ++ z.first) endpiece z.out else z.out)

/-- The connections of an outline (src/infill.cpp:772-828). -/
def connectors (c : Zigzag) (d shift : Int) (outline : List (List Pt)) : List (List Pt) :=
  (outline.foldl (fun z poly => ((polyEvents d shift poly).foldl (Zig.step c (d.tdiv 4)) z).finish c) (Zig.reset [])).out

/-- The connections, if any. -/
def connections (c : Config) (shift : Int) (outline : List (List Pt)) : List (List Pt) :=
  match c.zigzag with
  | none => []
  | some z => connectors z c.d shift outline

/-- Nothing but the outline is printed (src/infill.cpp:864-867). -/
def onlyOutline (c : Config) (cuts : List (List Int)) : Bool :=
  match c.zigzag with
  | none => false
  | some z => z.connected && decide (cuts.length = 1) && decide ((cuts.headD []).length ≤ 2)

/-- `generateLinearBasedInfill` without `connect_lines_` (src/infill.cpp:708-872). A polygon without vertices is undefined behaviour. -/
def generate (c : Config) (outline : List (List Pt)) : Option (List (List Pt)) :=
  if c.d = 0 || outline.isEmpty then some []
  else if outline.any List.isEmpty then none
  else
    let turned := outline.map (·.map c.rot)
    let shift := shiftOf c.shift c.d
    let min := segIdx (minX turned - shift) c.d
    let count := segIdx (maxX turned - shift) c.d + 1 - min
    ((crossings c.d shift turned).foldlM (pushCut min) (List.replicate count.toNat [])).map fun cuts =>
      let zags := connections c shift turned
      let lines := if onlyOutline c cuts then [] else addLines c.d c.width (maxX turned) (min * c.d + shift) cuts
      (zags ++ lines).map (·.map c.unrot)

end Verif.Lines
