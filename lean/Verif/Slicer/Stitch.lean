import Verif.Slicer.LoopSpec

/-! # Stitching open polylines

Model of `SlicerLayer::connectOpenPolylinesImpl` and its helpers, src/slicer.cpp:133-538 and include/slicer.h:135-353. The end
points of the polylines (`Terminus`) are numbered as in the code: `2 * polyline` for the start and `2 * polyline + 1` for the end;
`INVALID_TERMINUS` is `none`. Using it as an index is undefined behaviour. The tables are functions. -/

namespace Verif.Slicer

/-- `Terminus(polyline_idx, is_end)`, include/slicer.h:180-183. -/
def term (line : Nat) (isEnd : Bool) : Nat := line * 2 + if isEnd then 1 else 0

/-- `getPolylineIdx`, include/slicer.h:186-189. -/
def lineOf (t : Nat) : Nat := t / 2

/-- `isEnd`, include/slicer.h:192-195. -/
def isEnd (t : Nat) : Bool := t % 2 == 1

/-- `PossibleStitch`, include/slicer.h:281-311. -/
structure Stitch where
  dist2 : Int
  t0 : Nat
  t1 : Nat
  deriving DecidableEq, Repr

/-- `in_order`, include/slicer.h:297-301. -/
def Stitch.inOrder (s : Stitch) : Bool := isEnd s.t0 && !isEnd s.t1

/-- `PossibleStitch::operator<`, src/slicer.cpp:151-193. -/
def Stitch.less (s o : Stitch) : Bool :=
  if s.dist2 > o.dist2 then true
  else if s.dist2 < o.dist2 then false
  else if !s.inOrder && o.inOrder then true
  else if s.t0 > o.t0 then true
  else if s.t0 < o.t0 then false
  else if s.t1 > o.t1 then true
  else if s.t1 < o.t1 then false
  else false

/-- `findPossibleStitches`, src/slicer.cpp:275-284: stitches between two given end points (`e0` the end or start of line `i`, a
point; the same for `j`). -/
def stitchIf (maxDist : Int) (i : Nat) (e0 : Bool) (p : P2) (j : Nat) (e1 : Bool) (q : P2) : List Stitch :=
  let d := (p.x - q.x) * (p.x - q.x) + (p.y - q.y) * (p.y - q.y)
  if d < maxDist * maxDist then [⟨d, term i e0, term j e1⟩] else []

/-- `findPossibleStitches`, src/slicer.cpp:260-337: the stitches found for `polyline_1` (number `j`). The grids are replaced by
the list of all polylines: `getNearby` returns all points within the distance, and points further away are rejected here. -/
def stitchesOf (lines : List (List P2)) (maxDist : Int) (allowReverse : Bool) (j : Nat) (line1 : List P2) : List Stitch :=
  match line1.head?, line1.getLast? with
  | some first, some last =>
    (lines.zipIdx.flatMap fun (line0, i) => match line0.getLast? with
      | some p => stitchIf maxDist i true p j false first
      | none => []) ++
    if allowReverse then
      (lines.zipIdx.flatMap fun (line0, i) => match line0.getLast? with
        | some p => if i = j then [] else stitchIf maxDist i true p j true last
        | none => []) ++
      (lines.zipIdx.flatMap fun (line0, i) => match line0.head? with
        | some p => if i = j then [] else stitchIf maxDist i false p j false first
        | none => [])
    else []
  | _, _ => []

/-- `findPossibleStitches`, src/slicer.cpp:195-340, as a list. -/
def possibleStitches (lines : List (List P2)) (maxDist : Int) (allowReverse : Bool) : List Stitch :=
  lines.zipIdx.flatMap fun (line1, j) => stitchesOf lines maxDist allowReverse j line1

/-- The state of `connectOpenPolylinesImpl`. -/
structure St where
  lines : Nat → List P2
  old2cur : Nat → Option Nat
  cur2old : Nat → Option Nat
  polygons : List (List P2)

/-- Changes a table. -/
def upd {α : Type} (f : Nat → α) (i : Nat) (a : α) : Nat → α := fun j => if j = i then a else f j

/-- `planPolylineStitch`, src/slicer.cpp:342-389: the termini, possibly swapped, and which polyline is to be reversed. -/
def plan (lines : Nat → List P2) (t0 t1 : Nat) : Nat × Nat × Bool × Bool :=
  if isEnd t0 then
    if isEnd t1 then
      if (lines (lineOf t0)).length < (lines (lineOf t1)).length then (t1, t0, false, true) else (t0, t1, false, true)
    else (t0, t1, false, false)
  else
    if isEnd t1 then (t1, t0, false, false)
    else
      if (lines (lineOf t0)).length > (lines (lineOf t1)).length then (t1, t0, true, false) else (t0, t1, true, false)

/-- `joinPolylines`, src/slicer.cpp:391-415: the joined polyline. The loop that swaps the points of the first polyline is
`reverse`. -/
def join (l0 l1 : List P2) (rev0 rev1 : Bool) : List P2 :=
  (if rev0 then l0.reverse else l0) ++ if rev1 then l1.reverse else l1

/-- `markRemoved`, include/slicer.h:247-252. -/
def markRemoved (s : St) (cur : Nat) : Outcome St :=
  match s.cur2old cur with
  | none => .ub
  | some old => .ok { s with old2cur := upd s.old2cur old none, cur2old := upd s.cur2old cur none }

/-- `updateMap`, src/slicer.cpp:441-449: one end point moves from `old` (its original place) to `next`. -/
def moveTerm (s : St) (old next : Option Nat) : Outcome St :=
  match old with
  | none => .ub
  | some o =>
    let s := { s with old2cur := upd s.old2cur o next }
    match next with
    | none => .ok s
    | some t => .ok { s with cur2old := upd s.cur2old t (some o) }

/-- `updateMap`, src/slicer.cpp:428-456, for the four end points of two joined polylines; the last two no longer exist. -/
def updateMap (s : St) (c0 c1 c2 c3 : Nat) (n0 n1 n2 n3 : Option Nat) : Outcome St :=
  let o0 := s.cur2old c0
  let o1 := s.cur2old c1
  let o2 := s.cur2old c2
  let o3 := s.cur2old c3
  (moveTerm s o0 n0).bind fun s => (moveTerm s o1 n1).bind fun s => (moveTerm s o2 n2).bind fun s => (moveTerm s o3 n3).bind fun s =>
    .ok { s with cur2old := upd (upd s.cur2old c2 none) c3 none }

/-- `connectOpenPolylinesImpl`, src/slicer.cpp:494-504: a polyline becomes a polygon. -/
def closePolygon (s : St) (i : Nat) : Outcome St :=
  (markRemoved { s with polygons := s.polygons ++ [s.lines i], lines := upd s.lines i [] } (term i false)).bind fun s =>
    markRemoved s (term i true)

/-- `connectOpenPolylinesImpl`, src/slicer.cpp:506-536: two polylines are joined. -/
def joinLines (s : St) (t0 t1 : Nat) : Outcome St :=
  let (t0, t1, rev0, rev1) := plan s.lines t0 t1
  let i := lineOf t0
  let j := lineOf t1
  let s1 := { s with lines := upd (upd s.lines i (join (s.lines i) (s.lines j) rev0 rev1)) j [] }
  updateMap s1 (term i false) (term i true) (term j false) (term j true)
    (if rev0 then none else some (term i false)) (if rev0 then some (term i false) else none)
    (if rev1 then some (term i true) else none) (if rev1 then none else some (term i true))

/-- `connectOpenPolylinesImpl`, src/slicer.cpp:469-536: one stitch from the queue. -/
def stitchStep (s : St) (x : Stitch) : Outcome St :=
  match s.old2cur x.t0 with
  | none => .ok s
  | some t0 =>
    match s.old2cur x.t1 with
    | none => .ok s
    | some t1 => if lineOf t0 = lineOf t1 then closePolygon s (lineOf t0) else joinLines s t0 t1

/-- The queue, in the order in which it is emptied. -/
def stitchAll : St → List Stitch → Outcome St
  | s, [] => .ok s
  | s, x :: xs => (stitchStep s x).bind fun s => stitchAll s xs

/-- `TerminusTrackingMap`, src/slicer.cpp:417-426, and the lines before the first stitch. An index beyond the table has no
entry. -/
def St.init (lines : List (List P2)) (polygons : List (List P2)) : St where
  lines i := lines.getD i []
  old2cur t := if t < 2 * lines.length then some t else none
  cur2old t := if t < 2 * lines.length then some t else none
  polygons := polygons

/-- `connectOpenPolylinesImpl`, src/slicer.cpp:458-538, for a queue that is emptied in the order of the list: the lines and the
polygons afterwards. -/
def connectLines (lines polygons : List (List P2)) (queue : List Stitch) : Outcome (List (List P2) × List (List P2)) :=
  (stitchAll (St.init lines polygons) queue).bind fun s => .ok ((List.range lines.length).map s.lines, s.polygons)

end Verif.Slicer
