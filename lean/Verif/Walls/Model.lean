import Verif.Order.Model
import Verif.Simplify.Model
import Mathlib.Data.List.Sort

/-! # The order of walls

Models src/InsetOrderOptimizer.cpp: which walls an extruder prints, the requirements on their order that are given to the ordering of paths
(`Verif/Order`), the seam point that is inserted and how the ordered walls are added to the layer; and the depth-first search of
include/utils/views/dfs.h. A wall is known by its index in `walls_to_be_added_`. Integers have no bounds. -/

namespace Verif.Walls

open Verif.Order (Pt Edges)

/-- `ExtrusionJunction` (include/utils/ExtrusionJunction.h:20-45): place and width. -/
structure Junction where
  p : Pt
  w : Int
deriving DecidableEq, Repr

/-- `ExtrusionLine` (include/utils/ExtrusionLine.h:28-75): `inset_idx_`, `is_odd_`, `is_closed_` and `junctions_`. -/
structure Wall where
  inset : Nat
  odd : Bool
  closed : Bool
  junctions : List Junction
deriving DecidableEq, Repr

/-- `shouldReversePath` (src/InsetOrderOptimizer.cpp:527-534). -/
def shouldReverse (one isX outerToInner : Bool) : Bool := if one && isX then !outerToInner else isX

/-- `getWallsToBeAdded` (src/InsetOrderOptimizer.cpp:536-567). -/
def wallsToBeAdded (reverse one : Bool) (paths : List (List Wall)) : List Wall :=
  (if reverse then (if one then paths.reverse else paths.reverse.dropLast) else (if one then paths else paths.take 1)).flatten.filter
    fun w => !w.junctions.isEmpty

/-- `walls_by_inset[inset]` and `fillers_by_inset[inset]` (src/InsetOrderOptimizer.cpp:471-491). -/
def byInset (ws : List Wall) (odd : Bool) (inset : Nat) : List Nat :=
  (List.range ws.length).filter fun i => (ws[i]?).any fun w => w.odd == odd && w.inset == inset

/-- The sizes of these vectors (src/InsetOrderOptimizer.cpp:471-491). -/
def insets (ws : List Wall) (odd : Bool) : Nat := ((ws.filter fun w => w.odd == odd).map fun w => w.inset + 1).foldl max 0

/-- `getInsetOrder` (src/InsetOrderOptimizer.cpp:464-525): the first of a pair is printed before the second. -/
def insetOrder (ws : List Wall) (outerToInner : Bool) : Edges :=
  ((List.range (insets ws false - 1)).flatMap fun k => (byInset ws false k).flatMap fun i => (byInset ws false (k + 1)).map fun j =>
    if outerToInner then (i, j) else (j, i)) ++
  (List.range' 1 (insets ws true - 1)).flatMap fun k => (byInset ws true k).flatMap fun i =>
    if insets ws false ≤ k - 1 then [] else (byInset ws false (k - 1)).map fun j => (j, i)

/-- The geometry that nesting depends on: the area of a wall's bounding box, and whether the first junction of the second wall is inside of the
first one as a polygon. -/
structure Shapes where
  area : Nat → Int
  within : Nat → Nat → Bool

/-- `sorted_extrusion_lines` (src/InsetOrderOptimizer.cpp:327-359). A stable sort by area is one by area and then by index. -/
def sorted (S : Shapes) (ws : List Wall) : List Nat :=
  (List.range ws.length).insertionSort fun i j => S.area i < S.area j ∨ S.area i = S.area j ∧ i ≤ j

/-- `graph`, as pairs of an inner and the outer wall, and `invariant_outer_parents`. -/
structure Nest where
  pairs : List (Nat × Nat)
  roots : List Nat

/-- The body of the loop that nests the walls (src/InsetOrderOptimizer.cpp:367-403). -/
def nestStep (S : Shapes) (ws : List Wall) (s : Nest) (i : Nat) : Nest :=
  if (ws[i]?).any Wall.closed then
    ⟨s.pairs ++ ((s.roots.filter fun r => S.within i r).map fun r => (r, i)), (s.roots.filter fun r => !S.within i r) ++ [i]⟩
  else ⟨s.pairs, s.roots ++ [i]⟩

/-- The loop (src/InsetOrderOptimizer.cpp:361-403). -/
def nest (S : Shapes) (ws : List Wall) : Nest := (sorted S ws).foldl (nestStep S ws) ⟨[], []⟩

/-- What is stored for a key of the multimap (src/InsetOrderOptimizer.cpp:391-392): each pair is, in both directions. -/
def neighbours (pairs : List (Nat × Nat)) (v : Nat) : List Nat :=
  pairs.filterMap fun e => if e.1 = v then some e.2 else if e.2 = v then some e.1 else none

/-- `dfs` (include/utils/views/dfs.h:44-66): the visited nodes with the state they are visited with, and `visited`. `nb` is the order in which the
neighbours are found. The first argument is a bound to the depth; the theorems say that it suffices. -/
def dfs {S : Type} (nb : Nat → List Nat) (step : Nat → S → S) : Nat → Nat → S → List Nat → Option (List (Nat × S) × List Nat)
  | 0, _, _, _ => none
  | n + 1, v, s, visited =>
    if v ∈ visited then some ([], visited)
    else (nb v).foldlM (fun acc u => (dfs nb step n u (step v s) acc.2).map fun r => (acc.1 ++ r.1, r.2)) ([(v, s)], v :: visited)

/-- `dfs_depth_state` (include/utils/views/dfs.h:81-91). -/
def depths (nb : Nat → List Nat) (n v : Nat) : Option (List (Nat × Nat)) := (dfs nb (fun _ d => d + 1) n v 0 []).map Prod.fst

/-- `dfs_parent_state` (include/utils/views/dfs.h:68-79). -/
def parents (nb : Nat → List Nat) (n v : Nat) : Option (List (Nat × Option Nat)) := (dfs nb (fun u _ => some u) n v none []).map Prod.fst

/-- `outer_walls` (src/InsetOrderOptimizer.cpp:405). -/
def outerWalls (ws : List Wall) : List Nat := (List.range ws.length).filter fun i => (ws[i]?).any fun w => w.inset == 0

/-- `min_depth` and `closest_outer_wall_line`. -/
abbrev Closest := Nat → Option (Nat × Nat)

/-- `update_nodes` (src/InsetOrderOptimizer.cpp:412-420). -/
def update (wall : Nat) (t : Closest) (e : Nat × Nat) : Closest :=
  if (t e.1).all fun m => e.2 < m.1 then fun x => if x = e.1 then some (e.2, wall) else t x else t

/-- The loop over the outer walls (src/InsetOrderOptimizer.cpp:407-422). -/
def closest (nb : Nat → List Nat) (n : Nat) (outer : List Nat) : Option Closest :=
  outer.foldlM (fun t wall => (depths nb n wall).map fun es => es.foldl (update wall) t) fun _ => none

/-- `set_order_constraints` (src/InsetOrderOptimizer.cpp:431-447). -/
def constraint (t : Closest) (outerToInner : Bool) (wall : Nat) (e : Nat × Option Nat) : Edges :=
  match e.2 with
  | none => []
  | some p => if (t e.1).map Prod.snd = some wall then [if outerToInner then (p, e.1) else (e.1, p)] else []

/-- `getRegionOrder` (src/InsetOrderOptimizer.cpp:318-453); `nb` is the order in which the multimap yields the neighbours of a wall. -/
def regionOrder (nb : Nat → List Nat) (ws : List Wall) (outerToInner : Bool) : Option Edges :=
  (closest nb (ws.length + 1) (outerWalls ws)).bind fun t =>
    (outerWalls ws).foldlM (fun es wall => (parents nb (ws.length + 1) wall).map fun vs => es ++ vs.flatMap (constraint t outerToInner wall)) []

/-- The requirements (src/InsetOrderOptimizer.cpp:103-104). -/
def requirements (nb : Nat → List Nat) (ws : List Wall) (pack outerToInner : Bool) : Option Edges :=
  if pack then some (insetOrder ws outerToInner) else regionOrder nb ws outerToInner

/-- How a wall is added to the layer (src/InsetOrderOptimizer.cpp:167-215): the index it starts from and whether it is followed backwards. `alternate`
is `material_alternate_walls`. -/
def placed (alternate : Bool) (layer : Int) (w : Wall) (start : Nat) (backwards : Bool) : Nat × Bool :=
  let revertInset := alternate && decide (w.inset % 2 ≠ 0)
  let revertLayer := alternate && decide (layer.tmod 2 ≠ 0)
  let back := backwards != (revertInset != revertLayer)
  (if back != backwards then w.junctions.length - (start + 1) else start, back)

/-- `vSize2` of a difference. -/
def dist2 (p q : Pt) : Int := (p.x - q.x) * (p.x - q.x) + (p.y - q.y) * (p.y - q.y)

/-- `vSize` of a difference (include/geometry/Point2LL.h:147-150). -/
def size (p q : Pt) : Int := Simplify.roundSqrt (dist2 p q).toNat

/-- The end of `insertSeamPoint` (src/InsetOrderOptimizer.cpp:282-315), when the closest point `q` to where the seam should be is known to be on the
segment from junction `i` on: the junctions and the index of the seam. `none` is a division by zero. -/
def insertSeam (js : List Junction) (i : Nat) (q : Pt) : Option (List Junction × Nat) :=
  (js[i]?).bind fun a => (js[(i + 1) % js.length]?).bind fun b =>
    if dist2 q a.p ≤ 25 then some (js, i)
    else if dist2 q b.p ≤ 25 then some (js, (i + 1) % js.length)
    else if size b.p a.p = 0 then none
    else some (js.insertIdx (i + 1) ⟨q, (b.w * size q b.p).tdiv (size b.p a.p) + (a.w * size q a.p).tdiv (size b.p a.p)⟩, i + 1)

end Verif.Walls
