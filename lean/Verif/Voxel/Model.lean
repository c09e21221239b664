import Verif.Voxel.Spec
import Mathlib.Data.Fin.VecNotation

/-! # Voxels -/

namespace Verif.Voxel

/-- `toGridCoord` (include/utils/VoxelUtils.h:159-163). -/
def toGrid (size x : Int) : Int := x.tdiv size - if x < 0 then 1 else 0

/-- `toGridPoint` (include/utils/VoxelUtils.h:154-157). -/
def toCell (size p : P3) : P3 := fun d => toGrid (size d) (p d)

/-- How far along the line it leaves the cell in a dimension (src/utils/VoxelUtils.cpp:78-79). Rational instead of double. -/
def leaves (size start diff cell : P3) (d : Fin 3) : Rat :=
  ((cell d * size d + (if 0 < diff d then size d else 0) - start d : Int) : Rat) / (diff d : Rat)

/-- One round of the loop over the dimensions (src/utils/VoxelUtils.cpp:72-85). `none` is the largest double. -/
def better (size start diff cell : P3) (best : Option (Fin 3 × Rat)) (d : Fin 3) : Option (Fin 3 × Rat) :=
  if diff d = 0 then best
  else
    let q := leaves size start diff cell d
    match best with
    | none => some (d, q)
    | some (b, r) => if q < r then some (d, q) else some (b, r)

/-- The dimension in which the line leaves the cell next (src/utils/VoxelUtils.cpp:70-86). -/
def exit (size start diff cell : P3) : Option (Fin 3 × Rat) := [0, 1, 2].foldl (better size start diff cell) none

/-- The loop of `walkLine`, if the function always says to continue (src/utils/VoxelUtils.cpp:61-93). `none`: no dimension, or more rounds than `n`. -/
def walkLoop (size start diff : P3) : Nat → P3 → Option (List P3)
  | 0, _ => none
  | n + 1, cell =>
    match exit size start diff cell with
    | none => none
    | some (d, q) =>
      if 1 < q then some [cell]
      else (walkLoop size start diff n fun d' => if d' = d then cell d' + (if 0 < diff d then 1 else -1) else cell d').map (cell :: ·)

/-- `walkLine` (src/utils/VoxelUtils.cpp:49-95), the cells for which the function is called. -/
def walkLine (size start end' : P3) (n : Nat) : Option (List P3) :=
  let diff : P3 := fun d => end' d - start d
  if toCell size start = toCell size end' then some [toCell size start] else walkLoop size start diff n (toCell size start)

/-- `DilationKernel` of one kind (src/utils/VoxelUtils.cpp:11-47). -/
inductive Kind where
  | cube
  | diamond
  | prism
  deriving DecidableEq, Repr

/-- How far a cell is from the middle, as a part of `mult` (src/utils/VoxelUtils.cpp:30-37). -/
def relDist (mult start end' x : Int) : Int :=
  let limit := if x < 0 then start else end' - 1
  (mult * x).tdiv (if limit = 0 then 1 else limit)

/-- The numbers from `a` up to below `b`. -/
def upTo (a b : Int) : List Int := (List.range (b - a).toNat).map fun (i : Nat) => a + (i : Int)

/-- The relative cells of a kernel (src/utils/VoxelUtils.cpp:11-47). -/
def kernel (size : P3) (kind : Kind) : List P3 :=
  let mult := size 0 * size 1 * size 2
  let start : P3 := fun d => -((size d).tdiv 2)
  let end' : P3 := fun d => size d - (size d).tdiv 2
  (upTo (start 0) (end' 0)).flatMap fun x => (upTo (start 1) (end' 1)).flatMap fun y => (upTo (start 2) (end' 2)).filterMap fun z =>
    let rx := relDist mult (start 0) (end' 0) x
    let ry := relDist mult (start 1) (end' 1) y
    let rz := relDist mult (start 2) (end' 2) z
    if (kind = .diamond ∧ rx + ry + rz > mult) ∨ (kind = .prism ∧ rx + ry > mult) then none else some ![x, y, z]

/-- A point of the plane. -/
abbrev P2 := Int × Int

/-- The lines of a polygon, from its last point on (src/utils/VoxelUtils.cpp:102-111). -/
def linesFrom (last : P2) : List P2 → List (P2 × P2)
  | [] => []
  | p :: ps => (last, p) :: linesFrom p ps

/-- All cells of some lines, one after the other (src/utils/VoxelUtils.cpp:103-111). -/
def walkLines (size : P3) (z : Int) (n : Nat) : List (P2 × P2) → Option (List P3)
  | [] => some []
  | l :: ls => do
    let a ← walkLine size ![l.1.1, l.1.2, z] ![l.2.1, l.2.2, z] n
    let b ← walkLines size z n ls
    pure (a ++ b)

/-- `walkPolygons` (src/utils/VoxelUtils.cpp:98-114). `none`: a polygon without points, of which the last point is read. -/
def walkPolygons (size : P3) (z : Int) (n : Nat) : List (List P2) → Option (List P3)
  | [] => some []
  | poly :: polys => do
    let last ← poly.getLast?
    let a ← walkLines size z n (linesFrom last poly)
    let b ← walkPolygons size z n polys
    pure (a ++ b)

/-- `dilate` (src/utils/VoxelUtils.cpp:164-176): the cells for which the function is called, for one cell. -/
def dilate (rel : List P3) (loc : P3) : List P3 := rel.map fun r d => loc d + r d

/-- How far an even kernel moves things (src/utils/VoxelUtils.cpp:119). -/
def shift (ksize size : P3) : P3 := fun d => ((1 - (ksize d).tmod 2) * size d).tdiv 2

/-- `walkDilatedPolygons` (src/utils/VoxelUtils.cpp:116-125): the polygons are only moved if they are to be moved in both directions. -/
def walkDilatedPolygons (size ksize : P3) (kind : Kind) (z : Int) (n : Nat) (polys : List (List P2)) : Option (List P3) :=
  let t := shift ksize size
  let polys := if t 0 ≠ 0 ∧ t 1 ≠ 0 then polys.map fun poly => poly.map fun p => (p.1 + t 0, p.2 + t 1) else polys
  (walkPolygons size (z + t 2) n polys).map fun cells => cells.flatMap (dilate (kernel ksize kind))

end Verif.Voxel
