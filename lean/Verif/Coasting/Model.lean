import Mathlib.Data.Rat.Defs
import Mathlib.Algebra.Order.Ring.Rat
import Mathlib.Data.List.SplitBy

/-! # Coasting

Models `LayerPlan::calculatePathsCoasting` and `LayerPlan::writePathWithCoasting` (src/LayerPlan.cpp:1583-1695, 3916-3974), and the part of
`LayerPlan::writeGCode` that calls them (src/LayerPlan.cpp:3518, 3714-3781). Positions are any type with a length between two of them and a
point at some ratio between two; volumes are exact. Spiralized paths, speeds, temperatures, retraction and the reduction of the flow where
the height changes are not modelled. The position at which the paths begin has the same kind of height as their points (in the code it has
the height of the layer added). -/

namespace Verif.Coasting

/-- Lengths and interpolation (`vSize`, `cura::lerp`). -/
structure Geo (X : Type) where
  len : X → X → ℚ
  lerp : X → X → ℚ → X

/-- `coasting_volume` and `coasting_min_volume`. -/
structure Cfg where
  volume : ℚ
  minVolume : ℚ

/-- What matters of a path: whether it is a travel, whether it is an inner or outer wall, `config.extrusion_mm3_per_mm * flow`, the width
factor and the points (include/pathPlanning/GCodePath.h). -/
structure Path (X : Type) where
  travel : Bool
  wall : Bool
  rate : ℚ
  width : ℚ
  points : List X

/-- `getExtrusionMM3perMM` (src/pathPlanning/GCodePath.cpp:14-17). -/
def Path.mm3 {X : Type} (p : Path X) : ℚ := p.rate * p.width

/-- `PathCoasting` (include/LayerPlan.h:82-94). -/
inductive How (X : Type)
  | no
  | entire
  | partly (index : Nat) (start : X)

section
variable {X : Type} (G : Geo X) (c : Cfg)

/-- The points with the ones before them. -/
def segments : X → List X → List (X × X)
  | _, [] => []
  | prev, p :: ps => (prev, p) :: segments p ps

/-- The variables of the loops over a chunk, and what has been found for the path at hand. -/
structure Run (X : Type) where
  acc : ℚ
  reached : Bool
  minReached : Bool
  found : How X

/-- Both volumes have been reached: the loops are left (src/LayerPlan.cpp:1672-1681). -/
def Run.done (r : Run X) : Bool := r.minReached && r.reached

/-- One point (src/LayerPlan.cpp:1624-1670). A division of nothing by nothing is an error. -/
def pointStep (rate : ℚ) (r : Run X) (index : Nat) (prev p : X) : Option (Run X) :=
  let volume := G.len prev p * rate
  let acc := r.acc + volume
  let minReached := r.minReached || decide (c.minVolume ≤ acc)
  let untouched := match r.found with
    | .no => true
    | _ => false
  if !r.reached && untouched then
    if c.volume ≤ acc then
      if volume = 0 then none
      else some ⟨acc, true, minReached, .partly index (G.lerp prev p ((acc - c.volume) / volume))⟩
    else if index = 0 then some ⟨acc, r.reached, minReached, .entire⟩
    else some ⟨acc, r.reached, minReached, r.found⟩
  else some ⟨acc, r.reached, minReached, r.found⟩

/-- The points of a path from the last to the first (src/LayerPlan.cpp:1622-1676). The index of a point is the number of those that
follow in the list. -/
def pointLoop (rate : ℚ) (r : Run X) : List (X × X) → Option (Run X)
  | [] => some r
  | s :: rest => (pointStep G c rate r rest.length s.1 s.2).bind fun r => if r.done then some r else pointLoop rate r rest

/-- The paths of a chunk from the last to the first, each with the position before it (src/LayerPlan.cpp:1612-1682). -/
def pathLoop (r : Run X) : List (Path X × X) → Option (Run X × List (How X))
  | [] => some (r, [])
  | p :: rest =>
    if p.1.travel then (pathLoop r rest).map fun q => (q.1, .no :: q.2)
    else (pointLoop G c p.1.rate { r with found := .no } (segments p.2 p.1.points).reverse).bind fun r =>
      if r.done then some (r, r.found :: rest.map fun _ => .no)
      else (pathLoop r rest).map fun q => (q.1, r.found :: q.2)

/-- One chunk (src/LayerPlan.cpp:1598-1691). -/
def chunk (l : List (Path X × X)) : Option (List (How X)) :=
  match l with
  | [] => some []
  | p :: _ =>
    if p.1.wall then
      (pathLoop G c ⟨0, false, false, .no⟩ l).map fun r => if r.1.minReached then r.2 else r.2.map fun _ => .no
    else some (l.map fun _ => .no)

/-- Paths with the positions at which they begin: the last point of the path before (src/LayerPlan.cpp:1624-1636). It is an error if that
has none. -/
def starts : X → List (Path X) → Option (List (Path X × X))
  | _, [] => some []
  | x, p :: ps =>
    match p.points.getLast? with
    | some y => (starts y ps).map fun r => (p, x) :: r
    | none => if ps.isEmpty then some [(p, x)] else none

/-- `calculatePathsCoasting` (src/LayerPlan.cpp:1583-1695). -/
def coastings (x : X) (paths : List (Path X)) : Option (List (How X)) :=
  (starts x paths).bind fun l =>
    ((l.reverse.splitBy fun a b => !a.1.travel || b.1.travel).mapM (chunk G c)).map fun r => r.flatten.reverse

/-- What is written: moves with and without extrusion. -/
inductive Move (X : Type)
  | extrude (dst : X) (mm3 : ℚ)
  | travel (dst : X)
  deriving DecidableEq

/-- The moves of a path (src/LayerPlan.cpp:3714-3781, 3916-3974). -/
def write (p : Path X) (k : How X) : List (Move X) :=
  if p.travel then p.points.map .travel
  else match k with
    | .no => p.points.map fun q => .extrude q p.mm3
    | .entire => p.points.map .travel
    | .partly i s => ((p.points.take i).map fun q => .extrude q p.mm3) ++ .extrude s p.mm3 :: (p.points.drop i).map .travel

/-- All paths of an extruder, with coasting enabled. -/
def moves (x : X) (paths : List (Path X)) : Option (List (List (Move X))) :=
  (coastings G c x paths).map fun ks => List.zipWith write paths ks

end
end Verif.Coasting
