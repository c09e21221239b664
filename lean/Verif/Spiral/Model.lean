import Verif.Simplify.Model
import Mathlib.Data.List.Rotate

/-! # Spiralized outer contours

Models `LayerPlan::spiralizeWallSlice` (src/LayerPlan.cpp:2931-3092), the calls of it and the choice of the seams in
src/FffGcodeWriter.cpp:184-290, 2535-2568, how moves are gathered into paths (src/LayerPlan.cpp:53-84, 574-593), the travels between layers
(src/LayerPlanBuffer.cpp:117-162) and how the paths are written (src/LayerPlan.cpp:3690-3841). There is one mesh with one extruder, and
only its spiralized walls are printed: the bottom layers, and the plain wall under the spiral, are not modelled. Retraction, z-hops, speeds
other than the factor that is chosen for the last layer, fans, temperatures and coasting are not modelled either, nor is the rise before
the final travel of a layer (src/LayerPlan.cpp:3713-3724), which spirals do not reach. Integers have no bounds and doubles are
exact; lengths are a parameter, since they are not rational. -/

namespace Verif.Spiral

abbrev Pt := Int × Int

/-- The settings `smooth_spiralized_contours`, the width of the wall's lines, their speed and `cool_min_layer_time`. -/
structure Cfg where
  smooth : Bool
  width : Int
  speed : ℚ
  minTime : ℚ

/-- `LinearAlg2D::getClosestOnLineSegment` (include/utils/linearAlg2D.h:137-168). -/
def onSegment (p a b : Pt) : Pt :=
  let d : Pt := (b.1 - a.1, b.2 - a.2)
  let x := (p.1 - a.1) * d.1 + (p.2 - a.2) * d.2
  let n := d.1 * d.1 + d.2 * d.2
  if n = 0 then a
  else if x ≤ 0 then a
  else if n ≤ x then b
  else (a.1 + (x * d.1).tdiv n, a.2 + (x * d.2).tdiv n)

/-- The edges of a polygon. -/
def edges (poly : List Pt) : List (Pt × Pt) := poly.zip (poly.rotate 1)

/-- The loop of `PolygonUtils::findClosest` over the edges from index `i` on: the best location with its index
(src/utils/polygonUtils.cpp:799-816). -/
def closestLoop (p : Pt) : Pt × Nat → Nat → List (Pt × Pt) → Pt × Nat
  | best, _, [] => best
  | best, i, e :: es =>
    let here := onSegment p e.1 e.2
    closestLoop p (if Simplify.size2 p here < Simplify.size2 p best.1 then (here, i) else best) (i + 1) es

/-- `PolygonUtils::findClosest` (src/utils/polygonUtils.cpp:739-819), with no penalties. -/
def closest (p : Pt) (poly : List Pt) : Option (Pt × Nat) :=
  match poly with
  | [] => none
  | a :: _ => some (closestLoop p (a, 0) 0 (edges poly))

/-- `PolygonUtils::findNearestVert` (src/utils/polygonUtils.cpp:841-855), the loop over the vertices from index `i` on. -/
def nearestLoop (p : Pt) : Option (Nat × Int) → Nat → List Pt → Option (Nat × Int)
  | best, _, [] => best
  | best, i, v :: vs =>
    nearestLoop p (match best with
      | none => some (i, Simplify.size2 v p)
      | some b => if Simplify.size2 v p < b.2 then some (i, Simplify.size2 v p) else some b) (i + 1) vs

/-- `PolygonUtils::findNearestVert` (src/utils/polygonUtils.cpp:841-855). -/
def nearest (p : Pt) (poly : List Pt) : Option Nat := (nearestLoop p none 0 poly).map (·.1)

/-- A call of `addExtrusionMove`: destination and height (relative to the layer), flow, whether to spiralize and the speed factor. -/
structure Move where
  dst : Pt
  z : Int
  flow : ℚ
  spiral : Bool
  speed : ℚ
  deriving DecidableEq

section
variable (len : Pt → Pt → ℚ)

/-- The length of the complete wall (src/LayerPlan.cpp:2968-2975); `len` is `vSizeMM`. -/
def total (acc : ℚ) (p0 : Pt) : List Pt → ℚ
  | [] => acc
  | p :: ps => total (acc + len p0 p) p ps

/-- The move that joins the wall when contours are not smoothed (src/LayerPlan.cpp:2950-2961). -/
def join (c : Cfg) (origin : Pt) (wall : List Pt) (seam : Nat) (lastSeam : Option Nat) : Option (List Move) :=
  if !c.smooth && lastSeam.isSome then
    (wall[seam % wall.length]?).bind fun a => (wall[(seam + 1) % wall.length]?).map fun b =>
      let q := onSegment origin a b
      if Simplify.size q origin > 10 then [⟨q, 0, 1, true, 1⟩] else []
  else some []

/-- Interpolation between the last wall and this one (src/LayerPlan.cpp:3035-3048). -/
def smoothPoint (c : Cfg) (lastWall : List Pt) (p : Pt) (ratio : ℚ) : Pt :=
  match closest p lastWall with
  | none => p
  | some q =>
    if Simplify.size2 q.1 p ≤ c.width * c.width * 4 then
      (q.1.1 + Simplify.llrint (((p.1 - q.1.1 : Int) : ℚ) * ratio), q.1.2 + Simplify.llrint (((p.2 - q.1.2 : Int) : ℚ) * ratio))
    else p

/-- The moves along the wall (src/LayerPlan.cpp:3015-3055). -/
def spiralMoves (c : Cfg) (lastWall : List Pt) (bottom : Bool) (speed all acc : ℚ) (p0 : Pt) : List Pt → List Move
  | [] => []
  | p :: ps =>
    let acc := acc + len p0 p
    let flow := if bottom then 1 / 4 + (1 - 1 / 4) * acc / all else 1
    let dst := if c.smooth && !bottom && !ps.isEmpty then smoothPoint c lastWall p (acc / all) else p
    ⟨dst, 0, flow, true, speed⟩ :: spiralMoves c lastWall bottom speed all acc p ps

/-- The tapering spiral (src/LayerPlan.cpp:3057-3091). -/
def taperMoves (thickness : Int) (speed all acc coasted : ℚ) (p0 : Pt) : List Pt → List Move
  | [] => []
  | p :: ps =>
    if coasted < 10 then
      let acc := acc + len p0 p
      let low := decide (1 - acc / all < 1 / 4)
      let flow := if low then 0 else 1 - acc / all
      ⟨p, thickness.tdiv 2, (⌊flow * 20⌋ : ℚ) / 20, false, speed⟩ ::
        taperMoves thickness speed all acc (if low then coasted + len p0 p else coasted) p ps
    else []

/-- The factor for the speed of the last layer (src/LayerPlan.cpp:2994-3013). -/
def speedFactor (c : Cfg) (top : Bool) (all : ℚ) : ℚ :=
  if top then
    if all / c.speed < c.minTime then all / c.speed / min (all * (2 - 1 / 4) / c.speed) c.minTime else 1
  else 1

/-- Where the spiral begins: where the last layer's ended, if there is one (src/LayerPlan.cpp:2944-2945). -/
def start (wall lastWall : List Pt) (seam : Nat) (lastSeam : Option Nat) (bottom : Bool) : Option Pt :=
  match lastSeam, bottom with
  | some i, false => lastWall[i]?
  | _, _ => wall[seam]?

/-- `spiralizeWallSlice` (src/LayerPlan.cpp:2931-3092): the destination of the travel and the moves. An index outside of a wall is an
error. -/
def slice (c : Cfg) (thickness : Int) (wall lastWall : List Pt) (seam : Nat) (lastSeam : Option Nat) (top bottom : Bool) :
    Option (Pt × List Move) :=
  (start wall lastWall seam lastSeam bottom).bind fun origin =>
  (join c origin wall seam lastSeam).map fun first =>
    let round := wall.rotate (seam + 1)
    let all := total len 0 origin round
    if all = 0 then (origin, first)
    else
      let speed := speedFactor c top all
      let around := spiralMoves len c lastWall bottom speed all 0 origin round
      let p0 := round.getLast?.getD origin
      (origin, first ++ around ++ if top then taperMoves len thickness speed all 0 0 p0 round else [])

/-- What matters of a path (include/pathPlanning/GCodePath.h); the flow of a travel is nothing. Points have heights relative to the
layer. -/
structure Path where
  travel : Bool
  spiral : Bool
  flow : ℚ
  speed : ℚ
  points : List (Pt × Int)
  deriving DecidableEq

/-- `addExtrusionMove` with `getLatestPathWithConfig` (src/LayerPlan.cpp:53-84, 574-593): the latest path is the first of the list. All
moves have the same configuration, which is not that of a travel. -/
def add (paths : List Path) (m : Move) : List Path :=
  match paths with
  | [] => [⟨false, m.spiral, m.flow, m.speed, [(m.dst, m.z)]⟩]
  | p :: ps =>
    if !p.travel && p.flow = m.flow && p.speed = m.speed then { p with points := p.points ++ [(m.dst, m.z)] } :: ps
    else ⟨false, m.spiral, m.flow, m.speed, [(m.dst, m.z)]⟩ :: p :: ps

/-- `addTravel` (src/LayerPlan.cpp:369-528), without combing. -/
def addTravel (paths : List Path) (p : Pt) : List Path := ⟨true, false, 0, 1, [(p, 0)]⟩ :: paths

/-- What is written: a move to a position, and how much is extruded (as a ratio of what is normal), or nothing for a travel. -/
structure Out where
  dst : Pt
  z : Int
  flow : Option ℚ
  deriving DecidableEq

/-- `std::round`. -/
def roundAway (q : ℚ) : Int := if 0 ≤ q then ⌊q + 1 / 2⌋ else -⌊-q + 1 / 2⌋

/-- `std::clamp` to 0 and 1. -/
def clamp (q : ℚ) : ℚ := if q < 0 then 0 else if 1 < q then 1 else q

/-- The factor for the flow where heights differ (src/LayerPlan.cpp:2851-2865), for a layer at `z0`. -/
def factor (z0 thickness z offset : Int) : ℚ :=
  if z - z0 ≠ 0 ∨ offset ≠ 0 then
    (clamp (1 + ((z - z0 : Int) : ℚ) / (thickness : ℚ)) + clamp (1 + (offset : ℚ) / (thickness : ℚ))) / 2
  else 1

/-- The variables `p0` and `length` of the spiral, and the height of the nozzle. -/
structure Run where
  pos : Pt
  length : ℚ
  z : Int

/-- The height above the layer (src/LayerPlan.cpp:3809). The conversion of something that is not a number is an error. -/
def offset (thickness : Int) (all length : ℚ) (atEnd : Bool) : Option Int :=
  if atEnd then some (thickness.tdiv 2)
  else if all = 0 then none
  else some (roundAway ((thickness : ℚ) * length / all))

/-- The points of `writeSpiralPath` (src/LayerPlan.cpp:3801-3821). -/
def spiralPoints (z0 thickness : Int) (all : ℚ) (atEnd : Bool) (flow : ℚ) (r : Run) : List (Pt × Int) → Option (Run × List Out)
  | [] => some (r, [])
  | p :: ps =>
    let length := r.length + len r.pos p.1
    (offset thickness all length atEnd).bind fun o =>
      (spiralPoints z0 thickness all atEnd flow ⟨p.1, length, p.2 + z0 + o⟩ ps).map fun q =>
        (q.1, ⟨p.1, p.2 + z0 + o, some (flow * factor z0 thickness r.z o)⟩ :: q.2)

/-- Several paths (src/LayerPlan.cpp:3823-3838). -/
def spiralPaths (z0 thickness : Int) (all : ℚ) (atEnd : Bool) (r : Run) : List Path → Option (Run × List Out)
  | [] => some (r, [])
  | p :: ps =>
    (spiralPoints len z0 thickness all atEnd p.flow r p.points).bind fun q =>
      (spiralPaths z0 thickness all atEnd q.1 ps).map fun s => (s.1, q.2 ++ s.2)

/-- The nozzle. -/
structure Nozzle where
  pos : Pt
  z : Int

/-- The points of a path that does not spiral (src/LayerPlan.cpp:2837-2867, 3732-3781). -/
def plainPoints (z0 thickness : Int) (p : Path) (n : Nozzle) : List (Pt × Int) → Nozzle × List Out
  | [] => (n, [])
  | q :: qs =>
    let s := plainPoints z0 thickness p ⟨q.1, z0 + q.2⟩ qs
    (s.1, ⟨q.1, z0 + q.2, if p.travel then none else some (p.flow * factor z0 thickness n.z 0)⟩ :: s.2)

/-- The move to the height at which a path begins (src/LayerPlan.cpp:3704-3709). -/
def lift (z0 : Int) (p : Path) (n : Nozzle) : List Out :=
  match p.points with
  | [] => []
  | q :: _ => if z0 + q.2 ≠ n.z then [⟨n.pos, z0 + q.2, none⟩] else []

/-- The length of the paths up to the next travel (src/LayerPlan.cpp:3786-3797). -/
def pathsTotal (p0 : Pt) (paths : List Path) : ℚ :=
  total len 0 p0 (((paths.takeWhile fun p => !p.travel).flatMap fun p => p.points).map fun q => q.1)

/-- The paths of a layer (src/LayerPlan.cpp:3518-3841): what is written and where the nozzle is in the end. -/
def write (z0 thickness : Int) (n : Nozzle) : List Path → Option (Nozzle × List Out)
  | [] => some (n, [])
  | p :: ps =>
    if !p.travel && p.spiral then
      (spiralPaths len z0 thickness (pathsTotal len n.pos (p :: ps)) false ⟨n.pos, 0, n.z⟩ ((p :: ps).takeWhile fun p => p.spiral)).bind fun q =>
        (spiralPaths len z0 thickness (pathsTotal len n.pos (p :: ps)) true q.1 ((p :: ps).dropWhile fun p => p.spiral)).map fun s =>
          (⟨s.1.pos, s.1.z⟩, q.2 ++ s.2)
    else
      let q := plainPoints z0 thickness p n p.points
      (write z0 thickness q.1 ps).map fun s => (s.1, lift z0 p n ++ q.2 ++ s.2)

/-- A layer: its height, thickness, and the spiral wall of its first part (include/sliceDataStorage.h). -/
structure Layer where
  z : Int
  thickness : Int
  walls : List (List Pt)

/-- What the choice of seams depends on: the position the user wants, `meshfix_maximum_resolution` and whether a vertex is to the left of
the inward normal at a vertex of the last wall. -/
structure Seams where
  hint : Pt
  maxRes : Int
  left : List Pt → Nat → Pt → Bool

/-- `findSpiralizedLayerSeamVertexIndex` (src/FffGcodeWriter.cpp:184-242); `last` is the last outline with its seam. -/
def findSeam (S : Seams) (last : Option (List Pt × Nat)) (wall : List Pt) : Option Nat :=
  match last with
  | none => (closest S.hint wall).map (·.2)
  | some l =>
    (l.1[l.2]?).bind fun v => (nearest v wall).bind fun i => (wall[i]?).bind fun w => (wall[(i + 1) % wall.length]?).map fun next =>
      if Simplify.size v w ≥ S.maxRes then (if S.left l.1 l.2 next then i else (i + 1) % wall.length) else i

/-- `findLayerSeamsForSpiralize` (src/FffGcodeWriter.cpp:244-290): the outline of each layer with its seam, if it has one. -/
def findSeams (S : Seams) (last : Option (List Pt × Nat)) : List Layer → Option (List (Option (List Pt × Nat)))
  | [] => some []
  | l :: ls =>
    match l.walls with
    | [] => (findSeams S last ls).map fun r => none :: r
    | wall :: _ => (findSeam S last wall).bind fun i => (findSeams S (some (wall, i)) ls).map fun r => some (wall, i) :: r

/-- The loop of `processSpiralizedWall` (src/FffGcodeWriter.cpp:2563-2567). -/
def planWalls (c : Cfg) (thickness : Int) (lastWall : List Pt) (seam : Nat) (lastSeam : Option Nat) (top bottom : Bool) (paths : List Path) :
    List (List Pt) → Option (List Path)
  | [] => some paths
  | w :: ws =>
    (slice len c thickness w lastWall seam lastSeam top bottom).bind fun s =>
      planWalls c thickness lastWall seam lastSeam top bottom (s.2.foldl add (addTravel paths s.1)) ws

/-- `processSpiralizedWall` (src/FffGcodeWriter.cpp:2535-2568) for the layer with index `k`, where the spiral begins at layer `b`. -/
def planLayer (c : Cfg) (b : Nat) (outlines : List (Option (List Pt × Nat))) (k : Nat) (l : Layer) : Option (List Path) :=
  match l.walls with
  | [] => some []
  | w :: ws =>
    let last := if k = 0 then none else (outlines[k - 1]?).join
    let seam := ((outlines[k]?).join.map (·.2)).getD 0
    let top := (outlines[k + 1]?).join.isNone
    (planWalls len c l.thickness ((last.map (·.1)).getD w) seam (last.map (·.2)) top (decide (k = b)) [] (w :: ws)).map List.reverse

/-- All layers from `b` on, which `k` counts. -/
def planLayers (c : Cfg) (b : Nat) (outlines : List (Option (List Pt × Nat))) (k : Nat) : List Layer → Option (List (Layer × List Path))
  | [] => some []
  | l :: ls => (planLayer len c b outlines k l).bind fun p => (planLayers c b outlines (k + 1) ls).map fun r => (l, p) :: r

/-- The first position of a plan and the last. -/
def firstPos (paths : List Path) : Option Pt := (paths.flatMap fun p => p.points).head?.map (·.1)
def lastPos (paths : List Path) : Option Pt := (paths.flatMap fun p => p.points).getLast?.map (·.1)

/-- `addConnectingTravelMove` (src/LayerPlanBuffer.cpp:117-162). -/
def connect : List (Layer × List Path) → List (Layer × List Path)
  | a :: b :: rest =>
    (a.1, match firstPos b.2 with
      | none => a.2
      | some p => if lastPos a.2 = some p then a.2 else a.2 ++ [⟨true, false, 0, 1, [(p, 0)]⟩]) :: connect (b :: rest)
  | l => l

/-- The layers one after the other. -/
def writeLayers (n : Nozzle) : List (Layer × List Path) → Option (List (List Out))
  | [] => some []
  | a :: rest => (write len a.1.z a.1.thickness n a.2).bind fun q => (writeLayers q.1 rest).map fun r => q.2 :: r

/-- The spiralized part of a print: the layers from `b` on, with the nozzle at some place before. -/
def print (S : Seams) (c : Cfg) (b : Nat) (n : Nozzle) (layers : List Layer) : Option (List (List Out)) :=
  (findSeams S none layers).bind fun outlines =>
    (planLayers len c b outlines b (layers.drop b)).bind fun plans => writeLayers len n (connect plans)

end
end Verif.Spiral
