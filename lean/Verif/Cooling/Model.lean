import Verif.Basic
import Mathlib.Algebra.Order.Ring.Unbundled.Rat
import Mathlib.Algebra.BigOperators.Group.List.Basic

/-! # Minimum layer time and fan speed (src/LayerPlan.cpp, src/ExtruderPlan.cpp, include/FanSpeedLayerTime.h)

Times (s), speeds (mm/s), lengths (mm) and fan speeds (%) are rationals. A path is given by the lengths of its
moves instead of its points: `computeNaiveTimeEstimates` uses the points for these lengths only. -/

namespace Verif.Cooling

/-- `std::numeric_limits<double>::max()`. -/
def dblMax : ℚ := (2 ^ 53 - 1) * 2 ^ 971

/-- `TimeMaterialEstimates` (include/pathPlanning/TimeMaterialEstimates.h:10-17). -/
structure Est where
  extrude : ℚ := 0
  unretracted : ℚ := 0
  retracted : ℚ := 0
  material : ℚ := 0
  atSlowest : ℚ := 0
  atMinimum : ℚ := 0
deriving DecidableEq

/-- `TimeMaterialEstimates::operator+=` (include/pathPlanning/TimeMaterialEstimates.h:19-28). -/
def Est.add (a b : Est) : Est where
  extrude := a.extrude + b.extrude
  atSlowest := a.atSlowest + b.atSlowest
  atMinimum := a.atMinimum + b.atMinimum
  unretracted := a.unretracted + b.unretracted
  retracted := a.retracted + b.retracted
  material := a.material + b.material

/-- `getTotalTime` (include/pathPlanning/TimeMaterialEstimates.h:70-73). -/
def Est.total (e : Est) : ℚ := e.extrude + e.unretracted + e.retracted

/-- `getTravelTime` (include/pathPlanning/TimeMaterialEstimates.h:80-83). -/
def Est.travel (e : Est) : ℚ := e.retracted + e.unretracted

/-- What matters of a `GCodePath` (include/pathPlanning/GCodePath.h:31-58): the nominal line width (µm), the speed
of its configuration, its factors, whether it is a retracted travel, the lengths of its moves, whether it is a
bridge, its fan speed and that of its configuration (-1 is the default), and its estimates. -/
structure Path where
  width : Int
  speed : ℚ
  factor : ℚ := 1
  widthFactor : ℚ := 1
  backPressure : ℚ := 1
  retract : Bool := false
  bridge : Bool := false
  lens : List ℚ
  fan : ℚ := -1
  configFan : ℚ := -1
  est : Est := {}
deriving DecidableEq

/-- `GCodePath::isTravelPath` (src/GCodePathConfig.cpp:51-54). -/
def Path.travel (p : Path) : Bool := p.width == 0

/-- `path.config.getSpeed() * path.speed_factor`. -/
def Path.v (p : Path) : ℚ := p.speed * p.factor

/-- `FanSpeedLayerTimeSettings` (include/FanSpeedLayerTime.h:23-78). -/
structure Settings where
  minTime : ℚ
  minTimeOverhang : ℚ
  overhangLength : Int
  fanTime : ℚ
  fan0 : ℚ
  fanMin : ℚ
  fanMax : ℚ
  minSpeed : ℚ
  fullLayer : Int
deriving DecidableEq

/-- The parts of `RetractionConfig` that are read. -/
structure Retraction where
  distance : ℚ
  speed : ℚ
  primeSpeed : ℚ
deriving DecidableEq

/-- What matters of an `ExtruderPlan` (include/ExtruderPlan.h:148-189). -/
structure Plan where
  ext : Nat
  layer : Int
  raft : Bool := false
  thickness : Int := 200
  settings : Settings
  retraction : Retraction
  paths : List Path
  est : Est := {}
  slowest : ℚ := 0
  extra : ℚ := 0
  fan : ℚ := 0
  tempFactor : ℚ := 0
deriving DecidableEq

/-- `slowest_path_speed_` in `computeNaiveTimeEstimates` (src/LayerPlan.cpp:3193-3200). -/
def slowest (paths : List Path) : ℚ :=
  paths.foldl (fun value p => if p.travel then value else min value p.v) dblMax

/-- The estimates of a path before its points are visited (src/LayerPlan.cpp:3209-3240). `was_retracted` is never
changed from false, so that a retracted travel always counts the time of a retraction and priming is never
counted. -/
def startEst (r : Retraction) (p : Path) : Est :=
  let e := { p.est with atMinimum := 0, atSlowest := 0 }
  if p.travel = true ∧ p.retract = true then
    { e with
      retracted := e.retracted + 1 / 2 * (r.distance / r.speed)
      unretracted := e.unretracted + 1 / 2 * (r.distance / r.speed) }
  else e

/-- One point of a path (src/LayerPlan.cpp:3243-3256): `len` is the distance from the point before. -/
def moveEst (minSpeed slow : ℚ) (thickness : Int) (p : Path) (e : Est) (len : ℚ) : Est :=
  let t := len / p.v
  if p.travel then
    if p.retract then { e with retracted := e.retracted + t }
    else { e with unretracted := e.unretracted + t }
  else
    { e with
      atMinimum := if 0 < len then e.atMinimum + len / minSpeed else e.atMinimum
      atSlowest := if 0 < len then e.atSlowest + len / slow else e.atSlowest
      material := e.material + len * (thickness / 1000) * (p.width / 1000)
      extrude := e.extrude + t }

/-- The loop body of `computeNaiveTimeEstimates` for a path (src/LayerPlan.cpp:3203-3257). -/
def naivePath (pl : Plan) (slow : ℚ) (p : Path) : Path :=
  { p with est := p.lens.foldl (moveEst pl.settings.minSpeed slow pl.thickness p) (startEst pl.retraction p) }

/-- `ExtruderPlan::computeNaiveTimeEstimates` (src/LayerPlan.cpp:3188-3261). -/
def naive (pl : Plan) : Plan :=
  let slow := slowest pl.paths
  let paths := pl.paths.map (naivePath pl slow)
  { pl with slowest := slow, paths := paths, est := paths.foldl (fun e p => e.add p.est) pl.est }

/-- The slow-down factor towards a target speed (src/LayerPlan.cpp:3116-3119). -/
def towards (target : ℚ) (p : Path) : ℚ := min (target / p.v) 1

/-- The slow-down factor between the slowest path speed and the path's own speed (src/LayerPlan.cpp:3151-3155). -/
def between (slow factor : ℚ) (p : Path) : ℚ := min ((slow * (1 - factor) + p.v * factor) / p.v) 1

/-- Slowing down a path (src/LayerPlan.cpp:3163-3170). -/
def slowDown (f : Path → ℚ) (p : Path) : Path :=
  if p.travel then p
  else { p with factor := p.factor * f p, est := { p.est with extrude := p.est.extrude / f p } }

/-- The constant `epsilon` of `forceMinimalLayerTime` (src/LayerPlan.cpp:3101). -/
def eps : ℚ := 1 / 100

/-- First branch: slow down to the minimum speed and wait (src/LayerPlan.cpp:3121-3133). -/
def toMinimum (minTime atMin : ℚ) (pl : Plan) : Plan :=
  let wait := minTime - atMin - pl.est.travel
  { pl with
    tempFactor := 1
    est := { pl.est with extrude := atMin }
    extra := if wait > eps then wait else pl.extra
    paths := pl.paths.map (slowDown (towards pl.settings.minSpeed)) }

/-- Second branch: all paths get the same speed between the minimum speed and the slowest path's
(src/LayerPlan.cpp:3134-3145). -/
def toCommon (need atMin atSlow : ℚ) (pl : Plan) : Plan :=
  let factor := (1 / atMin - 1 / need) / (1 / atMin - 1 / atSlow)
  { pl with
    tempFactor := 1 - factor
    est := { pl.est with extrude := need }
    paths := pl.paths.map (slowDown (towards (pl.settings.minSpeed * (1 - factor) + pl.slowest * factor))) }

/-- Third branch: the speeds are interpolated between the slowest path's and the path's own
(src/LayerPlan.cpp:3146-3160). -/
def toSlowest (need atSlow : ℚ) (pl : Plan) : Plan :=
  let factor := (1 / atSlow - 1 / need) / (1 / atSlow - 1 / pl.est.extrude)
  { pl with
    est := { pl.est with extrude := need }
    paths := pl.paths.map (slowDown (between pl.slowest factor)) }

/-- `ExtruderPlan::forceMinimalLayerTime` (src/LayerPlan.cpp:3094-3175): the new plan and whether it was changed. -/
def force (minTime other : ℚ) (pl : Plan) : Plan × Bool :=
  let total := pl.est.travel + pl.est.extrude + other
  let atMin := pl.paths.foldl (fun t p => t + p.est.atMinimum) 0
  let atSlow := pl.paths.foldl (fun t p => t + p.est.atSlowest) 0
  if total < minTime - eps ∧ pl.est.extrude > 0 then
    let need := minTime - (total - pl.est.extrude)
    if need ≥ atMin then (toMinimum minTime atMin pl, true)
    else if need ≥ atSlow ∧ |atMin - atSlow| ≥ eps then (toCommon need atMin atSlow pl, true)
    else (toSlowest need atSlow pl, true)
  else (pl, false)

/-- `std::clamp(x, 0.0, 1.0)`. -/
def clamp01 (x : ℚ) : ℚ := if x < 0 then 0 else if 1 < x then 1 else x

/-- `std::lerp`. -/
def lerp (a b t : ℚ) : ℚ := a + t * (b - a)

/-- `ExtruderPlan::processFanSpeedForMinimalLayerTime` (src/LayerPlan.cpp:3263-3283). The difference of two
`Duration`s is a `Duration`, which is cut off at zero (include/settings/types/Duration.h:30-33, 51-54). -/
def fanMinimal (minTime other : ℚ) (pl : Plan) : Plan :=
  let total := pl.est.total + other
  let diff := max (pl.settings.fanTime - minTime) 0
  let fraction := if diff ≠ 0 then clamp01 ((total - minTime) / diff) else 1
  { pl with fan := lerp pl.settings.fanMax pl.fan fraction }

/-- `ExtruderPlan::processFanSpeedForFirstLayers` (src/LayerPlan.cpp:3285-3313). -/
def fanFirst (pl : Plan) : Plan :=
  let s := pl.settings
  if pl.layer < s.fullLayer ∧ s.fullLayer > 0 ∧ pl.raft = false then
    { pl with fan := s.fan0 + (s.fanMin - s.fan0) * (max 0 pl.layer : Int) / s.fullLayer }
  else { pl with fan := s.fanMin }

/-- The extruder number the loop looks for: `ranges::max_element` over the extruder numbers
(src/LayerPlan.cpp:3318-3324). -/
def lastExt (plans : List Plan) : Nat := plans.foldl (fun n pl => max n pl.ext) 0

/-- `last_extruder_idx`: the last plan with that number (src/LayerPlan.cpp:3330-3340); it stays uninitialised if
there is none. -/
def lastIdx (nr : Nat) : List Plan → Nat → Option Nat → Option Nat
  | [], _, r => r
  | pl :: rest, i, r => lastIdx nr rest (i + 1) (if pl.ext = nr then some i else r)

/-- `other_extr_plan_time` (src/LayerPlan.cpp:3341-3344). -/
def otherTime (nr : Nat) (plans : List Plan) : ℚ :=
  plans.foldl (fun t pl => if pl.ext = nr then t else t + pl.est.total) 0

/-- The minimum layer time of one plan (src/LayerPlan.cpp:3346-3349). -/
def Plan.minTime (overhang : Int) (pl : Plan) : ℚ :=
  if overhang > pl.settings.overhangLength then pl.settings.minTimeOverhang else pl.settings.minTime

/-- `maximum_cool_min_layer_time` (src/LayerPlan.cpp:3328, 3347-3348). -/
def maxMinTime (overhang : Int) (plans : List Plan) : ℚ :=
  plans.foldl (fun t pl => max t (pl.minTime overhang)) 0

/-- `LayerPlan::processFanSpeedAndMinimalLayerTime` (src/LayerPlan.cpp:3315-3364). `overhang` is
`max_overhang_length_`. The loop's accumulations do not depend on each other; they are separate folds here.
A layer without plans dereferences the end of the vector. -/
def process (overhang : Int) (plans : List Plan) : Outcome (List Plan × Bool) :=
  let nr := lastExt plans
  let done := plans.map fun pl => fanFirst (naive pl)
  match lastIdx nr done 0 none with
  | none => .ub
  | some i => do
    let last ← Outcome.index done i
    let other := otherTime nr done
    let minTime := maxMinTime overhang done
    let r := force minTime other last
    pure (done.set i (fanMinimal minTime other r.1), r.2)

/-- `GCodePath::getFanSpeed` (src/pathPlanning/GCodePath.cpp:29-32). -/
def Path.getFan (p : Path) : ℚ := if 0 ≤ p.fan ∧ p.fan ≤ 100 then p.fan else p.configFan

/-- The fan command written before a path (src/LayerPlan.cpp:3530-3536): none for a travel without its own fan
speed. -/
def fanCommand (pl : Plan) (p : Path) : Option ℚ :=
  if p.travel = false ∨ p.fan ≥ 0 then some (if p.getFan ≠ -1 then p.getFan else pl.fan) else none

/-- `ExtruderPlan::applyBackPressureCompensation` for one path (src/ExtruderPlan.cpp:73-86). -/
def backPressure (c : ℚ) (p : Path) : Path :=
  if p.widthFactor ≤ 0 ∨ (p.width : ℚ) ≤ 0 ∨ p.travel = true ∨ p.bridge = true then p
  else
    let lineWidth := p.widthFactor * p.width
    { p with backPressure := max (1 / 1000) (1 + (p.width / lineWidth - 1) * c) }

end Verif.Cooling
