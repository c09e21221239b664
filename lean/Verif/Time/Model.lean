import Mathlib.Analysis.Real.Sqrt

/-! # The time estimate (src/timeEstimate.cpp)

Doubles are real numbers. Divisions by zero do not occur under the conditions of the theorems. -/

namespace Verif.Time

noncomputable section

/-- `MINIMUM_PLANNER_SPEED` (src/timeEstimate.cpp:17). -/
def minSpeed : ℝ := 1 / 20

/-- A position or a speed on the axes X, Y, Z and E (include/timeEstimate.h:40-64). -/
abbrev Axes := Fin 4 → ℝ

/-- `Block` (include/timeEstimate.h:66-87), without the fields that are used in `plan` only. The feature is one of
the 15 of `PrintFeatureType` (include/PrintFeature.h:11-30). -/
structure Block where
  feature : Fin 15
  distance : ℝ
  nominal : ℝ
  acc : ℝ
  maxEntry : ℝ
  entry : ℝ
  nominalLength : Prop
  recalculate : Bool := true
  accUntil : ℝ := 0
  decAfter : ℝ := 0
  initial : ℝ := 0
  final : ℝ := 0

/-- `TimeEstimateCalculator` (include/timeEstimate.h:89-107). -/
structure Calc where
  maxFeed : Axes
  minFeed : ℝ
  acc : ℝ
  maxAcc : Axes
  xyJerk : ℝ
  zJerk : ℝ
  eJerk : ℝ
  extra : ℝ := 0
  prevFeed : Axes := fun _ => 0
  prevNominal : ℝ := 0
  pos : Axes := fun _ => 0
  blocks : List Block := []

/-- `maxAllowableSpeed` (src/timeEstimate.cpp:65-68). -/
def maxAllowable (acc target distance : ℝ) : ℝ := Real.sqrt (target * target - 2 * acc * distance)

/-- `estimateAccelerationDistance` (src/timeEstimate.cpp:71-78). -/
def accDistance (initial target acc : ℝ) : ℝ := if acc = 0 then 0 else (target ^ 2 - initial ^ 2) / (2 * acc)

/-- `intersectionDistance` (src/timeEstimate.cpp:84-120). -/
def intersection (initial final acc distance : ℝ) : ℝ :=
  if acc = 0 then 0 else (2 * acc * distance - initial ^ 2 + final ^ 2) / (4 * acc)

/-- `accelerationTimeFromDistance` (src/timeEstimate.cpp:123-130). -/
def accTime (initial distance acc : ℝ) : ℝ :=
  (-initial + Real.sqrt (max 0 (initial ^ 2 - 2 * acc * -distance))) / acc

/-- `calculateTrapezoidForBlock` (src/timeEstimate.cpp:132-158). -/
def trapezoid (b : Block) (entryFactor exitFactor : ℝ) : Block :=
  let initial := b.nominal * entryFactor
  let final := b.nominal * exitFactor
  let accelerate := accDistance initial b.nominal b.acc
  let plateau := b.distance - accelerate - accDistance b.nominal final (-b.acc)
  if plateau < 0 then
    let accelerate := min (max (intersection initial final b.acc b.distance) 0) b.distance
    { b with accUntil := accelerate, decAfter := accelerate + 0, initial := initial, final := final }
  else { b with accUntil := accelerate, decAfter := accelerate + plateau, initial := initial, final := final }

/-- `block.maxTravel` (src/timeEstimate.cpp:167-173). -/
def travel (delta : Axes) : ℝ := [0, 1, 2, 3].foldl (fun m n => max m |delta n|) 0

/-- `block.distance` (src/timeEstimate.cpp:182-186). The code takes the root in single precision. -/
def distance (delta : Axes) : ℝ :=
  let d := Real.sqrt (|delta 0| ^ 2 + |delta 1| ^ 2 + |delta 2| ^ 2)
  if d = 0 then |delta 3| else d

/-- `feedrate_factor` (src/timeEstimate.cpp:191-200). -/
def feedFactor (maxFeed feed : Axes) : ℝ :=
  [0, 1, 2, 3].foldl (fun f n => if |feed n| > maxFeed n then min f (maxFeed n / |feed n|) else f) 1

/-- `block.acceleration` (src/timeEstimate.cpp:213-220). -/
def blockAcc (c : Calc) (delta : Axes) (distance : ℝ) : ℝ :=
  [0, 1, 2, 3].foldl (fun a n => if a * (|delta n| / distance) > c.maxAcc n then c.maxAcc n else a) c.acc

/-- `safe_speed` (src/timeEstimate.cpp:222-233). -/
def safeSpeed (c : Calc) (feed : Axes) (nominal : ℝ) : ℝ :=
  let v := c.xyJerk / 2
  let v := if |feed 2| > c.zJerk / 2 then min v (c.zJerk / 2) else v
  let v := if |feed 3| > c.eJerk / 2 then min v (c.eJerk / 2) else v
  min v nominal

/-- `vmax_junction_factor` (src/timeEstimate.cpp:223, 237-251). -/
def junctionFactor (c : Calc) (feed : Axes) : ℝ :=
  let xy := Real.sqrt ((feed 0 - c.prevFeed 0) ^ 2 + (feed 1 - c.prevFeed 1) ^ 2)
  let f := if xy > c.xyJerk then c.xyJerk / xy else 1
  let z := |feed 2 - c.prevFeed 2|
  let f := if z > c.zJerk then min f (c.zJerk / z) else f
  let e := |feed 3 - c.prevFeed 3|
  if e > c.eJerk then min f (c.eJerk / e) else f

/-- `block.max_entry_speed` (src/timeEstimate.cpp:235-256). -/
def maxEntry (c : Calc) (feed : Axes) (nominal : ℝ) : ℝ :=
  if c.blocks ≠ [] ∧ c.prevNominal > 1 / 10000 then min c.prevNominal (nominal * junctionFactor c feed)
  else safeSpeed c feed nominal

/-- The requested feed rate (src/timeEstimate.cpp:178-181). -/
def requested (c : Calc) (feedrate : ℝ) : ℝ := if feedrate < c.minFeed then c.minFeed else feedrate

/-- The speeds on the axes before they are limited (src/timeEstimate.cpp:194). -/
def rawFeed (c : Calc) (delta : Axes) (feedrate : ℝ) : Axes :=
  fun n => delta n * requested c feedrate / distance delta

/-- The speeds on the axes (src/timeEstimate.cpp:194, 203-209). -/
def blockFeed (c : Calc) (delta : Axes) (feedrate : ℝ) : Axes :=
  fun n => rawFeed c delta feedrate n * feedFactor c.maxFeed (rawFeed c delta feedrate)

/-- `block.nominal_feedrate` (src/timeEstimate.cpp:187, 210). -/
def blockNominal (c : Calc) (delta : Axes) (feedrate : ℝ) : ℝ :=
  requested c feedrate * feedFactor c.maxFeed (rawFeed c delta feedrate)

/-- The block that `plan` makes (src/timeEstimate.cpp:160-268); where the factor is 1 the code does not multiply
with it. -/
def newBlock (c : Calc) (delta : Axes) (feedrate : ℝ) (feature : Fin 15) : Block :=
  let d := distance delta
  let feed := blockFeed c delta feedrate
  let nominal := blockNominal c delta feedrate
  let acc := blockAcc c delta d
  let m := maxEntry c feed nominal
  let allowable := maxAllowable (-acc) minSpeed d
  let entry := min m allowable
  let b : Block :=
    { feature := feature, distance := d, nominal := nominal, acc := acc, maxEntry := m, entry := entry
      nominalLength := nominal ≤ allowable }
  trapezoid b (entry / nominal) (safeSpeed c feed nominal / nominal)

/-- The way of a move along the axes (src/timeEstimate.cpp:170). -/
def deltaTo (c : Calc) (pos : Axes) : Axes := fun n => pos n - c.pos n

/-- `plan` (src/timeEstimate.cpp:160-271). -/
def plan (c : Calc) (pos : Axes) (feedrate : ℝ) (feature : Fin 15) : Calc :=
  if travel (deltaTo c pos) ≤ 0 then c
  else
    { c with
      prevFeed := blockFeed c (deltaTo c pos) feedrate
      prevNominal := blockNominal c (deltaTo c pos) feedrate
      pos := pos
      blocks := c.blocks ++ [newBlock c (deltaTo c pos) feedrate feature] }

/-- `reset` (src/timeEstimate.cpp:57-61). -/
def reset (c : Calc) : Calc := { c with extra := 0, blocks := [] }

/-- `addTime` (src/timeEstimate.cpp:42-45); a duration is never negative. -/
def addTime (c : Calc) (t : ℝ) : Calc := { c with extra := c.extra + max 0 t }

/-- `setPosition` (src/timeEstimate.cpp:37-40). -/
def setPosition (c : Calc) (pos : Axes) : Calc := { c with pos := pos }

/-- `setAcceleration` (src/timeEstimate.cpp:47-50). -/
def setAcceleration (c : Calc) (acc : ℝ) : Calc := { c with acc := acc }

/-- `setMaxXyJerk` (src/timeEstimate.cpp:52-55). -/
def setMaxXyJerk (c : Calc) (jerk : ℝ) : Calc := { c with xyJerk := jerk }

/-- `setFirmwareDefaults` (src/timeEstimate.cpp:19-34); the settings are those of the second argument, whose other
fields are not used. -/
def setFirmwareDefaults (c settings : Calc) : Calc :=
  { c with
    maxFeed := settings.maxFeed
    minFeed := settings.minFeed
    acc := settings.acc
    maxAcc := settings.maxAcc
    xyJerk := settings.xyJerk
    zJerk := settings.zJerk
    eJerk := settings.eJerk }

open Classical in
/-- `plannerReversePassKernel` (src/timeEstimate.cpp:293-318). -/
def reverseKernel (current next : Block) : Block :=
  if current.entry ≠ current.maxEntry then
    if ¬ current.nominalLength ∧ current.maxEntry > next.entry then
      { current with
        entry := min current.maxEntry (maxAllowable (-current.acc) next.entry current.distance), recalculate := true }
    else { current with entry := current.maxEntry, recalculate := true }
  else current

/-- The part of `reversePass` (src/timeEstimate.cpp:320-330) after the first block: every block but the last is
`current` once, from the back. -/
def reverseFrom : List Block → List Block
  | [] => []
  | b :: rest =>
    match reverseFrom rest with
    | [] => [b]
    | n :: later => reverseKernel b n :: n :: later

/-- `reversePass` (src/timeEstimate.cpp:320-330): the first block is never `current`. -/
def reversePass : List Block → List Block
  | [] => []
  | b :: rest => b :: reverseFrom rest

open Classical in
/-- `plannerForwardPassKernel` (src/timeEstimate.cpp:332-358). -/
def forwardKernel (previous current : Block) : Block :=
  if ¬ previous.nominalLength ∧ previous.entry < current.entry then
    let entry := min current.entry (maxAllowable (-previous.acc) previous.entry previous.distance)
    if current.entry ≠ entry then { current with entry := entry, recalculate := true } else current
  else current

/-- The blocks after a block in `forwardPass` (src/timeEstimate.cpp:360-371). -/
def forwardFrom (previous : Block) : List Block → List Block
  | [] => []
  | b :: rest => forwardKernel previous b :: forwardFrom (forwardKernel previous b) rest

/-- `forwardPass` (src/timeEstimate.cpp:360-371). -/
def forwardPass : List Block → List Block
  | [] => []
  | b :: rest => b :: forwardFrom b rest

/-- `recalculateTrapezoids` (src/timeEstimate.cpp:373-399). -/
def recalculate : List Block → List Block
  | [] => []
  | [b] => [{ trapezoid b (b.entry / b.nominal) (minSpeed / b.nominal) with recalculate := false }]
  | b :: n :: rest =>
    (if b.recalculate || n.recalculate then
      { trapezoid b (b.entry / b.nominal) (n.entry / b.nominal) with recalculate := false } else b) ::
      recalculate (n :: rest)

/-- The planned blocks (src/timeEstimate.cpp:275-277). -/
def planned (blocks : List Block) : List Block := recalculate (forwardPass (reversePass blocks))

/-- The constructor of `Duration`, through which every summand goes (include/settings/types/Duration.h:34-37). -/
def duration (x : ℝ) : ℝ := if x > 0 then x else 0

/-- The three phases of a block (src/timeEstimate.cpp:284-288). -/
def phases (b : Block) : ℝ × ℝ × ℝ :=
  (accTime b.initial b.accUntil b.acc, (b.decAfter - b.accUntil) / b.nominal,
    accTime b.final (b.distance - b.decAfter) b.acc)

/-- The sums per feature of `calculate` (src/timeEstimate.cpp:279-290). -/
def addBlock (totals : Fin 15 → ℝ) (b : Block) : Fin 15 → ℝ :=
  Function.update totals b.feature
    (totals b.feature + duration (phases b).1 + duration (phases b).2.1 + duration (phases b).2.2)

/-- `calculate` (src/timeEstimate.cpp:273-291): the times per feature; 0 is `NoneType`. The planned blocks also
replace those in the calculator, but its only user resets the calculator next (src/gcode_export/gcodeExport.cpp:564-569). -/
def calculate (c : Calc) : Fin 15 → ℝ :=
  (planned c.blocks).foldl addBlock (Function.update (fun _ => 0) 0 c.extra)

end

end Verif.Time
