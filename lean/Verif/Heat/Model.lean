import Verif.Basic
import Verif.Heat.Preheat

/-! # The buffer of layer plans and its temperature commands (src/LayerPlanBuffer.cpp, src/ExtruderPlan.cpp)

Durations and temperatures are rationals. Iterators into the list of temperature commands of a plan are unique
numbers given to the commands when they are inserted; erasing a command that is not in the list any more is
undefined behaviour. Log messages and the assertions are left out, and `wait`, which is always false for an
inserted command. -/

namespace Verif.Heat

/-- What matters of a `GCodePath`: `estimates.getTotalTime()`, `isTravelPath()` and
`config.temperature_delta`. -/
structure PathT where
  time : ℚ
  travel : Bool := false
  delta : ℚ := 0
deriving DecidableEq

/-- `NozzleTempInsert` (include/pathPlanning/NozzleTempInsert.h:20-26), with a number that stands for its place
in memory. -/
structure Insert where
  path : Nat
  ext : Nat
  temp : ℚ
  after : ℚ := 0
  id : Nat := 0
deriving DecidableEq

/-- `ExtruderPlan` (include/ExtruderPlan.h:148-189): the extruder, whether it is the first layer, the temperature
factor for small layers, the paths, the estimated total and unretracted time, and the members the plan buffer
writes. -/
structure EPlan where
  ext : Nat
  initial : Bool := false
  factor : ℚ := 0
  paths : List PathT
  time : ℚ
  unretracted : ℚ
  inserts : List Insert := []
  nextId : Nat := 0
  required : ℚ := -1
  extrusionTemp : Option ℚ := none
  cmd : Option Nat := none
  preTravel : ℚ := 0
  standby : Option ℚ := none
deriving DecidableEq

/-- The settings of an extruder that are read: "machine_nozzle_temp_enabled", "material_final_print_temperature",
"material_standby_temperature", the speeds, "machine_min_cool_heat_time_window", "machine_extruders_share_heater",
"material_initial_print_temperature", "prime_blob_enable", "material_print_temperature",
"material_print_temperature_layer_0" and "cool_min_temperature". -/
structure ExtSettings where
  enabled : Bool := true
  final : ℚ
  standby : ℚ
  speeds : Speeds
  minWindow : ℚ := 0
  shareHeater : Bool := false
  initialTemp : ℚ
  primeBlob : Bool := false
  printTemp : ℚ
  printTemp0 : ℚ
  coolMin : ℚ

/-- `Preheat::getTemp` (src/Preheat.cpp:42-50). -/
def ExtSettings.temp (s : ExtSettings) (initial : Bool) : ℚ :=
  if initial && s.printTemp0 != 0 then s.printTemp0 else s.printTemp

/-- `insertCommand` (src/ExtruderPlan.cpp:31-34). -/
def EPlan.insert (p : EPlan) (path ext : Nat) (temp after : ℚ) : EPlan :=
  { p with inserts := p.inserts ++ [⟨path, ext, temp, after, p.nextId⟩], nextId := p.nextId + 1 }

/-- The search of `insertPreheatCommand` over the paths from the last to the first
(src/LayerPlanBuffer.cpp:190-205 and 206-211): the index of the path and the time after its start. -/
def placeFrom (t : ℚ) : List ℚ → ℚ → Nat × ℚ
  | [], _ => (0, 0)
  | x :: earlier, acc => if t ≤ acc + x then (earlier.length, duration (acc + x - t)) else placeFrom t earlier (acc + x)

/-- Where `insertPreheatCommand` puts a command that is to be given `t` before the end of paths with the given
durations. -/
def place (times : List ℚ) (t : ℚ) : Nat × ℚ := placeFrom (duration t) times.reverse 0

/-- `insertPreheatCommand` (src/LayerPlanBuffer.cpp:188-212). -/
def EPlan.insertPreheat (p : EPlan) (t : ℚ) (ext : Nat) (temp : ℚ) : EPlan :=
  p.insert (place (p.paths.map PathT.time) t).1 ext temp (place (p.paths.map PathT.time) t).2

/-- `computeStandbyTempPlan` (src/LayerPlanBuffer.cpp:214-259); the plans before in the order from the nearest to
the first. -/
def standbyPlan (s : ExtSettings) (ext : Nat) (initial : ℚ) : List EPlan → ℚ → Plan
  | [], idle =>
    let t := timeFromTo s.speeds s.standby initial false
    if t > idle then ⟨idle, duration (idle + 1), initial - idle * s.speeds.heat⟩
    else ⟨idle, duration (t + 1), s.standby⟩
  | b :: earlier, idle =>
    if b.ext = ext then
      let before := if s.final = 0 then b.extrusionTemp.getD initial else s.final
      let w := warmUp s.speeds idle before s.standby initial false
      { w with time := min idle (duration (w.time + 1)) }
    else standbyPlan s ext initial earlier (idle + b.time)

/-- `insertPreheatCommand_singleExtrusion` (src/LayerPlanBuffer.cpp:261-274). -/
def EPlan.single (s : ExtSettings) (p : EPlan) (ext : Nat) (temp : ℚ) : EPlan :=
  if s.enabled then
    p.insertPreheat (min p.time (1 / 2 * timeFromTo s.speeds (p.extrusionTemp.getD p.required) temp true)) ext temp
  else p

/-- Change the plan with a given number. -/
def setPlan (plans : List EPlan) (k : Nat) (f : EPlan → EPlan) : List EPlan := plans.modify k f

/-- The extruder of the plan with a given number. -/
def extOf (plans : List EPlan) (k : Nat) : Option Nat := plans[k]?.map EPlan.ext

/-- `handleStandbyTemp` (src/LayerPlanBuffer.cpp:277-293). -/
def handleStandby (plans : List EPlan) (idx ext : Nat) (temp : ℚ) : List EPlan :=
  match (List.range (idx - 1)).reverse.find? (fun k => extOf plans k == some ext) with
  | some k => setPlan plans (k + 1) fun p => { p with standby := some temp }
  | none => setPlan plans 0 fun p => p.insert 0 ext temp 0

/-- The loop that inserts the preheat command (src/LayerPlanBuffer.cpp:319-338); the number is the one of the
plan after the one looked at. -/
def placePreheat (ext : Nat) (temp : ℚ) (plans : List EPlan) : Nat → ℚ → List EPlan
  | 0, _ => setPlan plans 0 fun p => p.insert 0 ext temp 0
  | k + 1, t =>
    match plans[k]? with
    | none => plans
    | some p =>
      if p.time ≥ t then setPlan plans k fun p => p.insertPreheat t ext temp
      else placePreheat ext temp plans k (t - p.time)

/-- The plans before a plan, the nearest first. -/
def plansBefore (plans : List EPlan) (idx : Nat) : List EPlan := (plans.take idx).reverse

/-- `insertPreheatCommand_multiExtrusion` (src/LayerPlanBuffer.cpp:295-339). -/
def multi (s : ExtSettings) (plans : List EPlan) (idx : Nat) (p : EPlan) : List EPlan :=
  if s.enabled then
    let w := standbyPlan s p.ext p.required (plansBefore plans idx) 0
    if w.window < s.minWindow then handleStandby plans idx p.ext p.required
    else
      let plans := if w.time < w.window then handleStandby plans idx p.ext w.turn else plans
      placePreheat p.ext p.required plans idx w.time
  else plans

/-- Time and first extrusion of `insertPrintTempCommand` (src/LayerPlanBuffer.cpp:414-423). -/
def firstExtrusion : List PathT → Nat × ℚ
  | [] => (0, 0)
  | x :: rest => if x.travel then ((firstExtrusion rest).1 + 1, x.time + (firstExtrusion rest).2) else (0, x.time)

/-- `insertPrintTempCommand` (src/LayerPlanBuffer.cpp:395-428). -/
def EPlan.printTemp (s : ExtSettings) (p : EPlan) : EPlan :=
  match p.extrusionTemp with
  | none => p
  | some temp =>
    if s.enabled then
      if s.initialTemp ≠ 0 then
        { p.insert (firstExtrusion p.paths).1 p.ext temp 0 with preTravel := (firstExtrusion p.paths).2 }
      else { p with preTravel := 0 }
    else p

/-- The time of the travel moves at the end (src/LayerPlanBuffer.cpp:446-458). -/
def postTravel (paths : List PathT) : ℚ := ((paths.reverse.takeWhile PathT.travel).map PathT.time).sum

/-- The statistics of `insertFinalPrintTempCommand` (src/LayerPlanBuffer.cpp:460-484) about the plans from the
last one back: time, weighted temperature, first temperature, time before the first extrusion. -/
def statistics (ext : Nat) : List EPlan → ℚ × ℚ × Option ℚ × ℚ → ℚ × ℚ × Option ℚ × ℚ
  | [], st => st
  | p :: earlier, st =>
    if p.ext = ext then
      if p.unretracted > 0 then
        statistics ext earlier
          (st.1 + p.time, st.2.1 + p.extrusionTemp.getD p.required * p.time, some p.required, p.preTravel)
      else statistics ext earlier (st.1 + p.time, st.2.1, st.2.2.1, p.preTravel)
    else st

/-- Erasing the command that a plan remembers (src/LayerPlanBuffer.cpp:527-530). -/
def EPlan.eraseCmd (p : EPlan) : Outcome EPlan :=
  match p.cmd with
  | none => .ok p
  | some id =>
    if p.inserts.any (fun i => i.id == id) then .ok { p with inserts := p.inserts.filter fun i => i.id != id }
    else .ub

/-- The loop that finds the plan in which to start cooling (src/LayerPlanBuffer.cpp:521-538); the number is the
one of the plan after the one looked at. -/
def findPrecool : List EPlan → Nat → Nat → ℚ → Outcome (List EPlan × Nat × ℚ)
  | plans, 0, found, t => .ok (plans, found, t)
  | plans, k + 1, _, t => do
    let p ← Outcome.index plans k
    let p ← p.eraseCmd
    let plans := plans.set k p
    if t < p.time then return (plans, k, t)
    findPrecool plans k k (t - p.time)

/-- The path in which cooling starts (src/LayerPlanBuffer.cpp:543-556): if the paths are too short, the index wraps
around to the largest 32-bit number. -/
def precoolPath (t : ℚ) : List ℚ → ℚ → Nat × ℚ
  | [], seen => (4294967295, seen - t)
  | x :: earlier, seen =>
    if seen + x ≥ t then (earlier.length, seen + x - t) else precoolPath t earlier (seen + x)

/-- `insertFinalPrintTempCommand` (src/LayerPlanBuffer.cpp:430-560). -/
def finalPrint (s : ExtSettings) (plans : List EPlan) (last : Nat) : Outcome (List EPlan) := do
  let lp ← Outcome.index plans last
  if s.enabled = false then return plans
  if s.final = 0 then return plans
  let st := statistics lp.ext (plansBefore plans (last + 1)) (0, 0, none, -1)
  if st.1 ≤ 0 then return plans
  match st.2.2.1 with
  | none => return plans
  | some first =>
    let cool := coolDown s.speeds (st.1 - (st.2.2.2 + postTravel lp.paths)) first (st.2.1 / st.1) s.final true
    let (plans, k, t) ← findPrecool plans (last + 1) last cool.time
    return setPlan plans k fun p =>
      p.insert (precoolPath t (p.paths.map PathT.time).reverse 0).1 lp.ext s.final
        (precoolPath t (p.paths.map PathT.time).reverse 0).2

/-- `--inserts_.end()` (src/LayerPlanBuffer.cpp:359): undefined for an empty list. -/
def EPlan.rememberLast (p : EPlan) : Outcome EPlan :=
  match p.inserts.getLast? with
  | none => .ub
  | some i => .ok { p with cmd := some i.id }

/-- `insertTempCommands(extruder_plans, extruder_plan_idx)` (src/LayerPlanBuffer.cpp:341-372). -/
def insertTemp (cfg : Nat → ExtSettings) (plans : List EPlan) (idx : Nat) : Outcome (List EPlan) := do
  let p ← Outcome.index plans idx
  if idx = 0 then .ub
  else
    let prev ← Outcome.index plans (idx - 1)
    if prev.ext = p.ext then
      let prev ← (prev.single (cfg p.ext) p.ext p.required).rememberLast
      return plans.set (idx - 1) prev
    else
      let plans := setPlan plans idx fun p => { p with standby := some (cfg prev.ext).standby }
      if (cfg p.ext).shareHeater then
        return setPlan plans (idx - 1) fun q => q.single (cfg prev.ext) prev.ext p.required
      else
        let plans := multi (cfg p.ext) plans idx p
        let plans ← finalPrint (cfg prev.ext) plans (idx - 1)
        return setPlan plans idx fun q => q.printTemp (cfg q.ext)

/-- `insertInLayerTempCommands` (src/LayerPlanBuffer.cpp:374-393). -/
def inLayerFrom (normal : ℚ) : List PathT → Nat → ℚ → EPlan → EPlan
  | [], _, _, p => p
  | x :: rest, i, actual, p =>
    if x.travel then inLayerFrom normal rest (i + 1) actual p
    else if |normal + x.delta - actual| ≤ 1 / 10 then inLayerFrom normal rest (i + 1) actual p
    else inLayerFrom normal rest (i + 1) (normal + x.delta) (p.insert i p.ext (normal + x.delta) 0)

/-- The loop of `insertInLayerTempCommands` over a plan (src/LayerPlanBuffer.cpp:376-378). -/
def EPlan.inLayer (p : EPlan) : EPlan :=
  inLayerFrom (p.extrusionTemp.getD p.required) p.paths 0 (p.extrusionTemp.getD p.required) p

/-- A `LayerPlan`: its number and its extruder plans. -/
structure Layer where
  nr : Int
  plans : List EPlan
deriving DecidableEq

/-- `LayerPlan::empty` (src/LayerPlan.cpp:4111-4119). -/
def Layer.empty (l : Layer) : Bool := l.plans.all fun p => p.paths.isEmpty

/-- The state of the buffer: the layers held, which extruders have been used in this mesh group
(`extruder_used_in_meshgroup_`), the initial temperatures given to the exporter (`setInitialTemp`) and the layers
that have been written. -/
structure Buf where
  layers : List Layer := []
  used : Nat → Bool := fun _ => false
  initialTemps : List (Nat × ℚ) := []
  written : List Layer := []

/-- What the print is: the settings of each extruder, the number of extruders, whether this is the first mesh
group; and two steps that are not modelled: `processFanSpeedLayerTime` (src/LayerPlanBuffer.cpp:168-185), which
computes the estimated times of a layer from the layer before, and `addConnectingTravelMove` (lines 117-166),
which may append a travel move to the layer before. -/
structure Job where
  cfg : Nat → ExtSettings
  extruders : Nat
  firstGroup : Bool
  estimate : Option Layer → Layer → Layer
  connect : Layer → Layer → Layer

/-- The print temperature and the initial print temperature of a plan (src/LayerPlanBuffer.cpp:594-601). -/
def temps (s : ExtSettings) (p : EPlan) : ℚ × ℚ :=
  if p.factor > 0 then
    let t := s.temp p.initial * (1 - p.factor) + p.factor * s.coolMin
    (t, min s.initialTemp t)
  else (s.temp p.initial, s.initialTemp)

/-- Whether a plan starts at the print temperature (src/LayerPlanBuffer.cpp:603-608). -/
def startsAtPrint (s : ExtSettings) (used : Bool) (p : EPlan) (prev : Option EPlan) : Bool :=
  (temps s p).2 == 0 || s.shareHeater || (!used && s.primeBlob) ||
    prev.any fun q => q.ext == p.ext && decide (q.unretracted > 0)

/-- Setting the temperatures of a plan (src/LayerPlanBuffer.cpp:603-617). -/
def setTemps (s : ExtSettings) (used : Bool) (p : EPlan) (prev : Option EPlan) : EPlan :=
  if startsAtPrint s used p prev then { p with required := (temps s p).1 }
  else { p with required := (temps s p).2, extrusionTemp := some (temps s p).1 }

/-- The initial temperatures of the first plan of the first mesh group (src/LayerPlanBuffer.cpp:622-638). -/
def initialTempsOf (job : Job) (p : EPlan) : List (Nat × ℚ) :=
  (List.range job.extruders).map fun e =>
    (e, if e = p.ext then p.extrusionTemp.getD p.required else (job.cfg e).standby)

/-- The standby temperature of the first plan of a later mesh group: that of the last other extruder
(src/LayerPlanBuffer.cpp:639-645). -/
def laterStandby (job : Job) (p : EPlan) : EPlan :=
  match ((List.range job.extruders).filter (· ≠ p.ext)).getLast? with
  | none => p
  | some e => { p with standby := some (job.cfg e).standby }

/-- One turn of the loop of `insertTempCommands()` over the plans of the newest layer
(src/LayerPlanBuffer.cpp:582-651): `idx` is the number of the plan among all plans, `first` whether it is the very
first plan of the mesh group. -/
def tempsFor (job : Job) (first : Bool) (st : List EPlan × (Nat → Bool) × List (Nat × ℚ)) (idx : Nat) :
    Outcome (List EPlan × (Nat → Bool) × List (Nat × ℚ)) := do
  let p ← Outcome.index st.1 idx
  let prev := if idx = 0 then none else st.1[idx - 1]?
  let s := job.cfg p.ext
  let used := if startsAtPrint s (st.2.1 p.ext) p prev then Function.update st.2.1 p.ext true else st.2.1
  let p := setTemps s (st.2.1 p.ext) p prev
  let plans := st.1.set idx p
  if first then
    if job.firstGroup then return (plans, used, st.2.2 ++ initialTempsOf job p)
    else return (plans.set idx (laterStandby job p), used, st.2.2)
  else
    let plans ← insertTemp job.cfg plans idx
    return (plans, used, st.2.2)

/-- The loop over the plans of the newest layer; `only` says that the buffer holds one layer
(src/LayerPlanBuffer.cpp:582-651). -/
def tempsForAll (job : Job) (only : Bool) :
    Bool → List Nat → List EPlan × (Nat → Bool) × List (Nat × ℚ) →
      Outcome (List EPlan × (Nat → Bool) × List (Nat × ℚ))
  | _, [], st => .ok st
  | isFirst, idx :: rest, st => do
    let st ← tempsFor job (only && isFirst) st idx
    tempsForAll job only false rest st

/-- Distribute plans over the layers again (the code uses pointers to the plans). -/
def regroup : List Layer → List EPlan → List Layer
  | [], _ => []
  | l :: ls, ps => { l with plans := ps.take l.plans.length } :: regroup ls (ps.drop l.plans.length)

/-- All plans of the buffer in printing order (src/LayerPlanBuffer.cpp:569-577). -/
def allPlans (layers : List Layer) : List EPlan := layers.flatMap Layer.plans

/-- `insertTempCommands()` (src/LayerPlanBuffer.cpp:562-657). -/
def insertAll (job : Job) (b : Buf) : Outcome Buf := do
  match b.layers.getLast? with
  | none => .ub
  | some l =>
    if l.empty then return b
    let plans := allPlans b.layers
    let idx := (List.range l.plans.length).map fun i => plans.length - l.plans.length + i
    let st ← tempsForAll job (b.layers.length == 1) true idx (plans, b.used, b.initialTemps)
    let start := plans.length - l.plans.length
    let done := st.1.take start ++ (st.1.drop start).map EPlan.inLayer
    return { b with layers := regroup b.layers done, used := st.2.1, initialTemps := st.2.2 }

/-- `buffer_size_` (include/LayerPlanBuffer.h:44-45). -/
def bufferSize : Nat := 5

/-- The first part of `processBuffer` (src/LayerPlanBuffer.cpp:45-49): estimate the newest layer and connect the
layer before it. -/
def prepare (job : Job) (layers : List Layer) : List Layer :=
  match layers.reverse with
  | [] => []
  | [n] => [job.estimate none n]
  | n :: p :: earlier =>
    let n := job.estimate (some p) n
    (n :: job.connect p n :: earlier).reverse

/-- `processBuffer` (src/LayerPlanBuffer.cpp:39-61) and the writing of the returned layer (lines 29-34). -/
def processBuffer (job : Job) (b : Buf) : Outcome Buf := do
  let b ← insertAll job { b with layers := prepare job b.layers }
  if b.layers.length > bufferSize then
    return { b with layers := b.layers.tail, written := b.written ++ b.layers.take 1 }
  else return b

/-- `handle` (src/LayerPlanBuffer.cpp:23-37). -/
def handle (job : Job) (b : Buf) (l : Layer) : Outcome Buf :=
  processBuffer job { b with layers := b.layers ++ [l] }

/-- `flush` (src/LayerPlanBuffer.cpp:63-75). -/
def flush (job : Job) (b : Buf) : Outcome Buf := do
  if b.layers = [] then return b
  let b ← insertAll job b
  return { b with layers := [], written := b.written ++ b.layers }

/-- Handing over some layers one after the other. -/
def handleAll (job : Job) : List Layer → Buf → Outcome Buf
  | [], b => .ok b
  | l :: ls, b => do
    let b ← handle job b l
    handleAll job ls b

/-- A mesh group: all layers are handed over, then the buffer is flushed
(src/FffGcodeWriter.cpp: `layer_plan_buffer.handle` for each layer, then `layer_plan_buffer.flush()`). -/
def printGroup (job : Job) (layers : List Layer) : Outcome Buf := do
  let b ← handleAll job layers {}
  flush job b

/-! ## Writing the commands -/

/-- What comes out when a plan is written: the moves of each path and the temperature commands. -/
inductive Event where
  | move (path k : Nat)
  | temp (i : Insert)
deriving DecidableEq

/-- The order of `NozzleTempInsert` (include/pathPlanning/NozzleTempInsert.h:28-35), as "not after". -/
def Insert.le (a b : Insert) : Bool := if a.path = b.path then decide (a.after ≤ b.after) else decide (a.path ≤ b.path)

/-- One insertion of `std::list::sort`; `sort` is stable (src/LayerPlan.cpp:3505). -/
def insertSorted (i : Insert) : List Insert → List Insert
  | [] => [i]
  | x :: xs => if i.le x then i :: x :: xs else x :: insertSorted i xs

/-- `inserts_.sort()` (src/LayerPlan.cpp:3505). -/
def sortInserts : List Insert → List Insert
  | [] => []
  | x :: xs => insertSorted x (sortInserts xs)

/-- Whether `handleInserts` writes a command (src/ExtruderPlan.cpp:41-46). -/
def Insert.due (i : Insert) (path : Nat) (time : ℚ) : Bool :=
  !(decide (i.path > path) || (i.path == path && decide (i.after > time)))

/-- The end of a loop that walks along the list of commands as long as they are due
(src/ExtruderPlan.cpp:36-52). -/
def handleInserts (path : Nat) (time : ℚ) (inserts : List Insert) : List Event × List Insert :=
  ((inserts.takeWhile fun i => i.due path time).map .temp, inserts.dropWhile fun i => i.due path time)

/-- The moves of a path (src/LayerPlan.cpp:3512-3516 and 3768-3780): before each move its time is added and the
commands that are due are written. -/
def writeMoves (path : Nat) : List ℚ → Nat → ℚ → List Insert → List Event × List Insert × ℚ
  | [], _, time, inserts => ([], inserts, time)
  | x :: rest, k, time, inserts =>
    let h := handleInserts path (time + x) inserts
    let r := writeMoves path rest (k + 1) (time + x) h.2
    (h.1 ++ .move path k :: r.1, r.2)

/-- The loop over the paths (src/LayerPlan.cpp:3520-3525, 3857). Each entry is the number of a path and the times
of its moves; at the start of a path the commands that are due after the time of the path before are written. Paths
that are left out, or written as part of a spiral, do not appear in the list. -/
def writePaths : List (Nat × List ℚ) → ℚ → List Insert → List Event
  | [], _, inserts => inserts.map .temp
  | (path, moves) :: rest, time, inserts =>
    let h := handleInserts path time inserts
    let r := writeMoves path moves 0 0 h.2
    h.1 ++ r.1 ++ writePaths rest r.2.2 r.2.1

/-- Writing the paths and commands of an extruder plan (src/LayerPlan.cpp:3505-3857). -/
def writePlan (steps : List (Nat × List ℚ)) (inserts : List Insert) : List Event :=
  writePaths steps 0 (sortInserts inserts)

end Verif.Heat
