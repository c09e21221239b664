import Verif.Basic
import Mathlib.Data.Rat.Floor
import Mathlib.Algebra.BigOperators.Group.List.Basic

/-! # Gradual flow (include/gradual_flow/FlowLimitedPath.h, include/gradual_flow/Processor.h)

Doubles are rationals. `std::hypot` of the differences of two points is a function `len` of the two points, a
parameter of the model: the theorems hold for every symmetric function without negative values. -/

namespace Verif.Flow

/-- `Point3LL` (include/geometry/Point3LL.h). -/
structure Pt where
  x : Int
  y : Int
  z : Int
deriving DecidableEq, Repr

/-- What a `GCodePath` (include/pathPlanning/GCodePath.h:31-58) has besides its points and the speed of its
configuration: the parts the code reads, and `tag` for all others. -/
structure Data where
  flow : ℚ
  width : Int
  thickness : Int
  ratio : ℚ
  factor : ℚ
  retract : Bool
  tag : Nat
deriving DecidableEq, Repr

/-- `GCodePath`: `speed` is `config.speed_derivatives.speed` (mm/s). -/
structure GPath where
  data : Data
  speed : ℚ
  points : List Pt
deriving DecidableEq, Repr

/-- `FlowLimitedPath` (include/gradual_flow/FlowLimitedPath.h:30-36): `data` and `orig` (the configured speed) are
what the pointer to the original path gives access to; `flow` is `flow_`. `total_length` is a function here (it is
computed once from the points, which never change). -/
structure FPath where
  data : Data
  orig : ℚ
  points : List Pt
  speed : ℚ
  flow : ℚ
deriving DecidableEq, Repr

/-- `extrusionVolumePerMm` (include/gradual_flow/FlowLimitedPath.h:68-72). -/
def Data.vol (d : Data) : ℚ := d.flow * d.width * d.thickness * d.ratio

/-- `targetSpeed` (include/gradual_flow/FlowLimitedPath.h:38-41), µm/s. -/
def target (d : Data) (orig : ℚ) : ℚ := orig * d.factor * 1000

/-- A `FlowLimitedPath` with the default value of `flow_` (include/gradual_flow/FlowLimitedPath.h:34-35). -/
def FPath.mk' (d : Data) (orig : ℚ) (points : List Pt) (speed : ℚ) : FPath := ⟨d, orig, points, speed, d.vol * speed⟩

/-- `targetFlow` (include/gradual_flow/FlowLimitedPath.h:90-93). -/
def FPath.targetFlow (p : FPath) : ℚ := p.data.vol * target p.data p.orig

/-- `isTravel` (include/gradual_flow/FlowLimitedPath.h:48-51). -/
def FPath.travel (p : FPath) : Bool := decide (p.targetFlow ≤ 0)

variable (len : Pt → Pt → ℚ)

/-- `totalLength` (include/gradual_flow/FlowLimitedPath.h:138-151). -/
def total : List Pt → ℚ
  | a :: b :: rest => len a b + total (b :: rest)
  | _ => 0

/-- `totalDuration` (include/gradual_flow/FlowLimitedPath.h:158-161). -/
def FPath.duration (p : FPath) : ℚ := total len p.points / p.speed

/-- `static_cast<long long>` of a double. -/
def trunc (x : ℚ) : Int := if 0 ≤ x then ⌊x⌋ else ⌈x⌉

/-- The partition point (include/gradual_flow/FlowLimitedPath.h:204-207). -/
def Pt.towards (a b : Pt) (r : ℚ) : Pt where
  x := a.x + trunc ((b.x - a.x : Int) * r)
  y := a.y + trunc ((b.y - a.y : Int) * r)
  z := a.z + trunc ((b.z - a.z : Int) * r)

/-- The loop of `partition` (include/gradual_flow/FlowLimitedPath.h:187-241), walking over a list of points:
`done` are the points before `prev`, `cur` the duration up to `prev`. It gives the points up to and including the
partition point, and those from it on. Walking beyond the last point is undefined behaviour, and so is the
conversion to an integer if the duration of the segment is zero (the ratio is then not a number). -/
def walk (dur speed : ℚ) (done : List Pt) (prev : Pt) (cur : ℚ) : List Pt → Outcome (List Pt × List Pt)
  | [] => .ub
  | next :: rest =>
    let seg := len prev next / speed
    if cur + seg < dur then walk dur speed (done ++ [prev]) next (cur + seg) rest
    else if seg = 0 then .ub
    else
      let q := prev.towards next ((dur - cur) / seg)
      .ok (done ++ [prev, q], q :: next :: rest)

/-- `walk` from the first point. -/
def walkFrom (dur speed : ℚ) : List Pt → Outcome (List Pt × List Pt)
  | [] => .ub
  | p :: rest => walk len dur speed [] p 0 rest

/-- `partition` (include/gradual_flow/FlowLimitedPath.h:174-276): the new path, the remaining one and the duration
that is left. Going backward is walking over the reversed points. -/
def FPath.partition (dur speed : ℚ) (forward : Bool) (p : FPath) : Outcome (FPath × Option FPath × ℚ) :=
  let all := total len p.points / speed
  if dur ≥ all then .ok (FPath.mk' p.data p.orig p.points speed, none, dur - all)
  else if forward then do
    let (left, right) ← walkFrom len dur speed p.points
    pure (FPath.mk' p.data p.orig left speed, some (FPath.mk' p.data p.orig right p.speed), 0)
  else do
    let (right, left) ← walkFrom len dur speed p.points.reverse
    pure (FPath.mk' p.data p.orig right.reverse speed, some (FPath.mk' p.data p.orig left.reverse p.speed), 0)

/-- `FlowState` (include/gradual_flow/FlowLimitedPath.h:23-28). -/
inductive FlowState where
  | stable
  | transition
  | undefined
deriving DecidableEq, Repr

/-- The constant part of `GCodeState` (include/gradual_flow/FlowLimitedPath.h:298-305). -/
structure Config where
  acc : ℚ
  dec : ℚ
  step : ℚ
  reset : ℚ

/-- The part of `GCodeState` that changes; `left` is `discretized_duration_remaining`. -/
structure State where
  flow : ℚ
  left : ℚ
  state : FlowState
deriving DecidableEq, Repr

/-- The state after `discretized_duration_remaining` was set. -/
def State.settle (flow left : ℚ) : State := ⟨flow, left, if left > 0 then .transition else .stable⟩

/-- The loop that raises the flow (include/gradual_flow/FlowLimitedPath.h:405-448). `fuel` bounds the number of
iterations. -/
def ramp (forward : Bool) (step delta goal vol : ℚ) :
    Nat → FPath → List FPath → State → Outcome (List FPath × State)
  | 0, _, _, _ => .diverge
  | fuel + 1, p, done, s =>
    if s.flow < goal then
      let flow := min goal (s.flow + delta)
      if flow = goal then
        let p' := { p with speed := flow / vol }
        .ok (done ++ [p'], State.settle flow (max (s.left - p'.duration len) 0))
      else
        match (generalizing := false) p.partition len step (flow / vol) forward with
        | .ok (part, some rest, _) => ramp forward step delta goal vol fuel rest (done ++ [part]) { s with flow := flow }
        | .ok (part, none, left) => .ok (done ++ [part], ⟨flow, left, .transition⟩)
        | .ub => .ub
        | .diverge => .diverge
    else .ok (done ++ [p], State.settle s.flow s.left)

/-- The part of `processGcodePath` for paths whose flow has to be raised (include/gradual_flow/FlowLimitedPath.h:378-448).
If time is left of the step before, that time is printed at the present flow first. -/
def raise (c : Config) (forward : Bool) (fuel : Nat) (p : FPath) (s : State) : Outcome (List FPath × State) :=
  let vol := p.data.vol
  let delta := (if forward then c.acc else c.dec) * c.step
  if s.left > 0 then
    match (generalizing := false) p.partition len s.left (s.flow / vol) forward with
    | .ok (part, some rest, left) =>
      ramp len forward c.step delta p.flow vol fuel rest [part] { s with left := max 0 (s.left - left) }
    | .ok (part, none, left) => .ok ([part], ⟨s.flow, max 0 (s.left - left), .transition⟩)
    | .ub => .ub
    | .diverge => .diverge
  else ramp len forward c.step delta p.flow vol fuel p [] s

/-- `processGcodePath` (include/gradual_flow/FlowLimitedPath.h:350-449). -/
def processPath (c : Config) (forward : Bool) (fuel : Nat) (p : FPath) (s : State) : Outcome (List FPath × State) :=
  if p.travel then
    .ok ([p], if p.data.retract = true ∨ p.duration len > c.reset then { s with state := .undefined } else s)
  else
    let s := if s.state = .undefined ∧ forward = true then { s with flow := p.targetFlow } else s
    if p.flow ≤ s.flow then .ok ([p], ⟨p.flow, 0, .stable⟩)
    else raise len c forward fuel p s

/-- A pass over the paths: the new paths of each path in the order of the pass. -/
def pass (c : Config) (forward : Bool) (fuel : Nat) : List FPath → State → Outcome (List (List FPath) × State)
  | [], s => .ok ([], s)
  | p :: rest, s => do
    let (new, s) ← processPath len c forward fuel p s
    let (news, s) ← pass c forward fuel rest s
    pure (new :: news, s)

/-- `processGcodePaths` (include/gradual_flow/FlowLimitedPath.h:307-341). In the backward pass every new path is put
in front of the ones before. -/
def processPaths (c : Config) (fuel : Nat) (endFlow : ℚ) (paths : List FPath) (s : State) : Outcome (List FPath) := do
  let (news, s) ← pass len c true fuel paths { s with left := 0 }
  let (news, _) ← pass len c false fuel news.flatten.reverse { s with flow := min s.flow endFlow, left := 0 }
  pure news.flatten.reverse

/-- The conversion of the paths (include/gradual_flow/Processor.h:36-57): every path but the first begins with the
last point of the one before; taking the last point of an empty path is undefined behaviour. -/
def convert : List Pt → List GPath → Outcome (List FPath)
  | _, [] => .ok []
  | before, p :: rest =>
    match before.getLast? with
    | none => .ub
    | some b => do
      let points := b :: p.points
      let ps ← convert points rest
      pure (FPath.mk' p.data p.speed points (target p.data p.speed) :: ps)

/-- `convert` with the first path. -/
def convertAll : List GPath → Outcome (List FPath)
  | [] => .ok []
  | p :: rest => do
    let ps ← convert p.points rest
    pure (FPath.mk' p.data p.speed p.points (target p.data p.speed) :: ps)

/-- The first flow that is not zero (include/gradual_flow/Processor.h:59-73). -/
def firstFlow (paths : List FPath) : ℚ :=
  match (paths.map FPath.flow).dropWhile (fun f => f == 0) with
  | [] => 0
  | f :: _ => f

/-- `toClassicPath` (include/gradual_flow/FlowLimitedPath.h:279-292). -/
def FPath.classic (first : Bool) (p : FPath) : GPath where
  data := p.data
  speed := p.speed / 1000 / p.data.factor
  points := p.points.drop (if first then 0 else 1)

/-- `gradual_flow::Processor::process` (include/gradual_flow/Processor.h:25-98) with gradual flow enabled: `limit` is
the maximum flow acceleration of the layer, `step` the step size and `reset` the duration of a travel after which
the flow starts anew. -/
def process (limit step reset : ℚ) (fuel : Nat) (paths : List GPath) : Outcome (List GPath) := do
  let fs ← convertAll paths
  let first := firstFlow fs
  let c : Config := ⟨limit * 1000000000, limit * 1000000000, step, reset⟩
  let out ← processPaths len c fuel first fs ⟨first, 0, .undefined⟩
  match out with
  | [] => pure []
  | p :: rest => pure (p.classic true :: rest.map (FPath.classic false))

end Verif.Flow
