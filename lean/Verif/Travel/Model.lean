import Mathlib.Data.Rat.Defs

/-! # How the moves of a layer are planned

Models `LayerPlan::getLatestPathWithConfig`, `forceNewPathStart`, `setExtruder`, `moveInsideCombBoundary`, `addTravel`, `addTravel_simple`,
`planPrime` and `addExtrusionMove` (src/LayerPlan.cpp:53-97, 258-347, 369-593) and `LayerPlanBuffer::addConnectingTravelMove`
(src/LayerPlanBuffer.cpp:117-166): the paths of a layer, to which a move is added one after the other, and
which travels are retracted.

Not modelled: settings are looked up in a table; which way a travel takes inside of the model (`Comb::calc`) and to where it is moved inside
(`PolygonUtils::moveInside`) are parameters; acceleration and jerk; what else an extruder plan holds. -/

namespace Verif.Travel

/-- `Point2LL`. -/
structure P2 where
  x : Int
  y : Int
deriving DecidableEq, Repr

/-- `Point3LL`. -/
structure P3 where
  x : Int
  y : Int
  z : Int
deriving DecidableEq, Repr

/-- `Point3LL::toPoint2LL`. -/
def P3.flat (p : P3) : P2 := ⟨p.x, p.y⟩

/-- The constructor of `Point3LL` from a `Point2LL`. -/
def P2.up (p : P2) : P3 := ⟨p.x, p.y, 0⟩

/-- The difference of points. -/
def P2.sub (p q : P2) : P2 := ⟨p.x - q.x, p.y - q.y⟩

/-- The sum of points. -/
def P2.add (p q : P2) : P2 := ⟨p.x + q.x, p.y + q.y⟩

/-- `shorterThen` (include/geometry/Point2LL.h:129-140). -/
def shorter (p : P2) (len : Int) : Bool :=
  if p.x > len ∨ p.x < -len then false else if p.y > len ∨ p.y < -len then false else decide (p.x * p.x + p.y * p.y ≤ len * len)

/-- What `getLatestPathWithConfig` compares of a path (include/pathPlanning/GCodePath.h): `config`, `z_offset`, `mesh`, `flow`, `width_factor` and
`speed_factor`. -/
structure Kind (C M : Type) where
  config : C
  zOff : Int
  mesh : Option M
  flow : ℚ
  width : ℚ
  speed : ℚ
deriving DecidableEq

/-- The other members of `GCodePath` (include/pathPlanning/GCodePath.h:30-57). -/
structure Path (C M : Type) where
  kind : Kind C M
  fill : Nat
  spiral : Bool
  toZ : Bool
  retract : Bool
  nozzleSwitch : Bool
  unretract : Bool
  hop : Bool
  prime : Bool
  points : List P3
  done : Bool
  fan : ℚ

/-- `ForceRetract` (include/ForceRetract.h:13-18). -/
inductive Force | automatic | retracted | notRetracted
deriving DecidableEq

/-- What `Comb::calc` yields: whether it succeeds, the paths with whether they cross a boundary, `throughAir`, `unretract_before_last_travel_move` and
`do_retracted_combing_move`. -/
structure CombRes where
  ok : Bool
  paths : List (List P2 × Bool)
  air : Bool
  unretract : Bool
  retracted : Bool

/-- The settings of a mesh or extruder that `addTravel` reads: `retraction_enable`, `retraction_hop_enabled`, `retraction_hop_after_extruder_switch`,
`retraction_min_travel`, `meshfix_maximum_travel_resolution` and `retraction_combing_max_distance`. -/
structure Sets where
  enable : Bool
  hop : Bool
  hopAfterSwitch : Bool
  minTravel : Int
  resolution : Int
  maxComb : Int

/-- Where an extruder is at a switch: `machine_extruder_end_pos_abs` and `…_x/y`, `machine_extruder_start_pos_abs` and `…_x/y`, and
`machine_nozzle_offset_x/y`. -/
structure Tool where
  endAbs : Bool
  endPos : P2
  startAbs : Bool
  startPos : P2
  offset : P2

/-- What does not change while a layer is planned. `combCalc` gets whether the previous location and the next one are inside, the two points, the mesh and the
extruder. `moveIn` is the point to which it is moved inside, if the conditions in `moveInsideCombBoundary` are met. `len` is `vSize`. -/
structure Env (C M : Type) where
  travel : Nat → C
  zOf : C → Int
  layer : Int
  prevExtruder : Nat
  sets : Option M → Nat → Sets
  comb : Bool
  combCalc : Bool → Bool → P2 → P2 → Option M → Nat → CombRes
  moveIn : Option M → Nat → P2 → Option P2
  len : P2 → Int
  start : Nat → P2
  tool : Nat → Tool

/-- `ExtruderPlan`; the last path is the first in the list. -/
structure Plan (C M : Type) where
  extruder : Nat
  paths : List (Path C M)

/-- The members of `LayerPlan` that change: `extruder_plans_` with the last one first (there is always one), `last_planned_position_`, `is_inside_`,
`was_inside_`, `first_travel_destination_` with `first_travel_destination_is_inside_`, and `current_mesh_`. -/
structure State (C M : Type) where
  cur : Plan C M
  earlier : List (Plan C M)
  last : Option P3
  inside : Bool
  wasInside : Bool
  firstDest : Option (P2 × Bool)
  mesh : Option M

variable {C M : Type} [DecidableEq C] [DecidableEq M]

/-- A new path (src/LayerPlan.cpp:70-80). -/
def fresh (k : Kind C M) (fill : Nat) (spiral toZ : Bool) : Path C M :=
  ⟨k, fill, spiral, toZ, false, false, false, false, false, [], false, -1⟩

/-- `getLatestPathWithConfig` (src/LayerPlan.cpp:53-84): the path to which is added and the ones before it. -/
def latest (paths : List (Path C M)) (k : Kind C M) (fill : Nat) (spiral toZ : Bool) : Path C M × List (Path C M) :=
  match paths with
  | [] => (fresh k fill spiral toZ, [])
  | p :: ps => if p.kind = k ∧ p.done = false then (p, ps) else (fresh k fill spiral toZ, p :: ps)

/-- `forceNewPathStart` (src/LayerPlan.cpp:91-96). -/
def forceNew (st : State C M) : State C M :=
  match st.cur.paths with
  | [] => st
  | p :: ps => { st with cur := { st.cur with paths := { p with done := true } :: ps } }

/-- `getLastPlannedPositionOrStartingPosition` (src/LayerPlan.cpp:4126-4129). -/
def position (env : Env C M) (st : State C M) : P2 := (st.last.map P3.flat).getD (env.start st.cur.extruder)

/-- The path a travel is added to (src/LayerPlan.cpp:376, 542). -/
def travelKind (env : Env C M) (st : State C M) (z : Int) : Kind C M := ⟨env.travel st.cur.extruder, z, st.mesh, 1, 1, 1⟩

/-- `addTravel_simple` with a path (src/LayerPlan.cpp:532-547): the point is added to `path`. -/
def addTo (st : State C M) (path : Path C M) (rest : List (Path C M)) (p : P2) : State C M :=
  { st with
    cur := { st.cur with paths := { path with points := path.points ++ [p.up] } :: rest }
    last := some p.up
    firstDest := if st.last.isNone then some (p, st.inside) else st.firstDest }

/-- `addTravel_simple` without one. -/
def addSimple (env : Env C M) (p : P2) (st : State C M) : State C M :=
  let (path, rest) := latest st.cur.paths (travelKind env st 0) 0 false true
  addTo st path rest p

/-- Whether a point is away from the last one of the path (src/LayerPlan.cpp:455). -/
def away (res : Int) (points : List P3) (c : P2) : Bool :=
  match points.getLast? with
  | none => true
  | some b => decide (res * res < (b.x - c.x) * (b.x - c.x) + (b.y - c.y) * (b.y - c.y) + b.z * b.z)

/-- The points of a comb path are added (src/LayerPlan.cpp:453-461): the points of the path, the distance and the last point. -/
def addPoints (env : Env C M) (res : Int) : List P2 → List P3 × Int × P2 → List P3 × Int × P2
  | [], a => a
  | c :: cs, (points, distance, lastPoint) =>
    addPoints env res cs
      (if away res points c then (points ++ [c.up], distance + env.len (lastPoint.sub c), c)
      else (points, distance, lastPoint))

/-- All comb paths are added (src/LayerPlan.cpp:444-467). -/
def addComb (env : Env C M) (s : Sets) (retract : Bool) (p : P2) : List (List P2 × Bool) → Path C M × Int × P2 → Path C M × Int × P2
  | [], a => a
  | c :: cs, (path, distance, lastPoint) =>
    if c.1.isEmpty then addComb env s retract p cs (path, distance, lastPoint)
    else
      let (points, distance, lastPoint) := addPoints env s.resolution c.1 (path.points, distance, lastPoint)
      let distance := distance + env.len (lastPoint.sub p)
      addComb env s retract p cs
        ({ path with points := points, retract := retract || (decide (0 < s.maxComb ∧ s.maxComb < distance) && s.enable) }, distance, lastPoint)

/-- What is done when combing succeeds (src/LayerPlan.cpp:421-474). -/
def combed (env : Env C M) (s : Sets) (r : CombRes) (q p : P2) (path : Path C M) : Path C M :=
  let retract := path.retract || (decide (1 < r.paths.length) || r.retracted) && s.enable
  let retract := if retract then true else if r.air then s.enable else if r.paths.any (·.2) then s.enable else false
  let path := (addComb env s retract p r.paths (path, 0, q)).1
  { path with unretract := path.retract && r.unretract }

/-- A retraction is forced (src/LayerPlan.cpp:401-412). -/
def forced (comb : Bool) (s : Sets) (force : Force) (short : Bool) (path : Path C M) : Path C M :=
  if force = .retracted ∧ short = false then { path with retract := true, hop := if comb then path.hop else s.hop } else path

/-- A retraction is not wanted (src/LayerPlan.cpp:477-489). -/
def unforced (force : Force) (short : Bool) (path : Path C M) : Path C M :=
  let path := if force = .notRetracted then { path with retract := false } else path
  if short then { path with retract := false, hop := false } else path

/-- What is done without combing (src/LayerPlan.cpp:495-521), with the point to which it is moved inside, if there is one
(`moveInsideCombBoundary`, src/LayerPlan.cpp:331-347). -/
def uncombed (s : Sets) (i : Option P2) (path : Path C M) : Path C M :=
  let path := match i with
    | some i => { path with points := path.points ++ [i.up], done := true }
    | none => path
  { path with retract := s.enable, hop := s.enable && s.hop }

/-- `addTravel` (src/LayerPlan.cpp:369-530). The pointer to the path always points to the last path: no path is added on the way. -/
def addTravel (env : Env C M) (p : P2) (force : Force) (z : Int) (st : State C M) : State C M :=
  let (path, rest) := latest st.cur.paths (travelKind env st z) 0 false true
  let s := env.sets st.mesh st.cur.extruder
  match st.last with
  | none =>
    -- the first travel of the layer is not combed
    let path := if env.layer = 0 ∧ s.enable ∧ s.hop then { path with retract := true, hop := true } else path
    { addTo st { unforced force false path with done := true } rest p with wasInside := st.inside }
  | some q =>
    let short := shorter (q.flat.sub p) s.minTravel
    let afterSwitch := rest.isEmpty && (!st.earlier.isEmpty || decide (env.prevExtruder ≠ st.cur.extruder))
    let r := env.combCalc st.wasInside st.inside q.flat p st.mesh st.cur.extruder
    let ok := env.comb && !(afterSwitch && s.hopAfterSwitch) && r.ok
    let path := forced env.comb s force short path
    let path := unforced force short (if ok then combed env s r q.flat p path else path)
    let path := if ok || short then path else uncombed s (if st.wasInside then env.moveIn st.mesh st.cur.extruder q.flat else none) path
    { addTo st { path with done := true } rest p with wasInside := st.inside }

/-- `planPrime` (src/LayerPlan.cpp:549-557). -/
def planPrime (env : Env C M) (length : Int) (st : State C M) : State C M :=
  let st := forceNew st
  let st := addSimple env ((position env st).add ⟨0, length⟩) st
  match st.cur.paths with
  | [] => st
  | p :: ps => { st with cur := { st.cur with paths := { p with retract := false, hop := false, prime := true, done := true } :: ps } }

/-- The parameters of an extrusion. -/
structure Extrude (C : Type) where
  to' : P3
  config : C
  fill : Nat
  flow : ℚ
  width : ℚ
  spiral : Bool
  speed : ℚ
  fan : ℚ
  toZ : Bool

/-- `addExtrusionMove` (src/LayerPlan.cpp:574-593). -/
def addExtrusion (env : Env C M) (e : Extrude C) (st : State C M) : State C M :=
  let (path, rest) := latest st.cur.paths ⟨e.config, env.zOf e.config, st.mesh, e.flow, e.width, e.speed⟩ e.fill e.spiral e.toZ
  { st with
    cur := { st.cur with paths := { path with points := path.points ++ [e.to'], fan := e.fan } :: rest }
    last := some e.to' }

/-- `setExtruder` (src/LayerPlan.cpp:263-325). -/
def setExtruder (env : Env C M) (nr : Nat) (st : State C M) : State C M :=
  if nr = st.cur.extruder then st
  else
    let st := { st with inside := false }
    let t := env.tool st.cur.extruder
    let endPos := if t.endAbs then t.endPos.add t.offset else t.endPos.add (position env st)
    let st :=
      if t.endAbs ∨ st.last.isSome then
        let st := addTravel env endPos .automatic 0 st
        match st.cur.paths with
        | [] => st
        | p :: ps => { st with cur := { st.cur with paths := { p with nozzleSwitch := true } :: ps } }
      else st
    let cur := if st.cur.paths.isEmpty then { st.cur with extruder := nr } else st.cur
    let st := { st with cur := ⟨nr, []⟩, earlier := cur :: st.earlier }
    let t := env.tool nr
    let startPos := if t.startAbs then t.startPos.add t.offset else t.startPos.add (position env st)
    if t.startAbs ∨ st.last.isSome then { st with last := some startPos.up } else st

/-- What the parts of the engine that make the plan of a layer call. -/
inductive Op (C M : Type)
  | travel (p : P2) (force : Force) (z : Int)
  | simple (p : P2)
  | extrude (e : Extrude C)
  | newPath
  | prime (length : Int)
  | inside (b : Bool)
  | mesh (m : Option M)
  | extruder (nr : Nat)

def step (env : Env C M) (st : State C M) : Op C M → State C M
  | .travel p f z => addTravel env p f z st
  | .simple p => addSimple env p st
  | .extrude e => addExtrusion env e st
  | .newPath => forceNew st
  | .prime l => planPrime env l st
  | .inside b => { st with inside := b }
  | .mesh m => { st with mesh := m }
  | .extruder n => setExtruder env n st

/-- The plan in the beginning (src/LayerPlan.cpp:98-158). -/
def initial (nr : Nat) : State C M := ⟨⟨nr, []⟩, [], none, false, true, none, none⟩

def run (env : Env C M) (ops : List (Op C M)) (st : State C M) : State C M := ops.foldl (step env) st

/-- `LayerPlanBuffer::addConnectingTravelMove` (src/LayerPlanBuffer.cpp:117-166) for the plan of the previous layer. `dest` is where the new layer begins;
`force` is whether it is to be retracted (135-149). -/
def connect (env : Env C M) (dest : Option (P2 × Bool)) (force : Bool) (st : State C M) : State C M :=
  match dest with
  | none => st
  | some (p, inside) =>
    if st.last.map P3.flat = some p then st
    else
      let st := addTravel env p (if force then .retracted else .automatic) 0 { st with inside := inside }
      match st.cur.paths with
      | [] => st
      | x :: xs => { st with cur := { st.cur with paths := { x with retract := x.retract || force } :: xs } }

end Verif.Travel
