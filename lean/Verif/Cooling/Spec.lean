import Verif.Cooling.Model

/-! # What a layer takes: specification

Independent of the estimates of the code: the time a list of moves takes at a speed, retractions, and waits. -/

namespace Verif.Cooling

/-- The time the moves of a path take at its speed. -/
def Path.time (p : Path) : ℚ := (p.lens.map fun len => len / (p.speed * p.factor)).sum

/-- The time of the retraction before a retracted travel. (Priming is not counted.) -/
def Path.retractTime (r : Retraction) (p : Path) : ℚ :=
  if p.width = 0 ∧ p.retract = true then r.distance / r.speed else 0

/-- The time a plan takes without waiting. -/
def Plan.time (pl : Plan) : ℚ := (pl.paths.map fun p => p.time + p.retractTime pl.retraction).sum

/-- The length of all extrusion moves of a plan. -/
def Plan.extrusion (pl : Plan) : ℚ := (pl.paths.map fun p => if p.width = 0 then 0 else p.lens.sum).sum

/-- The time of the extrusion moves of a plan. -/
def Plan.extrusionTime (pl : Plan) : ℚ := (pl.paths.map fun p => if p.width = 0 then 0 else p.time).sum

/-- The time of the travel moves and retractions of a plan. -/
def Plan.travelTime (pl : Plan) : ℚ :=
  (pl.paths.map fun p => if p.width = 0 then p.time + p.retractTime pl.retraction else 0).sum

/-- The time a layer takes without waiting. -/
def layerTime (plans : List Plan) : ℚ := (plans.map Plan.time).sum

/-- The time the plans of the other extruders take. -/
def othersTime (ext : Nat) (plans : List Plan) : ℚ :=
  (plans.map fun pl => if pl.ext = ext then 0 else pl.time).sum

/-- The time waited in a layer (when the head is lifted, "cool_lift_head"). -/
def layerWait (plans : List Plan) : ℚ := (plans.map Plan.extra).sum

/-- Inputs as the planner makes them: positive speeds, factors and widths, no negative lengths, no estimates yet. -/
structure Path.Fresh (p : Path) : Prop where
  speed : 0 < p.speed
  factor : 0 < p.factor
  small : p.speed * p.factor ≤ dblMax
  lens : ∀ len ∈ p.lens, 0 ≤ len
  est : p.est = {}

/-- The same for a plan. -/
structure Plan.Fresh (pl : Plan) : Prop where
  paths : ∀ p ∈ pl.paths, p.Fresh
  minSpeed : 0 < pl.settings.minSpeed
  distance : 0 ≤ pl.retraction.distance
  retractSpeed : 0 < pl.retraction.speed
  minTime : 0 ≤ pl.settings.minTime
  minTimeOverhang : 0 ≤ pl.settings.minTimeOverhang
  est : pl.est = {}
  extra : pl.extra = 0

/-- `v` is the slowest speed at which the plan extrudes. -/
def Plan.Slowest (pl : Plan) (v : ℚ) : Prop :=
  (∃ p ∈ pl.paths, p.width ≠ 0 ∧ p.speed * p.factor = v) ∧
    ∀ p ∈ pl.paths, p.width ≠ 0 → v ≤ p.speed * p.factor

/-- `t` is the minimum time that applies to a layer: the largest of its extruders'. -/
def MinTime (overhang : Int) (plans : List Plan) (t : ℚ) : Prop :=
  (∃ pl ∈ plans, t = if pl.settings.overhangLength < overhang then pl.settings.minTimeOverhang
    else pl.settings.minTime) ∧
  ∀ pl ∈ plans, (if pl.settings.overhangLength < overhang then pl.settings.minTimeOverhang
    else pl.settings.minTime) ≤ t

/-- The same moves at the same speed. -/
structure Path.Same (p q : Path) : Prop where
  width : q.width = p.width
  lens : q.lens = p.lens
  retract : q.retract = p.retract
  speed : q.speed * q.factor = p.speed * p.factor

/-- A plan that was left alone: the same moves at the same speeds and no wait. -/
structure Plan.Same (a b : Plan) : Prop where
  ext : b.ext = a.ext
  paths : List.Forall₂ Path.Same a.paths b.paths
  extra : b.extra = a.extra

/-- The same moves; travels keep their speed and extrusions have a speed for which `ok` holds. -/
structure Path.Slowed (ok : ℚ → ℚ → Prop) (p q : Path) : Prop where
  width : q.width = p.width
  lens : q.lens = p.lens
  retract : q.retract = p.retract
  travel : p.width = 0 → q.speed * q.factor = p.speed * p.factor
  extrusion : p.width ≠ 0 → ok (p.speed * p.factor) (q.speed * q.factor)

end Verif.Cooling
