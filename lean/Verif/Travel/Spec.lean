import Verif.Travel.Model

/-! # What is expected of a plan -/

namespace Verif.Travel

variable {C M : Type}

/-! ## The route -/

/-- A line that is printed: with which extruder, from where to where, and how. -/
structure Seg (C M : Type) where
  extruder : Nat
  from' : Option P3
  to' : P3
  kind : Kind C M

/-- Where the nozzle is, and what was printed. -/
abbrev Acc (C M : Type) := Option P3 × List (Seg C M)

/-- The points of a path are followed. -/
def walkPoints (travel : Bool) (nr : Nat) (k : Kind C M) : List P3 → Acc C M → Acc C M
  | [], a => a
  | p :: ps, a => walkPoints travel nr k ps (some p, if travel then a.2 else a.2 ++ [⟨nr, a.1, p, k⟩])

/-- The paths of an extruder are followed; the last one is the first in the list. -/
def walkPaths (isTravel : C → Bool) (nr : Nat) : List (Path C M) → Acc C M → Acc C M
  | [], a => a
  | p :: ps, a => walkPoints (isTravel p.kind.config) nr p.kind p.points (walkPaths isTravel nr ps a)

/-- Where an extruder starts. -/
def entered (t : Tool) (pos : Option P3) : Option P3 :=
  if t.startAbs then some (t.startPos.add t.offset).up else pos.map fun q => (t.startPos.add q.flat).up

/-- All is followed, one extruder after the other; the last one is the first in the list. -/
def walkPlans (isTravel : C → Bool) (tool : Nat → Tool) : List (Plan C M) → Acc C M
  | [] => (none, [])
  | [p] => walkPaths isTravel p.extruder p.paths (none, [])
  | p :: q :: ps =>
    let a := walkPlans isTravel tool (q :: ps)
    walkPaths isTravel p.extruder p.paths (entered (tool p.extruder) a.1, a.2)

/-- What was asked for: the place, the extruder, the mesh, and what is to be printed. -/
structure Asked (C M : Type) where
  pos : Option P3
  extruder : Nat
  mesh : Option M
  segs : List (Seg C M)

/-- Where an extruder is left. -/
def leftAt (t : Tool) (pos : Option P3) : Option P3 :=
  if t.endAbs then some (t.endPos.add t.offset).up else pos.map fun q => (t.endPos.add q.flat).up

def ask (env : Env C M) (a : Asked C M) : Op C M → Asked C M
  | .travel p _ _ => { a with pos := some p.up }
  | .simple p => { a with pos := some p.up }
  | .extrude e =>
    { a with pos := some e.to', segs := a.segs ++ [⟨a.extruder, a.pos, e.to', ⟨e.config, env.zOf e.config, a.mesh, e.flow, e.width, e.speed⟩⟩] }
  | .newPath => a
  | .prime l => { a with pos := some (((a.pos.map P3.flat).getD (env.start a.extruder)).add ⟨0, l⟩).up }
  | .inside _ => a
  | .mesh m => { a with mesh := m }
  | .extruder n => if n = a.extruder then a else { a with pos := entered (env.tool n) (leftAt (env.tool a.extruder) a.pos), extruder := n }

/-- Travels are told from prints by their configuration. -/
def Op.Ok (isTravel : C → Bool) : Op C M → Prop
  | .extrude e => isTravel e.config = false
  | _ => True

/-- What does not move anything. -/
def Op.Still : Op C M → Prop
  | .newPath => True
  | .inside _ => True
  | .mesh _ => True
  | _ => False

/-! ## Retraction -/

/-- A travel is too short for a retraction. -/
def Short (q p : P2) (least : Int) : Prop := 0 ≤ least ∧ (q.x - p.x) ^ 2 + (q.y - p.y) ^ 2 ≤ least ^ 2

/-- The length of a travel by way of points. -/
def routeLen (len : P2 → Int) : P2 → List P2 → P2 → Int
  | q, [], p => len (q.sub p)
  | q, d :: ds, p => len (q.sub d) + routeLen len d ds p

/-- There is a way inside of the model. -/
def CombRes.Leads (r : CombRes) : Prop := ∃ c ∈ r.paths, c.1 ≠ []

/-- The way leaves the model: it has several parts, goes through air, crosses a boundary, or is too close to it. -/
def CombRes.Leaves (r : CombRes) : Prop := 1 < r.paths.length ∨ r.air = true ∨ r.retracted = true ∨ ∃ c ∈ r.paths, c.2 = true

/-- Whether a way inside of the model is looked for, and found: not if it is off, and not after a switch of extruders with a hop. -/
def Combed (env : Env C M) (st : State C M) (first : Bool) (q p : P2) : Prop :=
  env.comb = true ∧ ¬ (first = true ∧ (st.earlier ≠ [] ∨ env.prevExtruder ≠ st.cur.extruder) ∧ (env.sets st.mesh st.cur.extruder).hopAfterSwitch = true) ∧
    (env.combCalc st.wasInside st.inside q p st.mesh st.cur.extruder).ok = true

/-- All paths, in the order in which they are printed. -/
def State.paths (st : State C M) : List (Nat × Path C M) :=
  (st.earlier.reverse ++ [st.cur]).flatMap fun pl => pl.paths.reverse.map fun p => (pl.extruder, p)

end Verif.Travel
