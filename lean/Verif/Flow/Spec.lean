import Verif.Flow.Model

/-! # Specification for gradual flow

What a printer does with a list of paths: the moves it makes, with their speeds, and the flow of each path. -/

namespace Verif.Flow

/-- A straight move of the nozzle. Where the first move of a plan comes from is not known. -/
structure Move where
  src : Option Pt
  dst : Pt
  data : Data
  /-- mm/s -/
  speed : ℚ
deriving DecidableEq

/-- The moves to a list of points. -/
def movesTo (d : Data) (v : ℚ) : Option Pt → List Pt → List Move
  | _, [] => []
  | pos, q :: rest => ⟨pos, q, d, v⟩ :: movesTo d v (some q) rest

/-- Where the nozzle is after moving to all points. -/
def posAfter (pos : Option Pt) (points : List Pt) : Option Pt :=
  match points.getLast? with
  | some q => some q
  | none => pos

/-- The moves of a list of paths: every point is reached with the configured speed times the speed factor. -/
def moves : Option Pt → List GPath → List Move
  | _, [] => []
  | pos, p :: rest => movesTo p.data (p.speed * p.data.factor) pos p.points ++ moves (posAfter pos p.points) rest

/-- The volume (µm³) extruded per µm. -/
def volume (d : Data) : ℚ := d.flow * d.width * d.thickness * d.ratio

/-- The volume (µm³) extruded per second. -/
def GPath.flow (p : GPath) : ℚ := volume p.data * (p.speed * p.data.factor * 1000)

/-- The length of a route. -/
def routeLength (len : Pt → Pt → ℚ) (points : List Pt) : ℚ := ((points.zip points.tail).map fun s => len s.1 s.2).sum

/-- `m` lies between `a` and `b`, whichever is larger. -/
def Mid (a m b : Int) : Prop := a ≤ m ∧ m ≤ b ∨ b ≤ m ∧ m ≤ a

/-- `q` lies in the box with the corners `a` and `b`. -/
def Between (a q b : Pt) : Prop := Mid a.x q.x b.x ∧ Mid a.y q.y b.y ∧ Mid a.z q.z b.z

/-- In every coordinate `q` is at most `e` away from one point on the line from `a` to `b`. -/
def Near (e : ℚ) (a b q : Pt) : Prop :=
  ∃ r : ℚ, 0 ≤ r ∧ r ≤ 1 ∧ |(q.x : ℚ) - (a.x + r * (b.x - a.x))| ≤ e ∧ |(q.y : ℚ) - (a.y + r * (b.y - a.y))| ≤ e ∧
    |(q.z : ℚ) - (a.z + r * (b.z - a.z))| ≤ e

/-- The moves lead from `a` to `b` without ever turning back in any coordinate. -/
inductive Leads : Option Pt → Pt → List Move → Prop
  | last (m : Move) : Leads m.src m.dst [m]
  | step {a b : Pt} (m : Move) {rest : List Move} (hsrc : m.src = some a) (hmid : Between a m.dst b)
      (h : Leads (some m.dst) b rest) : Leads (some a) b (m :: rest)

/-- What a move may be replaced with: moves of the same kind that lead from its start to its end, not faster, and
on its line up to rounding (one unit for every split). A move without flow stays as it is. -/
structure Pieces (m : Move) (g : List Move) : Prop where
  leads : Leads m.src m.dst g
  data : ∀ x ∈ g, x.data = m.data
  speed : ∀ x ∈ g, 0 < x.speed ∧ x.speed ≤ m.speed
  near : ∀ x ∈ g, ∀ a, m.src = some a → Near (g.length - 1) a m.dst x.dst
  travel : volume m.data ≤ 0 → g = [m]

/-- The paths of a plan together with the place where each of them starts. -/
def starts : Option Pt → List GPath → List (Option Pt × GPath)
  | _, [] => []
  | pos, p :: rest => (pos, p) :: starts (posAfter pos p.points) rest

/-- A travel after which the flow may start anew: with retraction, or of more than `reset` seconds. -/
def Interrupts (len : Pt → Pt → ℚ) (reset : ℚ) (x : Option Pt × GPath) : Prop :=
  x.2.data.retract = true ∨
    reset < routeLength len (x.1.toList ++ x.2.points) / (x.2.speed * x.2.data.factor * 1000)

/-- What the code expects of the paths: they are not slower than the nozzle can be, and extrude nothing negative. -/
def GPath.Sane (p : GPath) : Prop := 0 < p.speed * p.data.factor ∧ 0 ≤ volume p.data

/-- What the code expects of the distance of two points. -/
structure IsDist (len : Pt → Pt → ℚ) : Prop where
  nonneg : ∀ a b, 0 ≤ len a b
  symm : ∀ a b, len a b = len b a

end Verif.Flow
