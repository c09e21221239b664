import Verif.Coasting.Model
import Mathlib.Algebra.BigOperators.Group.List.Basic

/-! # Specification of coasting (C100) -/

namespace Verif.Coasting
section
variable {X : Type}

/-- A stretch of a plan: paths with extrusion that follow each other without a travel, with the plan before and behind it. -/
structure Stretch (plan before stretch after : List (Path X)) : Prop where
  eq : plan = before ++ stretch ++ after
  nonempty : stretch ≠ []
  extrudes : ∀ p ∈ stretch, p.travel = false
  left : ∀ p, before.getLast? = some p → p.travel = true
  right : ∀ p, after.head? = some p → p.travel = true

/-- A segment: from where to where, the volume per length the coasting is calculated with, and the width factor. -/
structure Seg (X : Type) where
  src : X
  dst : X
  rate : ℚ
  width : ℚ

/-- The segments of paths that begin at a position. -/
def segs (x : X) (stretch : List (Path X)) : List (Seg X) :=
  let points := stretch.flatMap fun p => p.points.map fun q => (q, p.rate, p.width)
  List.zipWith (fun a b => ⟨a, b.1, b.2.1, b.2.2⟩) (x :: points.map (·.1)) points

/-- The position at which paths end. -/
def endOf (x : X) (paths : List (Path X)) : X := (paths.flatMap (·.points)).getLastD x

/-- The volume of segments, with and without their width factor. -/
def nominal (G : Geo X) (l : List (Seg X)) : ℚ := (l.map fun s => G.len s.src s.dst * s.rate).sum
def volume (G : Geo X) (l : List (Seg X)) : ℚ := (l.map fun s => G.len s.src s.dst * (s.rate * s.width)).sum

def extrudeAll (l : List (Seg X)) : List (Move X) := l.map fun s => .extrude s.dst (s.rate * s.width)
def travelAll (l : List (Seg X)) : List (Move X) := l.map fun s => .travel s.dst

/-- The segments are extruded up to a point at the ratio `t` of the segment `s`; from there to the end the nozzle moves on without
extruding, and the nominal volume `v` is left out. -/
structure CoastedFrom (G : Geo X) (l : List (Seg X)) (v : ℚ) (out : List (Move X)) (a : List (Seg X)) (s : Seg X) (b : List (Seg X)) (t : ℚ) : Prop where
  eq : l = a ++ s :: b
  lower : 0 ≤ t
  upper : t ≤ 1
  out : out = extrudeAll a ++ .extrude (G.lerp s.src s.dst t) (s.rate * s.width) :: travelAll (s :: b)
  left : (1 - t) * (G.len s.src s.dst * s.rate) + nominal G b = v

end
end Verif.Coasting
