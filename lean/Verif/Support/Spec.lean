import Verif.Support.Model

/-! # Specification of support (C74 to C82) -/

namespace Verif.Support

open Verif.Volumes (Point Region times)

/-- The square of the distance of two points. -/
def dist2 (p q : Point) : Rat := (p.1 - q.1) ^ 2 + (p.2 - q.2) ^ 2

/-- The points within a distance of an area. -/
def Near (d : Rat) (r : Region) : Region := {p | ∃ q ∈ r, dist2 p q ≤ d ^ 2}

/-- The points within a distance of a point. -/
def Disk (d : Rat) (p : Point) : Region := {q | dist2 p q ≤ d ^ 2}

/-- What is assumed of the operations on areas. An offset outwards covers all points within the distance, and with
mitered corners no point further away than twice the distance. An offset inwards removes nothing that is further from the
border than twice the distance, and if it is followed by the same offset outwards nothing is added. The removal of small
areas keeps points that have a disk with the radius `keep` around them. -/
structure Ops.Ok (ops : Ops) (keep : Rat) : Prop where
  grow : ∀ (d : Int) r, 0 ≤ d → Near d r ⊆ ops.offset d r
  grown : ∀ (d : Int) r, 0 ≤ d → ops.offset d r ⊆ Near (2 * d) r
  shrink : ∀ (d : Int) r, 0 ≤ d → ops.offset (-d) r ⊆ r
  shrunk : ∀ (d : Int) r p, 0 ≤ d → Disk (2 * d) p ⊆ r → p ∈ ops.offset (-d) r
  opening : ∀ (d : Int) r, 0 ≤ d → ops.offset d (ops.offset (-d) r) ⊆ r
  small : ∀ a r, ops.small a r ⊆ r
  large : ∀ a r p, Disk keep p ⊆ r → p ∈ ops.small a r

/-- Settings that make sense. -/
structure Config.Ok (c : Config) : Prop where
  height : 0 < c.height
  xy : 0 ≤ c.xy
  xyOverhang : 0 ≤ c.xyOverhang
  minWall : 0 ≤ c.minWall
  stairWidth : 0 ≤ c.stairWidth

/-- No two models overlap in the point. -/
def Single (models : List Region) (p : Point) : Prop := times p models ≤ 1

/-- There is no model within a distance of the point. -/
def Free (d : Rat) (models : List Region) (p : Point) : Prop := ∀ q ∈ solid models, d ^ 2 < dist2 p q

/-- How many layers below a layer can hold it up without support. -/
def OverhangConfig.depth (c : OverhangConfig) : Nat := max 1 c.below

/-- The mesh is on the layer, everywhere within a distance of the point, and overhangs there: the models on the layers
below are too far away, and there is no support blocker. An offset may reach twice its distance. -/
structure Overhanging (c : OverhangConfig) (models : Nat → List Region) (own anti : Nat → Region) (d : Rat) (m : Nat)
    (p : Point) : Prop where
  above : 0 < m
  here : Disk d p ⊆ own m
  below : ∀ k, 1 ≤ k → k ≤ c.depth → k ≤ m → Free (d + 2 * (c.reach * k)) (models (m - k)) p
  allowed : ∀ q ∈ Disk d p, q ∉ anti m

/-- The mesh overhangs in a point: it is further away from the models on the layers below than these can hold up, and
there is no support blocker. -/
def Hangs (c : OverhangConfig) (models : Nat → List Region) (own anti : Nat → Region) (m : Nat) (p : Point) : Prop :=
  p ∈ own m ∧ (∀ k, 1 ≤ k → k ≤ c.depth → k ≤ m → Free (c.reach * k) (models (m - k)) p) ∧ p ∉ anti m

/-- The division into islands: every point is in one of them. -/
def IslandsOk (islands : Region → List Region) : Prop := ∀ r p, times p (islands r) = times p [r]

end Verif.Support
