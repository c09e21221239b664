import Verif.Scarf.Model

/-! # What is expected of the moves along a wall -/

namespace Verif.Scarf

open Verif.Order (Pt)
open Verif.Walls (Junction size)

/-- The vertex after `k` steps from the start, forwards or backwards and around the end. -/
def visited (reversed : Bool) (js : List Junction) (start k : Nat) : Option Junction :=
  js[(((start : Int) + if reversed then -(k : Int) else k) % js.length).toNat]?

/-- Settings that make sense. -/
structure Sane (c : Cfg) : Prop where
  deviation : 1 ≤ c.areaDeviation
  resolution : 1 ≤ c.resolution
  scarfSplit : 1 ≤ c.scarfSplit
  speedSplit : 1 ≤ c.speedSplit

/-- The parts of the line from `a` to `b` that are extruded: one starts where the one before ends, in terms of the share of the line, from 0 to `e`;
each ends in the point at that share of the line, rounded, and its width is between the widths at the ends. -/
structure Covers (a b : Junction) (e : ℚ) (part : List Seg) : Prop where
  some : a.p ≠ b.p → part ≠ []
  none : a.p = b.p → part = []
  first : ∀ s, part.head? = .some s → s.r0 = 0
  next : part.IsChain fun s t => t.r0 = s.r1
  last : ∀ s, part.getLast? = .some s → s.r1 = e
  forward : ∀ s ∈ part, s.r0 < s.r1
  place : ∀ s ∈ part, |(s.b.x : ℚ) - (a.p.x + s.r1 * (b.p.x - a.p.x))| ≤ 1 / 2 ∧ |(s.b.y : ℚ) - (a.p.y + s.r1 * (b.p.y - a.p.y))| ≤ 1 / 2
  exact : e = 1 → ∀ s, part.getLast? = .some s → s.b.x = b.p.x ∧ s.b.y = b.p.y
  width : ∀ s ∈ part, min a.w b.w ≤ s.width ∧ s.width ≤ max a.w b.w
  length : ∀ s ∈ part, ((s.d1 - s.d0 : Int) : ℚ) = (s.r1 - s.r0) * size b.p a.p

/-- Each part starts where the one before ends, and the distances add up. -/
def Connected (p : P3) (segs : List Seg) : Prop :=
  (∀ s, segs.head? = .some s → s.a = p ∧ s.d0 = 0) ∧ segs.IsChain fun s t => t.a = s.b ∧ t.d0 = s.d1

/-- The height along the wall, relative to the layer: a ramp up to the layer. -/
def rampAt (c : Cfg) (d : ℚ) : ℚ := if d < c.scarf then c.drop * (1 - d / c.scarf) else 0

/-- The share of the speed along the wall: a ramp up from the start and a ramp down towards the end. -/
def speedAt (c : Cfg) (d : ℚ) : ℚ :=
  (if d < c.accelerate then c.startSpeed + (1 - c.startSpeed) * (d / c.accelerate) else 1) *
    (if 0 < c.decelerate ∧ c.wallLength - c.decelerate ≤ d then c.endSpeed + (1 - c.endSpeed) * ((c.wallLength - d) / c.decelerate) else 1)

/-- One starts at any vertex of a closed wall, and at one of the ends of an open one. -/
def FromEnd (c : Cfg) (js : List Junction) (start : Nat) : Prop :=
  c.closed = true ∨ c.reversed = false ∧ start = 0 ∨ c.reversed = true ∧ start + 1 = js.length

end Verif.Scarf
