import Mathlib.Data.Rat.Floor
import Mathlib.Data.List.Basic
import Mathlib.Data.List.Chain
import Mathlib.Data.Set.Basic

/-! # Slowing down over overhangs: what should be printed

A straight piece of a wall goes from a point (at 0) to another one (at 1). A region is known by the points of the line that are in it. -/

namespace Verif.Overhang

/-- A point. -/
structure P3 where
  x : Int
  y : Int
  z : Int
deriving DecidableEq, Repr

/-- A region with a speed: `has t` tells whether the point at `t` is in it (also if it is on the border), `cuts` is where the border crosses the line. -/
structure Reg where
  has : ℚ → Bool
  cuts : List ℚ
  speed : ℚ

/-- A move that is added to the plan: its end, as a point and as a place on the line, and the factor of the speed. -/
structure Move where
  param : ℚ
  position : P3
  factor : ℚ
deriving DecidableEq, Repr

namespace Spec

/-- The square of the distance. -/
def dist2 (a b : P3) : Int := (a.x - b.x) ^ 2 + (a.y - b.y) ^ 2 + (a.z - b.z) ^ 2

/-- The point at `t` is in the region `i` (counted from the best supported one), and in none before it. The last region is everywhere. -/
def InRegion (ms : List Reg) (t : ℚ) (i : Nat) : Prop :=
  ∃ r, ms[i]? = some r ∧ (i + 1 < ms.length → r.has t = true) ∧ ∀ j s, j < i → ms[j]? = some s → s.has t = false

/-- The region ends and begins at its cuts only, and at each one of them. The line does not begin or end on the border. -/
structure Faithful (r : Reg) : Prop where
  inner : ∀ c ∈ r.cuts, 0 < c ∧ c < 1
  same : ∀ s t, 0 ≤ s → s ≤ t → t ≤ 1 → (∀ c ∈ r.cuts, ¬ (s ≤ c ∧ c ≤ t)) → r.has s = r.has t
  change : ∀ c ∈ r.cuts, ∀ s t, 0 ≤ s → s < c → c < t → t ≤ 1 → (∀ d ∈ r.cuts, s ≤ d → d ≤ t → d = c) → r.has t = !r.has s

/-- All regions but the last one are described faithfully, each one contains the one before, and their borders do not meet on the line. -/
structure Regions (ms : List Reg) : Prop where
  nonempty : ms ≠ []
  faithful : ∀ i r, i + 1 < ms.length → ms[i]? = some r → Faithful r
  nested : ∀ i r s, i + 2 < ms.length → ms[i]? = some r → ms[i + 1]? = some s → ∀ t, 0 ≤ t → t ≤ 1 → r.has t = true → s.has t = true
  apart : ∀ i r s, i + 2 < ms.length → ms[i]? = some r → ms[i + 1]? = some s → ∀ c, c ∈ r.cuts → c ∉ s.cuts

/-- No border of a region (the last one has none) crosses the line between two places. -/
def Clear (ms : List Reg) (a b : ℚ) : Prop := ∀ i r, i + 1 < ms.length → ms[i]? = some r → ∀ c ∈ r.cuts, ¬ (a < c ∧ c < b)

/-- With which factor the place `t` is printed: that of the first move that reaches it. -/
def factorAt (moves : List Move) (t : ℚ) : Option ℚ := (moves.find? fun m => decide (t ≤ m.param)).map Move.factor

/-- The speed for a point that is in the regions for some angles: the first one that has it, and the last speed if none has it. The first one has full speed. -/
def speedAt (supported : ℚ → Prop) (first : ℚ) (angles : List (ℚ × ℚ)) (last s : ℚ) : Prop :=
  (supported first ∧ s = 1)
  ∨ (¬ supported first ∧ ∃ before a f after, angles = before ++ (a, f) :: after ∧ (∀ b ∈ before, ¬ supported b.1) ∧ supported a ∧ s = f)
  ∨ (¬ supported first ∧ (∀ b ∈ angles, ¬ supported b.1) ∧ s = last)

/-- The lengths of all uninterrupted overhangs, given the moves of walls with their lengths and whether they overhang; the first one is `cur` longer. -/
def runs (cur : Nat) : List (Nat × Bool) → List Nat
  | [] => [cur]
  | (l, true) :: ms => runs (cur + l) ms
  | (_, false) :: ms => cur :: runs 0 ms

/-- The longest overhang. -/
def longest (ms : List (Nat × Bool)) : Nat := (runs 0 ms).foldr max 0

end Spec

end Verif.Overhang
