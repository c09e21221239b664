import Verif.Tree.IncModel
import Verif.Tree.Spec

/-! # What is expected of offsets in steps -/

namespace Verif.Tree

open Verif.Volumes (Point Region)
open Verif.Support (dist2 Disk Near)

/-- What is assumed of the operations: an offset outwards with rounded joins covers the points within the distance and no others, and the
simplification adds no point further away than `dev`. -/
structure Ops.Round (ops : Ops) (dev : ℚ) : Prop where
  nonneg : 0 ≤ dev
  grows : ∀ (d : Nat) r, Near d r ⊆ ops.round d r
  grown : ∀ (d : Nat) r, ops.round d r ⊆ Near d r
  simplified : ∀ r, ops.simplify r ⊆ Near dev r

/-- There is a path of `n` hops from an area to a point: no hop is longer than `s`, and each ends outside of a wall, up to `dev`. -/
def Hops (s dev : ℚ) (wall : Region) (n : Nat) (start : Region) (p : Point) : Prop :=
  ∃ path : Nat → Point, path 0 ∈ start ∧ path n = p ∧
    ∀ i < n, dist2 (path i) (path (i + 1)) ≤ s ^ 2 ∧ path (i + 1) ∈ Near dev {q | q ∉ wall}

/-- A point of the segment between two points. -/
def onWay (q p : Point) (t : ℚ) : Point := (q.1 + t * (p.1 - q.1), q.2 + t * (p.2 - q.2))

end Verif.Tree
