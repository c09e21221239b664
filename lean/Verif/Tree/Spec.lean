import Verif.Tree.Model
import Verif.Support.Spec

/-! # What is expected of the areas that branches avoid -/

namespace Verif.Tree

open Verif.Volumes (Point Region)
open Verif.Support (dist2 Disk Near)

/-- What is assumed of the operations on areas. An offset outwards covers all points within the distance. An offset inwards with rounded joins
removes no point that is further from the outside than the distance and two micron. The simplification removes no point that is further than `dev`
from the outside. -/
structure Ops.Ok (ops : Ops) (dev : ℚ) : Prop where
  nonneg : 0 ≤ dev
  grow : ∀ (d : Int) r, 0 ≤ d → Near d r ⊆ ops.offset d r
  round : ∀ (d : Int) r, 0 ≤ d → Near d r ⊆ ops.round d r
  shrink : ∀ (d : Int) r p, 0 ≤ d → Disk (d + 2) p ⊆ r → p ∈ ops.round (-d) r
  simplify : ∀ r p, Disk dev p ⊆ r → p ∈ ops.simplify r

/-- What is assumed of them in the other direction: an offset outwards with mitered corners covers no point further away than twice the distance, an
offset inwards leaves no point closer to the outside than the distance, and the simplification adds no point further away than `dev`. -/
structure Ops.Tight (ops : Ops) (dev : ℚ) : Prop where
  grown : ∀ (d : Int) r, 0 ≤ d → ops.offset d r ⊆ Near (2 * d) r
  shrunk : ∀ (d : Int) r p, 0 ≤ d → p ∈ ops.offset (-d) r → Disk d p ⊆ r
  simplified : ∀ r, ops.simplify r ⊆ Near dev r

/-- Settings that make sense. -/
structure Config.Ok (c : Config) : Prop where
  radius0 : 0 < c.radius0
  full : 0 < c.full
  delta : 0 ≤ c.delta

/-- The point is further than a distance from an area, if the distance is one. -/
def Far (d : ℚ) (a : Region) (p : Point) : Prop := 0 ≤ d → ∀ q ∈ a, d ^ 2 < dist2 p q

/-- A branch with a radius around a point of a layer keeps its distances, up to a tolerance: sideways from the models on the layer and from the
border of the build volume, from the models on the layers above and below, except for the first layer, and it does not touch support blockers. -/
structure Clear (c : Config) (tol : ℚ) (r : ℚ) (l : Nat) (p : Point) : Prop where
  here : ∀ g ∈ c.groups, l < g.layers → Far (r + g.xy - tol) (g.outline l) p
  border : ∀ g ∈ c.groups, Far (r + g.xy - tol) c.border p
  below : ∀ g ∈ c.groups, ∀ k, 1 ≤ k → k ≤ g.bottom → k < l → l - k < g.layers → Far (r + g.xy - tol) (g.outline (l - k)) p
  above : ∀ g ∈ c.groups, ∀ k, 1 ≤ k → k ≤ g.top → l + k < g.layers → Far (r + required g.xy g.top k - tol) (g.outline (l + k)) p
  blocker : l < c.antiLayers → c.groups ≠ [] → Far (r - tol) (c.anti l) p

/-- There is a way down from a point of a layer to the first layer: from layer to layer it moves by at most a distance, and it is allowed
everywhere. -/
def WayDown (move : ℚ) (ok : Nat → Point → Prop) (l : Nat) (p : Point) : Prop :=
  ∃ way : Nat → Point, way l = p ∧ (∀ i ≤ l, ok i (way i)) ∧ ∀ i < l, dist2 (way (i + 1)) (way i) ≤ move ^ 2

/-- There is a way down to the first layer or to a place above it where the branch can rest. -/
def WayToRest (move : ℚ) (ok rest : Nat → Point → Prop) (l : Nat) (p : Point) : Prop :=
  ∃ (e : Nat) (way : Nat → Point), e ≤ l ∧ way l = p ∧ (∀ i, e < i → i ≤ l → ok i (way i)) ∧
    (e = 0 ∧ ok 0 (way 0) ∨ 0 < e ∧ rest e (way e)) ∧ ∀ i, e ≤ i → i < l → dist2 (way (i + 1)) (way i) ≤ move ^ 2

/-- A branch with a radius around a point of a layer stands on a model: up to a tolerance every point of it is over the outline of the models one layer
below, or of a layer further below that is kept free, or at the border of the build volume, and the models on the layer are not in the way. -/
def Stands (c : Config) (tol r : ℚ) (l : Nat) (p : Point) : Prop :=
  ∀ y ∈ Disk r p, ∃ w, dist2 y w ≤ tol ^ 2 ∧ ∃ g ∈ c.groups,
    (∃ j, j ≤ g.bottom ∧ j < l ∧ w ∈ Near (2 * g.xy) (c.border ∪ g.outline (l - 1 - j))) ∧ (l < g.layers → w ∉ Near g.xy (g.outline l))

/-- The distance a branch may move per layer. -/
def moveOf (c : Config) (kind : Kind) : ℚ := if kind = .slow then c.slow else c.move

/-- A request for an avoidance area. -/
structure Request where
  radius : Int
  layer : Nat
  kind : Kind
  toModel : Bool
  minXy : Bool

/-- The areas that are kept after some requests. -/
inductive After (c : Config) : List Request → Cache → Prop
  | start : After c [] []
  | request {qs : List Request} {m m' : Cache} {q : Request} {a : Region} : After c qs m →
      getAvoidance c m q.radius q.layer q.kind q.toModel q.minXy = some (a, m') → After c (qs ++ [q]) m'

/-- The radius that the branch has with the distance that is added to it. -/
def Request.size (c : Config) (q : Request) : ℚ := q.radius + if q.minXy then 0 else (c.delta : ℚ)

end Verif.Tree
