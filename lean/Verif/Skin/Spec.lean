import Verif.Skin.Model
import Verif.Volumes.Spec
import Mathlib.Algebra.BigOperators.Group.Finset.Basic

/-! # Specification of skin and infill areas (C68 to C73) -/

namespace Verif.Skin

open Verif.Box (AABB)
open Verif.Volumes (Point Region WithinFlat)

/-- What is assumed of the operations on areas: outwards offsets only add, inwards offsets and the removal of small
areas only remove, and an area that is large enough is also kept as part of a larger one. -/
structure Ops.Ok (ops : Ops) : Prop where
  grow : ∀ d r, 0 ≤ d → r ⊆ ops.offset d r
  shrink : ∀ d r, d ≤ 0 → ops.offset d r ⊆ r
  miterGrow : ∀ d r, 0 ≤ d → r ⊆ ops.miter d r
  miterShrink : ∀ d r, d ≤ 0 → ops.miter d r ⊆ r
  small : ∀ r, ops.small r ⊆ r
  smallMono : ∀ r s, r ⊆ s → ops.small r ⊆ ops.small s
  smallInfill : ∀ r, ops.smallInfill r ⊆ r
  thin : ∀ r, ops.thin r ⊆ r

/-- The parts lie in their bounding boxes, and their inner areas (inside of the walls) in their outlines. -/
def MeshOk (layers : List (List Part)) : Prop :=
  ∀ m ∈ layers, ∀ q ∈ m, q.inner ⊆ q.outline ∧ ∀ p ∈ q.outline, WithinFlat q.box p

/-- The mesh is there on the layer. -/
def Solid (layers : List (List Part)) (l : Nat) (p : Point) : Prop := ∃ q ∈ layers.getD l [], p ∈ q.outline

/-- Less than `top` layers below a surface, less than `bottom` layers above one, or in the first layers. -/
def Exposed (top bottom initial : Nat) (layers : List (List Part)) (l : Nat) : Region :=
  {p | l < initial ∨ (∃ k, 1 ≤ k ∧ k ≤ top ∧ ¬ Solid layers (l + k) p) ∨
    ∃ k, 1 ≤ k ∧ k ≤ bottom ∧ k ≤ l ∧ ¬ Solid layers (l - k) p}

/-- The gaps in an area inside `inner` that are narrower than four lines, widened by 5 micrometres. -/
def nearGaps (ops : Ops) (lineWidth : Int) (inner r : Region) : Region :=
  ops.offset 5 ((ops.offset (-(lineWidth * 2) - 5) (ops.offset (lineWidth * 2) r) \ r) ∩ (inner \ r))

/-- All of the next `n` layers above are there. -/
def SolidAbove (layers : List (List Part)) (l n : Nat) (p : Point) : Prop := ∀ k, 1 ≤ k → k ≤ n → Solid layers (l + k) p

/-- All of the next `n` layers below are there, or there are not that many above the build plate. -/
def SolidBelow (layers : List (List Part)) (l n : Nat) (p : Point) : Prop :=
  l < n ∨ ∀ k, 1 ≤ k → k ≤ n → Solid layers (l - k) p

/-! ## Infill -/

/-- There is infill of the mesh on the layer. -/
def Filled (layers : List (List InfillPart)) (l : Nat) (p : Point) : Prop := ∃ q ∈ layers.getD l [], p ∈ q.own

/-- The infill lies in the bounding boxes of the parts. -/
def InfillOk (layers : List (List InfillPart)) : Prop := ∀ m ∈ layers, ∀ q ∈ m, ∀ p ∈ q.own, WithinFlat q.box p

/-- There is infill on all of the next `n` layers. -/
def FilledAbove (layers : List (List InfillPart)) (l n : Nat) (p : Point) : Prop :=
  ∀ j, 1 ≤ j → j ≤ n → Filled layers (l + j) p

open Classical in
/-- The density of the lines at a point, compared with lines at the distance `base`: the sum over all patterns there. -/
noncomputable def density (base : Nat) (p : Point) : List (Region × Nat) → Rat
  | [] => 0
  | (r, d) :: rest => (if p ∈ r then (base : Rat) / d else 0) + density base p rest

/-- What is printed on layer `L` that fills the height of layer `l` too: the number of an area in `combine` is the
number of layers below its own that it fills. -/
def covering (l L : Nat) (parts : List CombinePart) : List Region :=
  if l ≤ L then parts.flatMap fun q => q.combine.drop (L - l) else []

/-- How many times the infill of layer `l` is filled at a point. -/
noncomputable def fills (p : Point) (l : Nat) (layers : List (List CombinePart)) : Nat :=
  ∑ L ∈ Finset.range layers.length, Volumes.times p (covering l L (layers.getD L []))

/-- Nothing was combined yet, and the whole infill area of the part is its own. -/
def CombinePart.Fresh (q : CombinePart) : Prop := q.combine = [q.area]

end Verif.Skin
