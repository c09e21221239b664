import Verif.Volumes.Model

/-! # Specification of overlapping models, cutting meshes and infill meshes (C65, C66, C67) -/

namespace Verif.Volumes

open Verif.Box (AABB AABB3D)

/-- The point lies in the box, borders included; `z` is the height at which the layer is sliced. -/
def Within (b : AABB3D) (p : Point) (z : Int) : Prop :=
  (b.min.x : Rat) ≤ p.1 ∧ p.1 ≤ b.max.x ∧ (b.min.y : Rat) ≤ p.2 ∧ p.2 ≤ b.max.y ∧ b.min.z ≤ z ∧ z ≤ b.max.z

/-- The slices lie in the bounding boxes of their meshes. -/
def Boxed (ms : Nat → Mesh) (n layers : Nat) (s : Slices) : Prop :=
  ∃ z : Nat → Int, ∀ v < n, ∀ l < layers, ∀ p ∈ s v l, Within (ms v).box p (z l)

/-- Which of two overlapping models gets the overlap: the one with the lower order, and of two with the same order the
first one, or on every other layer the last one if the order alternates. -/
def Better (ms : Nat → Mesh) (alternate : Bool) (l v w : Nat) : Prop :=
  (ms v).order < (ms w).order ∨ (ms v).order = (ms w).order ∧ if alternate = true ∧ l % 2 = 0 then w < v else v < w

/-- A mesh that is printed as a model or in a model, so that it can be cut. -/
def Base (m : Mesh) : Prop := m.cutting = false ∧ m.antiOverhang = false ∧ m.force = false ∧ m.support = false

/-- A cutting mesh with its own extruder, which is treated as a model as soon as it has cut. -/
def Recolour (m : Mesh) : Prop :=
  m.cutting = true ∧ m.hasExtruder = true ∧ m.antiOverhang = false ∧ m.force = false ∧ m.support = false

/-- A cutting mesh that keeps what it has cut out. -/
def Keeps (m : Mesh) : Prop := m.cutting = true ∧ ¬ Recolour m

/-- The point lies in the flat box, borders included. -/
def WithinFlat (b : AABB) (p : Point) : Prop :=
  (b.min.x : Rat) ≤ p.1 ∧ p.1 ≤ b.max.x ∧ (b.min.y : Rat) ≤ p.2 ∧ p.2 ≤ b.max.y

/-- A part lies in its bounding box, with its infill area. -/
def Part.Ok (p : Part) : Prop := (∀ x ∈ p.outline, WithinFlat p.box x) ∧ ∀ x ∈ p.own, WithinFlat p.box x

/-- The outline of a mesh on a layer. -/
def outlineOf (m : List Part) : Region := {x | ∃ q ∈ m, x ∈ q.outline}

/-- The infill areas of some meshes on a layer. -/
def infills (ms : List (List Part)) : List Region := ms.flatten.map Part.own

open Classical in
/-- In how many of the areas a point lies. -/
noncomputable def times (p : Point) : List Region → Nat
  | [] => 0
  | r :: rs => (if p ∈ r then 1 else 0) + times p rs

/-- What the rest of the generation of a layer must do: no part is made where there is no outline, and the infill of a
part is in its bounding box. -/
def WallsOk (walls : Nat → List Region → List Part) : Prop :=
  ∀ i rs, (∀ q ∈ walls i rs, q.Ok) ∧ ∀ p, times p ((walls i rs).map Part.own) ≤ times p rs

end Verif.Volumes
