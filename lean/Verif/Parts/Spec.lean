import Mathlib.Data.List.Perm.Basic
import Mathlib.Data.Int.Notation
import Mathlib.Data.Nat.Notation
import Mathlib.Algebra.BigOperators.Group.List.Basic
import Mathlib.Algebra.Ring.Int.Defs

/-! # Specification of an area that is split into parts -/

namespace Verif.Parts.Spec

/-- Contours with the contours directly inside of them, as Clipper gives them (`ClipperLib::PolyNode`): the outer ones are
outlines, the contours in them are holes, the contours in holes are outlines again, and so on. -/
inductive Node (α : Type) where
  | node (contour : α) (children : List (Node α))

variable {α : Type}

/-- The contour of a node. -/
def Node.contour : Node α → α
  | .node c _ => c

mutual

/-- All contours of some trees. -/
def contours : List (Node α) → List α
  | [] => []
  | n :: rest => contoursOf n ++ contours rest

/-- All contours of a tree. -/
def contoursOf : Node α → List α
  | .node c children => c :: contours children

end

mutual

/-- How the contours are around a point, given by those that contain it: a contour around it is in a contour around it, and
of contours side by side at most one is around it. -/
def Nested (around : α → Bool) : List (Node α) → Prop
  | [] => True
  | n :: rest => (around n.contour = true → ∀ m ∈ rest, around m.contour = false) ∧ NestedIn around n ∧ Nested around rest

/-- The same for what is in a contour. -/
def NestedIn (around : α → Bool) : Node α → Prop
  | .node c children => (around c = false → ∀ m ∈ children, around m.contour = false) ∧ Nested around children

end

/-- A part consists of an outline and its holes; a point is in it if it is in the outline and in no hole. -/
def inPart (around : α → Bool) : List α → Bool
  | [] => false
  | outline :: holes => around outline && holes.all fun h => !around h

/-- A closed outline: the direction in which it goes round, and how often it goes round each point. -/
structure Poly (P : Type) where
  orientation : Bool
  winding : P → ℤ
  empty : Bool

variable {P : Type}

/-- An outline that does not cross itself: it goes round each point once, in its direction, or not at all. -/
def Simple (q : Poly P) : Prop := ∀ p, q.winding p = 0 ∨ q.winding p = if q.orientation then 1 else -1

/-- The outline is around the point. -/
def isAround (p : P) (q : Poly P) : Bool := decide (q.winding p ≠ 0)

/-- The points to be filled, for the settings "Remove all holes" and "Union overlapping volumes": with the first, all that are
in some outline; with the second, all that outlines go round, where those of the other direction count as negative; with
neither, those in an odd number of outlines. -/
def Filled (removeHoles union : Bool) (polys : List (Poly P)) (p : P) : Prop :=
  if removeHoles then ∃ q ∈ polys, isAround p q = true
  else if union then (polys.map fun q => q.winding p).sum ≠ 0
  else (polys.countP (isAround p)) % 2 = 1

/-- What Clipper promises of a union: contours nested in each other, with a point in an odd number of them exactly if it is
to be filled by the rule, which is that its winding number is not zero or that it is odd. -/
def Unites (clip : Bool → List (Poly P) → List (Node (Poly P))) : Prop :=
  ∀ nonZero polys p, Nested (isAround p) (clip nonZero polys) ∧
    ((contours (clip nonZero polys)).countP (isAround p) % 2 = 1 ↔
      if nonZero then (polys.map fun q => q.winding p).sum ≠ 0 else (polys.map fun q => q.winding p).sum % 2 = 1)

end Verif.Parts.Spec
