import Mathlib.Data.List.Basic
import Mathlib.Data.Rat.Floor

/-! # Heights of layers -/

namespace Verif.FirstLayers

/-- A layer of a mesh: the height at which it is printed (that of its top), its thickness, and what is on it. -/
structure Layer where
  z : Int
  thick : Int
  parts : Nat
  deriving DecidableEq, Repr

/-- The settings of heights: of the first layer and the others; the raft's height, the gap above it, and how far all layers but the first are moved down into it. -/
structure Heights where
  first : Int
  other : Int
  raft : Option (Int × Int × Int)

namespace Spec

/-- What the first layer stands on. -/
def ground (h : Heights) : Int :=
  match h.raft with
  | none => 0
  | some (height, gap, _) => height + gap

/-- How far the second layer goes into the first one. -/
def overlap (h : Heights) : Int :=
  match h.raft with
  | none => 0
  | some (_, _, o) => o

/-- The layers stand on the ground and on each other. -/
def Stacked (h : Heights) (l : List Layer) : Prop :=
  (∀ a, l.head? = some a → a.thick = h.first ∧ a.z - a.thick = ground h) ∧
    ∀ i a b, l[i]? = some a → l[i + 1]? = some b → b.thick = h.other ∧ b.z - b.thick = a.z - (if i = 0 then overlap h else 0)

/-- A layer of a print is empty: no mesh has anything on it, and there is no support on it. -/
def EmptyLayer (meshes : List (List Layer)) (support : List Bool) (i : Nat) : Prop :=
  (∀ m ∈ meshes, ∀ a, m[i]? = some a → a.parts = 0) ∧ support[i]? ≠ some true

end Spec

end Verif.FirstLayers
