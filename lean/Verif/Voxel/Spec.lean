import Mathlib.Data.Rat.Floor
import Mathlib.Data.Fintype.Basic
import Mathlib.Data.Fintype.Pi

/-! # Voxels: which cells a line crosses -/

namespace Verif.Voxel

/-- A point, or a cell of the grid. -/
abbrev P3 := Fin 3 → Int

namespace Spec

/-- The place on the line from a point in a direction, after a part of the way. -/
def along (start diff : P3) (t : Rat) : Fin 3 → Rat := fun d => start d + t * diff d

/-- A place is in a cell, or on its surface. -/
def In (size cell : P3) (p : Fin 3 → Rat) : Prop := ∀ d, (cell d : Rat) * size d ≤ p d ∧ p d ≤ (cell d + 1) * size d

/-- Two cells that share a face. -/
def Beside (a b : P3) : Prop := ∃ d, (b d = a d + 1 ∨ b d = a d - 1) ∧ ∀ d', d' ≠ d → b d' = a d'

/-- A side of a polygon: from a point to the next one, or from the last one to the first one. -/
def Side {α : Type} (poly : List α) (a b : α) : Prop :=
  (∃ i, poly[i]? = some a ∧ poly[i + 1]? = some b) ∨ (poly.getLast? = some a ∧ poly.head? = some b)

/-- How far a number is on the way from 0 to the end of a range, on its side. -/
def far (size : Int) (x : Int) : Rat := if x < 0 then (x : Rat) / (-(size / 2) : Int) else (x : Rat) / (size - size / 2 - 1 : Int)

/-- A number is in the range around 0. -/
def InRange (size x : Int) : Prop := -(size / 2) ≤ x ∧ x < size - size / 2

end Spec

end Verif.Voxel
