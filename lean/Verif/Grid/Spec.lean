import Verif.Grid.Model
import Mathlib.Data.Rat.Defs
import Mathlib.Algebra.Order.Field.Rat

/-! # Specification of the spatial grids (C38, C51) -/

namespace Verif.Grid

/-- The coordinates that belong to cell number `c` of a grid with cell size `s`. Cell 0 is twice as
large as the others (src/utils/SquareGrid.cpp:26-31). -/
def InCell1 (s c : Int) (v : ℚ) : Prop :=
  (0 < c → (c : ℚ) * s ≤ v ∧ v < (c + 1) * s) ∧
  (c = 0 → -(s : ℚ) < v ∧ v < s) ∧
  (c < 0 → (c - 1) * (s : ℚ) < v ∧ v ≤ c * s)

/-- The point `(x, y)` lies in the cell. -/
def InCell (s : Int) (c : Pt) (x y : ℚ) : Prop := InCell1 s c.x x ∧ InCell1 s c.y y

/-- The coordinates in cell number `c`, including both its borders. -/
def InClosed1 (s c : Int) (v : ℚ) : Prop :=
  (0 < c → (c : ℚ) * s ≤ v ∧ v ≤ (c + 1) * s) ∧
  (c = 0 → -(s : ℚ) ≤ v ∧ v ≤ s) ∧
  (c < 0 → (c - 1) * (s : ℚ) ≤ v ∧ v ≤ c * s)

/-- The coordinate at fraction `t` of the way from `u` to `v`. -/
def lerp (u v : Int) (t : ℚ) : ℚ := u + (v - u) * t

/-- `(x, y)` is a point of the line segment. -/
def OnSegment (l : Pt × Pt) (x y : ℚ) : Prop :=
  ∃ t : ℚ, 0 ≤ t ∧ t ≤ 1 ∧ x = lerp l.1.x l.2.x t ∧ y = lerp l.1.y l.2.y t

/-- Two line segments have a point in common. -/
def Meet (l m : Pt × Pt) : Prop := ∃ x y : ℚ, OnSegment l x y ∧ OnSegment m x y

/-- The point is at most `r` away in both directions. -/
def WithinSquare (q : Pt) (r : Int) (p : Pt) : Prop :=
  -r ≤ p.x - q.x ∧ p.x - q.x ≤ r ∧ -r ≤ p.y - q.y ∧ p.y - q.y ≤ r

instance (q : Pt) (r : Int) : DecidablePred (WithinSquare q r) := by
  intro p; unfold WithinSquare; infer_instance

end Verif.Grid
