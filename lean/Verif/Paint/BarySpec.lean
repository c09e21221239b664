import Mathlib.Data.Rat.Defs
import Mathlib.Algebra.Order.Ring.Rat

/-! # Specification of texture coordinates in a triangle -/

namespace Verif.Paint.BarySpec

/-- A vector with rational coordinates. -/
structure Vec where
  x : ℚ
  y : ℚ
  z : ℚ
  deriving DecidableEq

/-- The point `a + v (b - a) + w (c - a)` of the plane of a triangle. -/
def point (a b c : Vec) (v w : ℚ) : Vec :=
  ⟨a.x + v * (b.x - a.x) + w * (c.x - a.x), a.y + v * (b.y - a.y) + w * (c.y - a.y), a.z + v * (b.z - a.z) + w * (c.z - a.z)⟩

/-- The line from `p` to `q` is perpendicular to the line from `a` to `b`. -/
def Perpendicular (p q a b : Vec) : Prop :=
  (q.x - p.x) * (b.x - a.x) + (q.y - p.y) * (b.y - a.y) + (q.z - p.z) * (b.z - a.z) = 0

/-- The three corners are on a line: the cross product of two edges is zero. -/
def Collinear (a b c : Vec) : Prop :=
  (b.y - a.y) * (c.z - a.z) = (b.z - a.z) * (c.y - a.y) ∧ (b.z - a.z) * (c.x - a.x) = (b.x - a.x) * (c.z - a.z) ∧
    (b.x - a.x) * (c.y - a.y) = (b.y - a.y) * (c.x - a.x)

end Verif.Paint.BarySpec
