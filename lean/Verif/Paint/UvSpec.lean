import Verif.Grid.Model
import Mathlib.Data.Rat.Defs
import Mathlib.Algebra.Order.Ring.Rat

/-! # Specification of the texture coordinates of a place -/

namespace Verif.Paint.UvSpec

open Verif.Grid (Pt)

/-- What is between two numbers at a fraction `t`. -/
def between (a b t : ℚ) : ℚ := a + (b - a) * t

/-- The square of the distance from `p` to the point of the segment from `a` to `b` at the fraction `t`. -/
def away (p a b : Pt) (t : ℚ) : ℚ :=
  (p.x - between a.x b.x t) ^ 2 + (p.y - between a.y b.y t) ^ 2

end Verif.Paint.UvSpec
