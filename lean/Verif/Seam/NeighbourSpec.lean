import Mathlib.Data.Rat.Defs
import Mathlib.Algebra.Order.Group.Unbundled.Abs
import Mathlib.Algebra.Order.Ring.Rat
import Mathlib.Algebra.BigOperators.Group.Finset.Basic

/-! # Specification of a point at a distance along a closed wall -/

namespace Verif.Seam.NeighbourSpec

/-- The length of the first `k` of the segments that one passes. -/
def passed (segment : ℕ → ℕ) (k : ℕ) : ℕ := ∑ i ∈ Finset.range k, segment i

/-- The point `p` is `offset` from `a` on the way to `b`, which is `length` from `a`: exactly if it is `b`, otherwise in
the box of the two points, with an error of at most one thousandth of the offset and one unit in each coordinate. -/
def On (a b : ℤ × ℤ) (length offset : ℕ) (p : ℤ × ℤ) : Prop :=
  (offset = length ∧ p = b) ∨ (offset < length ∧
    (min a.1 b.1 ≤ p.1 ∧ p.1 ≤ max a.1 b.1) ∧ (min a.2 b.2 ≤ p.2 ∧ p.2 ≤ max a.2 b.2) ∧
    |(p.1 : ℚ) - (a.1 + (b.1 - a.1) * (offset / length))| ≤ offset / 1000 + 1 ∧
    |(p.2 : ℚ) - (a.2 + (b.2 - a.2) * (offset / length))| ≤ offset / 1000 + 1)

end Verif.Seam.NeighbourSpec
