import Mathlib.Algebra.BigOperators.Group.Finset.Basic
import Mathlib.Algebra.Order.Ring.Rat
import Mathlib.Order.Interval.Finset.Basic
import Mathlib.Data.Int.Interval
import Mathlib.Data.Rat.Floor

/-! # Specification of densities given by an image -/

namespace Verif.Density.Spec

/-- The byte of channel `z` of the pixel in column `x` and in row `y`, counted from the bottom, of an image that is stored
row by row from the top. -/
def bright (data : List (BitVec 8)) (width height channels : ℕ) (x y : ℤ) (z : ℕ) : ℕ :=
  (data.getD (((height - 1 - y.toNat) * width + x.toNat) * channels + z) 0).toNat

/-- The mean of the channels of some pixels. -/
def mean (columns rows : Finset ℤ) (channels : ℕ) (value : ℤ → ℤ → ℕ → ℕ) : ℚ :=
  (∑ x ∈ columns, ∑ y ∈ rows, ∑ z ∈ Finset.range channels, value x y z : ℕ) /
    (columns.card * rows.card * channels : ℕ)

/-- The column or row, of `size`, in which a position is, for an image that begins at `first` and is `length` long. -/
def cell (size : ℕ) (first length position : ℤ) : ℤ := ⌊((position - first) * size : ℚ) / length⌋

/-- The one of `0`, …, `size - 1` that is nearest to `i`. -/
def nearest (size : ℕ) (i j : ℤ) : Prop := (0 ≤ j ∧ j < size) ∧ ∀ k : ℤ, 0 ≤ k → k < size → |j - i| ≤ |k - i|

end Verif.Density.Spec
