import Mathlib.Data.Rat.Floor

/-! # Specification of what is painted on a model

A texture is a table of pixels. Each pixel is a number, in which each feature has a range of bits. -/

namespace Verif.Paint.Spec

/-- The number that bytes write, the most significant first. -/
def number (bytes : List (BitVec 8)) : ℕ := bytes.foldl (fun n b => n * 256 + b.toNat) 0

/-- The bits `start` to `stop` (both included) of a number. -/
def bits (n start stop : ℕ) : ℕ := n / 2 ^ start % 2 ^ (stop - start + 1)

/-- The cell `i` of `count` cells of equal size contains the coordinate `u`; beyond the last one it is the last. -/
def InCell (count : ℕ) (u : ℚ) (i : ℕ) : Prop :=
  i < count ∧ ((i : ℚ) / count ≤ u ∧ u < (i + 1 : ℚ) / count ∨ i = count - 1 ∧ 1 ≤ u)

end Verif.Paint.Spec
