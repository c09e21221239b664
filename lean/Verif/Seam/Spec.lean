import Mathlib.Algebra.Order.Field.Basic

/-! # Specification of the choice of the best of some candidates, and of the seam of a wall

Candidates are numbered from 0. A pass gives each candidate a score; the candidates that are far worse than the best one
are dropped and the next pass decides among the others. -/

namespace Verif.Seam.Spec

variable {K : Type} [Field K] [LinearOrder K] [IsStrictOrderedRing K]

/-- The score of a candidate in a pass: the weighed sum of what its criteria say. -/
def total (criteria : List ((ℕ → K) × K)) (i : ℕ) : K := (criteria.map fun c => c.1 i * c.2).sum

/-- `best` has the highest score, and no earlier candidate has the same. -/
def FirstBest (score : ℕ → K) (n best : ℕ) : Prop :=
  best < n ∧ (∀ j, j < n → score j ≤ score best) ∧ ∀ j, j < best → score j < score best

/-- The candidates `T` stay of the candidates `S` after a pass: all that are within the threshold of the best do, and
all that do are within twice the threshold of the best. -/
def Kept (score : ℕ → K) (threshold : K) (S T : ℕ → Prop) : Prop :=
  (∀ j, T j → S j ∧ ∀ k, S k → score k ≤ score j + 2 * threshold) ∧
    ∀ j, S j → (∀ k, S k → score k ≤ score j + threshold) → T j

/-- The candidate `i` may be chosen of the candidates `S` with these passes: the last pass takes a best one. -/
def Chosen : List ((ℕ → K) × K) → (ℕ → Prop) → ℕ → Prop
  | [], S, i => S i
  | [p], S, i => S i ∧ ∀ j, S j → p.1 j ≤ p.1 i
  | p :: q :: rest, S, i => ∃ T, Kept p.1 p.2 S T ∧ Chosen (q :: rest) T i

/-- How sharp a corner is, from 0 to 1, for those who prefer inner (concave) corners: an angle of -1 is the sharpest. -/
def innerSharpness (angle : K) : K := (1 - angle) / 2

/-- The same for outer (convex) corners: an angle of 1 is the sharpest. -/
def outerSharpness (angle : K) : K := (1 + angle) / 2

end Verif.Seam.Spec
