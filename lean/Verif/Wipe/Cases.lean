import Verif.Wipe.Props
import Mathlib.Tactic.Positivity

/-! # Wiping: cases that meet the hypotheses -/

namespace Verif.Wipe

open Spec

/-- Lengths along the axes. -/
def taxi (p q : P2) : Int := |p.1 - q.1| + |p.2 - q.2|

theorem taxi_nonneg (p q : P2) : 0 ≤ taxi p q := by unfold taxi; positivity

theorem taxi_zero (p q : P2) (h : taxi p q = 0) : p = q := by
  unfold taxi at h
  have h1 := abs_nonneg (p.1 - q.1)
  have h2 := abs_nonneg (p.2 - q.2)
  have h3 : p.1 - q.1 = 0 := abs_eq_zero.1 (by omega)
  have h4 : p.2 - q.2 = 0 := abs_eq_zero.1 (by omega)
  exact Prod.ext (by omega) (by omega)

def square : List P2 := [(0, 0), (100, 0), (100, 100), (0, 100)]

/-- **C124_wipe** has a case: more than once around a square. -/
example : ∃ k, walked taxi square 3 false (0, 0) k < 450 ∧ 450 ≤ walked taxi square 3 false (0, 0) (k + 1) :=
  let ⟨k, h1, h2, _⟩ := C124_wipe taxi toward square 450 false 3 (0, 0) taxi_nonneg (by decide) (by decide) (by decide) ⟨0, by decide +kernel⟩ (by decide +kernel)
  ⟨k, h1, h2⟩

example : wipe taxi toward square 450 false 3 (0, 0) 10 = some [(0, 0), (100, 0), (100, 100), (0, 100), (0, 0), (50, 0)] := by decide +kernel

/-- Backwards. -/
example : wipe taxi toward square 150 true 1 (0, 0) 10 = some [(0, 0), (0, 100), (50, 100)] := by decide +kernel

/-- **C124_nowhere** has a case: all corners are the same. -/
example : ∃ moves, (∀ p ∈ moves, p = ((5, 5) : P2)) ∧ ∀ fuel, 3 ≤ fuel → wipe taxi toward [(5, 5), (5, 5), (5, 5)] 100 false 2 (5, 5) fuel = some moves :=
  C124_nowhere taxi toward [(5, 5), (5, 5), (5, 5)] 100 false 2 (5, 5) taxi_nonneg taxi_zero (by decide) (by decide) (by decide +kernel)

end Verif.Wipe
