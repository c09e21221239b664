import Verif.Tree.Model

/-! # Offsets in steps

Models `TreeSupportUtils::safeOffsetInc` (include/TreeSupportUtils.h:217-285), with which the areas of branches grow from layer to layer. -/

namespace Verif.Tree

open Verif.Volumes (Point Region)

/-- The size and the number of the steps, and whether the obstacles are removed in the end. -/
structure Plan where
  step : Nat
  steps : Nat
  final : Bool
deriving DecidableEq, Repr

/-- The number of steps before the last one (include/TreeSupportUtils.h:239-250); `none` if it is divided by 0. -/
def firstPlan (distance safe last minOffset : Nat) : Option Plan :=
  let step := max minOffset safe
  if last < distance ∧ step = 0 then none
  else
    let steps := if last < distance then (distance - last) / step else 0
    if last < distance - steps * step then
      if (steps + 1) * step ≤ distance then some ⟨step, steps + 1, last = 0⟩ else some ⟨step, steps, true⟩
    else some ⟨step, steps, last = 0⟩

/-- The least number of steps is taken into account (include/TreeSupportUtils.h:251-266). The remainder is a number of `distance % step_size`, which is
not reached if `distance < last`; `none` if it is divided by 0. -/
def plan (distance safe last minAmount minOffset : Nat) : Option Plan := do
  let p ← firstPlan distance safe last minOffset
  if ¬ distance < last ∧ p.step = 0 then none
  else if p.steps + (if distance < last ∨ distance % p.step ≠ 0 then 1 else 0) < minAmount ∧ 1 < minAmount then
    let step := distance / minAmount
    if safe ≤ step then some { p with step := safe, steps := minAmount }
    else if step = 0 then none
    else some { p with step := step, steps := distance / step }
  else some p

/-- The loop (include/TreeSupportUtils.h:268-276) from round `i` on. -/
def incLoop (ops : Ops) (simp : Bool) (col : Region) (step : Nat) : Nat → Nat → Region → Region
  | 0, _, a => a
  | n + 1, i, a =>
    let b := ops.round step a \ col
    incLoop ops simp col step n (i + 1) (if i % 10 = 7 ∧ simp = true then ops.simplify b else b)

/-- `safeOffsetInc` (include/TreeSupportUtils.h:217-285), for distances that are not negative, as is expected of them. `simp` is whether there is a
simplifier. The unions and `safeUnion` are left out: they do not change the area. -/
def safeOffsetInc (ops : Ops) (simp : Bool) (a : Region) (distance : Nat) (col : Region) (safe last : Int) (minAmount minOffset : Nat) :
    Option Region :=
  let clean (final : Bool) (r : Region) : Region := if final then r \ col else r
  if distance = 0 then some (clean (last = 0) a)
  else if safe < 0 ∨ last < 0 then some (clean (last = 0) a)
  else (plan distance safe.toNat last.toNat minAmount minOffset).map fun p =>
    let b := ops.round (distance - p.steps * p.step : Nat) (incLoop ops simp col p.step p.steps 0 a)
    clean p.final (if simp then ops.simplify b else b)

end Verif.Tree
