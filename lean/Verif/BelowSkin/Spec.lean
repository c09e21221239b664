import Mathlib.Data.Set.Basic
import Mathlib.Data.List.Basic

/-! # Infill below skin: what should be printed -/

namespace Verif.BelowSkin

/-- A point. -/
abbrev P2 := Int × Int

/-- A region. -/
abbrev Region := Set P2

/-- A pattern that is printed in a region: lines that support the skin above, or infill of a density. -/
structure Job where
  support : Bool
  density : Nat
  area : Region

namespace Spec

open Classical in
/-- How many times the lines that support skin are printed at a point. -/
noncomputable def supportAt (jobs : List Job) (p : P2) : Nat := jobs.countP fun j => decide (j.support = true ∧ p ∈ j.area)

open Classical in
/-- How many times the infill of a density is printed at a point. -/
noncomputable def infillAt (jobs : List Job) (d : Nat) (p : P2) : Nat := jobs.countP fun j => decide (j.support = false ∧ j.density = d ∧ p ∈ j.area)

/-- At a point below skin there are the lines that support it, once, and nothing else. -/
def Supported (jobs : List Job) (p : P2) : Prop := supportAt jobs p = 1 ∧ ∀ d, infillAt jobs d p = 0

/-- At another point there is the infill of the densities that it is in, each once, and nothing else. -/
def Filled (areas : List Region) (jobs : List Job) (p : P2) : Prop :=
  supportAt jobs p = 0 ∧ ∀ d, (p ∈ areas.getD d ∅ → infillAt jobs d p = 1) ∧ (p ∉ areas.getD d ∅ → infillAt jobs d p = 0)

end Spec

end Verif.BelowSkin
