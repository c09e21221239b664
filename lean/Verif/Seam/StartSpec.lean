import Verif.Seam.Model

/-! # Specification of the start of a path -/

namespace Verif.Seam

variable {K : Type} [Field K] [LinearOrder K]

/-- What is painted on the model at a vertex. -/
def paint (p : Path K) (i : ℕ) : Option TextureArea := p.texture.bind fun t => t i

/-- Whether a vertex is in an overhanging area. -/
def overhanging (p : Path K) (i : ℕ) : Bool := p.overhang.elim false fun o => o i

/-- How much the paint at a vertex asks for the seam: 0 for "avoid", 1 for normal or no paint, 2 for "preferred". -/
def rank : Option TextureArea → ℕ
  | some .avoid => 0
  | some .normal => 1
  | none => 1
  | some .preferred => 2

/-- Distances are not negative, angles between -1 and 1, random scores between 0 and 1. -/
structure Sane (p : Path K) : Prop where
  target : ∀ i, 0 ≤ p.toTarget i
  between : ∀ i j, 0 ≤ p.between i j
  angle : ∀ i, -1 ≤ p.angle i ∧ p.angle i ≤ 1
  random : ∀ i, 0 ≤ p.random i ∧ p.random i ≤ 1

end Verif.Seam
