import Verif.Gyroid.Props

/-! # Connected wavy infill: cases -/

namespace Verif.Gyroid

open Spec

/-- Three lines across a square. -/
def three : List Chain := [⟨(1000, 0), (1000, 4000), 0⟩, ⟨(2000, 0), (2000, 4000), 1⟩, ⟨(3000, 0), (3000, 4000), 2⟩]

/-- The square, with the ends of the lines on two of its sides. -/
def square : List (Pt × List End) :=
  [((0, 0), [⟨0, false⟩, ⟨1, false⟩, ⟨2, false⟩]), ((4000, 0), []), ((4000, 4000), [⟨2, true⟩, ⟨1, true⟩, ⟨0, true⟩]), ((0, 4000), [])]

example : connect three [square] = [[(1000, 0), (2000, 0)], [(3000, 4000), (2000, 4000)]] := by decide +kernel

/-- Two lines, the second one entering over a corner. -/
example : connect [⟨(1000, 0), (500, 500), 0⟩, ⟨(4000, 2000), (2000, 4000), 1⟩] [[((0, 0), [⟨0, false⟩]), ((4000, 0), [⟨1, false⟩]), ((4000, 4000), [⟨1, true⟩]), ((0, 4000), [])]]
    = [[(1000, 0), (4000, 0), (4000, 2000)]] := by decide +kernel

example : total [square] ≤ 2 * three.length := by decide

example : OwnRows three := by
  intro i j c d hi hj hcd
  rcases i with _ | _ | _ | i <;> rcases j with _ | _ | _ | j <;> simp [three] at hi hj <;> subst hi hj <;> simp_all

example : ∀ poly ∈ [square], ∀ x ∈ poly, ∀ e ∈ x.2, e.chain < three.length := by decide

end Verif.Gyroid
