import Verif.Monotonic.Model

/-! # Specification of the monotonic order (C95) -/

namespace Verif.Monotonic

/-- A closed line, or one whose ends meet. -/
def Loop (p : Path) : Prop := p.closed = true ∨ (3 ≤ p.pts.length ∧ dist2 p.back p.front < 100)

/-- A line that has a direction. -/
def Line (p : Path) : Prop := ¬ Loop p ∧ 2 ≤ p.pts.length

/-- In the direction of `u` the lines are at most `d` apart. -/
def Within (u : ℚ × ℚ) (d : ℚ) (a b : Path) : Prop := lo u b ≤ hi u a + d ∧ lo u a ≤ hi u b + d

/-- Lines next to each other: they are at most `d` apart in the direction of printing and side by side, up to `d`. -/
def Adjacent (c : Config) (d : ℚ) (a b : Path) : Prop := Within c.v d a b ∧ Within (perp c.v) d a b

/-- The ends of different lines do not touch. -/
def Apart (paths : List Path) : Prop :=
  ∀ (i j : Nat) a b, i ≠ j → paths[i]? = some a → paths[j]? = some b → Line a → Line b →
    ∀ p ∈ [a.front, a.back], ∀ q ∈ [b.front, b.back], 100 ≤ dist2 p q

/-- The orders that depend on hash tables leave nothing out and add nothing. -/
def Fair (c : Config) : Prop := (∀ l, (c.hash l).Perm l) ∧ ∀ p l, ∀ x ∈ c.scan p l, x ∈ l

/-- One comes before the other. -/
def Before (out : List Nat) (i j : Nat) : Prop := ∃ l1 l2, out = l1 ++ l2 ∧ i ∈ l1 ∧ j ∈ l2

/-! ## Two passes -/

/-- Rows of lines: the lines of a row begin at most half the distance behind the first one, the first line of the next row
begins farther away. -/
def Rows (c : Config) (path : Nat → Path) (rows : List (List Nat)) : Prop :=
  (∀ row ∈ rows, ∃ a t, row = a :: t ∧ ∀ i ∈ t, project c.v (path i).front - project c.v (path a).front ≤ (c.dist.tdiv 2 : Int)) ∧
  rows.IsChain fun r r' => ∀ a ∈ r.head?, ∀ b ∈ r'.head?, project c.v (path b).front - project c.v (path a).front > (c.dist.tdiv 2 : Int)

/-- Every other row, beginning with the first or with the second one. -/
def everyOther (first : Bool) : List (List Nat) → List (List Nat)
  | [] => []
  | r :: rest => if first then r :: everyOther false rest else everyOther true rest

end Verif.Monotonic
