import Mathlib.Data.List.Sort

/-! # Order of the infill of a part: what is printed -/

namespace Verif.InfillOrder

/-- A point. -/
abbrev P2 := Int × Int

/-- What a part of the infill consists of: open lines, closed polygons, or walls. Walls are only known by a number. -/
inductive Content where
  | lines (ls : List (List P2))
  | polygons (ls : List (List P2))
  | walls (id : Nat)
  deriving DecidableEq, Repr

/-- A part of the infill, that is printed as a whole; `support` says that it is the support of skin. -/
structure Part where
  support : Bool
  content : Content
  deriving DecidableEq, Repr

namespace Spec

/-- The preferred order: support of skin after the infill, and in each of them lines, polygons, and then walls. -/
def rank (p : Part) : Nat :=
  (if p.support then 3 else 0) + match p.content with
    | .lines _ => 0
    | .polygons _ => 1
    | .walls _ => 2

/-- The sides of an open line. -/
def sides (l : List P2) : List (P2 × P2) := l.zip l.tail

/-- The same is printed: open lines may be divided, but have the same sides, and no line of a single point results. -/
def Same (p q : Part) : Prop :=
  p.support = q.support ∧ match p.content, q.content with
    | .lines a, .lines b => a.flatMap sides = b.flatMap sides ∧ ((∀ l ∈ a, 2 ≤ l.length) → ∀ l ∈ b, 2 ≤ l.length)
    | a, b => a = b

/-- The points where printing may begin or end. -/
def points (p : Part) : List P2 :=
  match p.content with
  | .lines ls => ls.flatten
  | .polygons ls => ls.flatten
  | .walls _ => []

/-- The distance of two points, squared. -/
def dist2 (p q : P2) : Int := (p.1 - q.1) * (p.1 - q.1) + (p.2 - q.2) * (p.2 - q.2)

/-- These are walls of the infill. -/
def InfillWalls (p : Part) : Prop := p.support = false ∧ ∃ id, p.content = .walls id

/-- Interlaced lines of the support of skin: their order cannot be chosen. -/
def Fixed (interlace : Bool) (p : Part) : Prop := interlace = true ∧ p.support = true ∧ ∃ ls, p.content = .lines ls

end Spec

end Verif.InfillOrder
