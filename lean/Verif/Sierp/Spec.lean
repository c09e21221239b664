import Mathlib.Data.Rat.Floor

/-! # Cross infill: triangles, and curves through them -/

namespace Verif.Sierp

/-- A point. -/
abbrev P2 := Int × Int

/-- Which sides of a triangle the curve goes through, first and last. -/
inductive Dir where
  | acAb
  | acBc
  | abBc
  deriving DecidableEq, Repr

/-- A triangle of the tree. `c` is its right corner. `second` says which half of the square it is part of, and `id` is its place in the tree. -/
structure Tri where
  c : P2
  a : P2
  b : P2
  dir : Dir
  left : Bool
  depth : Nat
  second : Bool
  id : Nat
  deriving DecidableEq, Repr

/-- A triangle of the curve, and how much length it got from the one before and the one after it. -/
structure Entry where
  t : Tri
  el : Rat
  er : Rat
  old : Bool
  deriving DecidableEq, Repr

namespace Spec

/-- The side through which the curve comes into a triangle: its ends on the left and on the right of the curve. -/
def entrySide (t : Tri) : P2 × P2 :=
  match t.dir, t.left with
  | .abBc, true => (t.a, t.b)
  | .abBc, false => (t.b, t.a)
  | _, true => (t.c, t.a)
  | _, false => (t.a, t.c)

/-- The side through which the curve leaves a triangle: its ends on the left and on the right of the curve. -/
def exitSide (t : Tri) : P2 × P2 :=
  match t.dir, t.left with
  | .acAb, true => (t.b, t.a)
  | .acAb, false => (t.a, t.b)
  | _, true => (t.c, t.b)
  | _, false => (t.b, t.c)

/-- How small the entry is: the long side of a triangle is as long as the short ones of the triangle it is a part of. -/
def entryLevel (t : Tri) : Nat := if t.dir = .abBc then t.depth else t.depth + 1

/-- How small the exit is. -/
def exitLevel (t : Tri) : Nat := if t.dir = .acAb then t.depth else t.depth + 1

/-- The curve is connected, in each half of the square: it comes into each triangle through the side through which it left the one before, and the two are of the same size. -/
def Connected (seq : List Tri) : Prop := seq.IsChain fun t u => t.second = u.second → exitSide t = entrySide u ∧ exitLevel t = entryLevel u

/-- The second list comes from the first one by dividing triangles, again and again, into their parts. -/
inductive Divided (parts : Tri → List Tri) (start : List Tri) : List Tri → Prop where
  | start : Divided parts start start
  | divide (l r : List Tri) (t : Tri) : Divided parts start (l ++ t :: r) → parts t ≠ [] → Divided parts start (l ++ parts t ++ r)

/-- Twice the area of a triangle. -/
def area2 (t : Tri) : Nat := ((t.a.1 - t.c.1) * (t.b.2 - t.c.2) - (t.a.2 - t.c.2) * (t.b.1 - t.c.1)).natAbs

/-- The middle of a side, rounded to zero. -/
def middle (e : P2 × P2) : P2 := ((e.1.1 + e.2.1).tdiv 2, (e.1.2 + e.2.2).tdiv 2)

/-- Length is only exchanged with neighbours: what one gives, the next one gets, and nothing comes from outside. -/
def Fair (seq : List Entry) : Prop :=
  (∀ e, seq.head? = some e → e.el = 0) ∧ (∀ e, seq.getLast? = some e → e.er = 0) ∧ seq.IsChain fun e f => e.er + f.el = 0

end Spec

end Verif.Sierp
