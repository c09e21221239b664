import Verif.Simplify.Model
import Mathlib.Logic.Relation

/-! # Specification of simplification (C98)

A path is a list of vertices that are numbered, so that one can see which vertices of the original are left. -/

namespace Verif.Simplify

abbrev Path (V : Type) := List (Nat × V)

/-- The path as it is at the beginning. -/
def numbered {V : Type} (l : List V) : Path V := (List.range l.length).zip l

/-- A vertex `v` in the path, with `l` before and `r` behind it. If the path is closed, its end is next to its beginning. -/
structure At {V : Type} (closed : Bool) (path : Path V) (l : Path V) (v : Nat × V) (r : Path V) : Prop where
  eq : path = l ++ v :: r
  inner : closed = false → l ≠ [] ∧ r ≠ []

/-- The neighbours of the vertex. (In a closed path of one vertex it is its own neighbour.) -/
def nextOf {V : Type} (l : Path V) (v : Nat × V) (r : Path V) : Nat × V := (r ++ l).headD v
def prevOf {V : Type} (l : Path V) (v : Nat × V) (r : Path V) : Nat × V := (r ++ l).getLastD v

/-- The neighbours of the neighbours. -/
def nextNextOf {V : Type} (l : Path V) (v : Nat × V) (r : Path V) : Nat × V := ((r ++ l).tail ++ [v]).headD v
def prevPrevOf {V : Type} (l : Path V) (v : Nat × V) (r : Path V) : Nat × V := (v :: (r ++ l).dropLast).getLastD v

/-- The vertex with a number is replaced. -/
def replace {V : Type} (path : Path V) (i : Nat) (v : V) : Path V := path.map fun w => if w.1 = i then (i, v) else w

/-- The vertex may be removed as far as it is concerned: it is close to the line through its neighbours, and the width does not change
much. -/
def Unimportant {V : Type} (P : Params V) (b v a : V) : Prop :=
  dist2 (P.pos v) (P.pos b) (P.pos a) ≤ P.maxDev * P.maxDev ∧ P.area b v a ≤ P.maxArea

def Short {V : Type} (P : Params V) (v w : V) : Prop := size2 (P.pos v) (P.pos w) ≤ P.maxRes * P.maxRes

/-- Nearly on the line through its neighbours. -/
def Straight {V : Type} (P : Params V) (b v a : V) : Prop := dist2 (P.pos v) (P.pos b) (P.pos a) ≤ tiny2

/-- One step of simplification. -/
inductive Step {V : Type} (P : Params V) (closed : Bool) : Path V → Path V → Prop
  /-- A vertex is removed that is nearly straight, or both of whose edges are short. -/
  | drop {path l v r} (h : At closed path l v r) (hu : Unimportant P (prevOf l v r).2 v.2 (nextOf l v r).2)
      (hs : Straight P (prevOf l v r).2 v.2 (nextOf l v r).2 ∨ (Short P v.2 (prevOf l v r).2 ∧ Short P v.2 (nextOf l v r).2)) :
      Step P closed path (l ++ r)
  /-- The edge before the vertex is short, the one behind it is long: the edge is replaced by a vertex where the long edge meets the
  one before it, if that is close to the edge. -/
  | back {path l v r x} (h : At closed path l v r) (hu : Unimportant P (prevOf l v r).2 v.2 (nextOf l v r).2)
      (hb : Short P v.2 (prevOf l v r).2) (ha : ¬ Short P v.2 (nextOf l v r).2) (hend : closed = false → l.tail ≠ [])
      (hx : P.meet (P.pos (prevPrevOf l v r).2) (P.pos (prevOf l v r).2) (P.pos v.2) (P.pos (nextOf l v r).2) = some x)
      (hd : segDist2 (P.pos (prevOf l v r).2) x (P.pos v.2) ≤ P.maxDev * P.maxDev) :
      Step P closed path (replace (l ++ r) (prevOf l v r).1 (P.cross (prevOf l v r).2 x (nextOf l v r).2))
  /-- The same if the edge behind the vertex is the short one. -/
  | forth {path l v r x} (h : At closed path l v r) (hu : Unimportant P (prevOf l v r).2 v.2 (nextOf l v r).2)
      (hb : ¬ Short P v.2 (prevOf l v r).2) (ha : Short P v.2 (nextOf l v r).2) (hend : closed = false → r.tail ≠ [])
      (hx : P.meet (P.pos (prevOf l v r).2) (P.pos v.2) (P.pos (nextOf l v r).2) (P.pos (nextNextOf l v r).2) = some x)
      (hd : segDist2 (P.pos v.2) x (P.pos (nextOf l v r).2) ≤ P.maxDev * P.maxDev) :
      Step P closed path (replace (l ++ r) (nextOf l v r).1 (P.cross (prevOf l v r).2 x (nextOf l v r).2))

/-- Nothing can be simplified any more. -/
def Simple {V : Type} (P : Params V) (closed : Bool) (path : Path V) : Prop := ∀ path', ¬ Step P closed path path'

/-- Polygons have at least three vertices, lines two. -/
def fewest (closed : Bool) : Nat := if closed then 3 else 2

/-- Too few vertices, or no more than necessary and all of them less than 5 micron apart. -/
def Degenerate {V : Type} (P : Params V) (closed : Bool) (l : List V) : Prop :=
  l.length < fewest closed ∨ (l.length = fewest closed ∧ ∀ v ∈ l, ∀ w ∈ l, size2 (P.pos v) (P.pos w) < 5 * 5)

/-- Two vertices that are joined by a segment. -/
def Joined {α : Type} (closed : Bool) (line : List α) (v w : α) : Prop :=
  (∃ l r, line = l ++ v :: w :: r) ∨ (closed = true ∧ ∃ m, line = w :: m ++ [v])

/-- A vertex and the ones before and behind it. -/
def Corner {α : Type} (closed : Bool) (line : List α) (b v a : α) : Prop :=
  ∃ l r, line = l ++ v :: r ∧ (closed = false → l ≠ [] ∧ r ≠ []) ∧ (r ++ l).getLast? = some b ∧ (r ++ l).head? = some a

/-- The point is farther than `d` from every point of the line. -/
def Off (d : ℚ) (p : Pt) (line : List Pt) : Prop :=
  ∀ l a b r, line = l ++ a :: b :: r → ∀ t : ℚ, 0 ≤ t → t ≤ 1 →
    d * d < (a.1 + t * (b.1 - a.1) - p.1) * (a.1 + t * (b.1 - a.1) - p.1) + (a.2 + t * (b.2 - a.2) - p.2) * (a.2 + t * (b.2 - a.2) - p.2)

end Verif.Simplify
