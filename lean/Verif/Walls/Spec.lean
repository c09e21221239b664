import Verif.Walls.Model
import Verif.Order.Spec

/-! # What is expected of the order of walls -/

namespace Verif.Walls

/-- Wall `i` counts as larger than wall `j`: by the area of the bounding box, and by index if these are equal. -/
def Larger (S : Shapes) (i j : Nat) : Prop := S.area j < S.area i ∨ S.area j = S.area i ∧ j < i

/-- Wall `i` is closed, larger than wall `j`, and `j` is within it. -/
def Encloses (S : Shapes) (ws : List Wall) (i j : Nat) : Prop :=
  (∃ w, ws[i]? = some w ∧ w.closed = true) ∧ j < ws.length ∧ S.within i j = true ∧ Larger S i j

/-- Wall `i` is the innermost wall that encloses wall `j`. -/
def Around (S : Shapes) (ws : List Wall) (i j : Nat) : Prop :=
  Encloses S ws i j ∧ ∀ k, Encloses S ws k j → k = i ∨ Larger S k i

/-- Walls that are next to each other: one is the innermost around the other. -/
def NextTo (S : Shapes) (ws : List Wall) (i j : Nat) : Prop := Around S ws i j ∨ Around S ws j i

/-- `d` steps between walls next to each other lead from an outer wall to `v`. -/
inductive Steps (S : Shapes) (ws : List Wall) : Nat → Nat → Prop where
  | outer {v : Nat} {w : Wall} : ws[v]? = some w → w.inset = 0 → Steps S ws 0 v
  | step {d u v : Nat} : Steps S ws d u → NextTo S ws u v → Steps S ws (d + 1) v

/-- The closest outer wall is `d` steps away. -/
def Depth (S : Shapes) (ws : List Wall) (d v : Nat) : Prop := Steps S ws d v ∧ ∀ d', Steps S ws d' v → d ≤ d'

/-- `u` comes before `v` wherever `v` comes. -/
def Before (printed : List Nat) (u v : Nat) : Prop := ∀ l₁ l₂, printed = l₁ ++ v :: l₂ → u ∈ l₁

/-- In the direction that is set: from outer to inner walls or the other way. -/
def InDirection (outerToInner : Bool) (printed : List Nat) (outer inner : Nat) : Prop :=
  if outerToInner then Before printed outer inner else Before printed inner outer

/-- There is a wall, not a filler, of this inset. -/
def HasInset (ws : List Wall) (k : Nat) : Prop := ∃ w ∈ ws, w.odd = false ∧ w.inset = k

/-- The paths that are ordered are the given walls: they have their indices as identity, their points, and are not empty. -/
def AreWalls (env : Order.Env) (ws : List Wall) : Prop :=
  env.paths.map (·.id) = List.range ws.length ∧ ∀ p ∈ env.paths, p.points ≠ []

end Verif.Walls
