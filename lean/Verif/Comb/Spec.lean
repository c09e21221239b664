import Mathlib.Data.Rat.Floor
import Mathlib.Data.List.Basic

/-! # Combing: ways along a polygon, and the inside of one -/

namespace Verif.Comb

/-- A point. -/
abbrev P2 := Int × Int

namespace Spec

/-- The sides of a polygon. -/
def sides (poly : List P2) : List (P2 × P2) := (poly.getLast?.toList ++ poly).zip poly

/-- Whether a side goes from above a height to below it, or back. -/
def Passes (y : Int) (s : P2 × P2) : Prop := ¬ (y ≤ s.1.2 ↔ y ≤ s.2.2)

instance (y : Int) (s : P2 × P2) : Decidable (Passes y s) := by unfold Passes; infer_instance

/-- Where it does. -/
def passX (y : Int) (s : P2 × P2) : Rat := s.1.1 + (s.2.1 - s.1.1) * (y - s.1.2) / (s.2.2 - s.1.2)

/-- A point is inside of a polygon: a ray to the right passes an odd number of sides. -/
def Inside (poly : List P2) (p : P2) : Prop := ((sides poly).filter fun s => decide (Passes p.2 s ∧ (p.1 : Rat) < passX p.2 s)).length % 2 = 1

/-- The corners between two sides, each named by the corner it leads to: along the polygon. -/
def forward (n first last : Nat) : List Nat := (List.range ((last + n - first) % n)).map fun k => (first + k) % n

/-- And the other way. -/
def backward (n first last : Nat) : List Nat := (List.range ((first + n - last) % n)).map fun k => (first + 2 * n - 1 - k) % n

/-- How long a way is. -/
def wayLen (len : P2 → P2 → Int) : P2 → List P2 → Int
  | _, [] => 0
  | p, q :: l => len p q + wayLen len q l

/-- A place on the straight line between two places, found by going a part of the way between places of it. -/
inductive On (part : P2 → P2 → Rat → P2) (a b : P2) : P2 → Prop where
  | first : On part a b a
  | last : On part a b b
  | between (x y : P2) (f : Rat) : On part a b x → On part a b y → 0 ≤ f → f ≤ 1 → On part a b (part x y f)

/-- A straight move that is fine: on a line that is clear, or on one that was given. -/
def Fine (part : P2 → P2 → Rat → P2) (clear given : P2 → P2 → Prop) (u v : P2) : Prop := ∃ a b, On part a b u ∧ On part a b v ∧ (clear a b ∨ given a b)

/-- Two that follow each other. -/
def Next (l : List P2) (a b : P2) : Prop := ∃ x y, l = x ++ a :: b :: y

end Spec

/-- A place where a polygon crosses the line: which polygon, where, and the corner its side leads to. -/
structure Crossing where
  poly : Nat
  x : Int
  idx : Nat
  deriving DecidableEq, Repr

namespace Spec

/-- Which crossings are taken as the begin and the end of a way around a polygon: each with the next one of the same polygon, and what is between them is passed over. -/
inductive Paired : List Crossing → List (Crossing × Crossing) → Prop where
  | done : Paired [] []
  | alone (c : Crossing) (cs : List Crossing) (ps : List (Crossing × Crossing)) : (∀ d ∈ cs, d.poly ≠ c.poly) → Paired cs ps → Paired (c :: cs) ps
  | pair (c d : Crossing) (m rest : List Crossing) (ps : List (Crossing × Crossing)) : d.poly = c.poly → (∀ e ∈ m, e.poly ≠ c.poly) → Paired rest ps → Paired (c :: m ++ d :: rest) ((c, d) :: ps)

/-- A way from a place before a polygon to a place behind it: all its corners on one side of the line, in order, and not longer than the same on the other side. -/
def Way (len : P2 → P2 → Int) (corner : Nat → P2) (n : Nat) (lo hi : Crossing) (first last : P2) (w : List P2) : Prop :=
  ∃ m, w = first :: m ++ [last] ∧ (m = (forward n lo.idx hi.idx).map corner ∨ m = (backward n lo.idx hi.idx).map corner) ∧
    wayLen len first (m ++ [last]) ≤ wayLen len first ((forward n lo.idx hi.idx).map corner ++ [last]) ∧
    wayLen len first (m ++ [last]) ≤ wayLen len first ((backward n lo.idx hi.idx).map corner ++ [last])

/-- The crossings of polygons with the line from `s` to the right until `e`, from left to right: each one once, rounded, and none is left out that is inside of the line. -/
def Crossings (polys : List (List P2)) (s e : P2) (cs : List Crossing) : Prop :=
  (∀ c ∈ cs, ∃ poly side, polys[c.poly]? = some poly ∧ (sides poly)[c.idx]? = some side ∧ Passes s.2 side ∧ |(c.x : Rat) - passX s.2 side| < 1 ∧ s.1 ≤ c.x ∧ c.x ≤ e.1) ∧
    (∀ i poly k side, polys[i]? = some poly → (sides poly)[k]? = some side → Passes s.2 side → (s.1 : Rat) + 1 ≤ passX s.2 side → passX s.2 side ≤ e.1 - 1 → ∃ c ∈ cs, c.poly = i ∧ c.idx = k) ∧
    (cs.map fun c => (c.poly, c.idx)).Nodup ∧ cs.Pairwise fun a b => a.x ≤ b.x

end Spec

end Verif.Comb
