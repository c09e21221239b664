import Verif.Bridge.Model

/-! # What is expected of walls over air -/

namespace Verif.Bridge

open Verif.Order (Pt)
open Verif.Walls (size)

/-- The place `t` of a line is over air, on a stretch of at least the given length. The stretches are those between the intersections `xs` with the
border of the mask, in order; from one to the next it changes whether they are over air. -/
def Long (inside : Bool) (xs : List ℚ) (len minLen : Int) (t : ℚ) : Prop :=
  ∃ (k : Nat) (lo hi : ℚ), (0 :: xs)[k]? = some lo ∧ (xs ++ [1])[k]? = some hi ∧ lo < t ∧ t < hi ∧ inside = decide (k % 2 = 0) ∧
    minLen ≤ ⌊(hi - lo) * len⌋

/-- Stretches, alternately over air and supported. -/
def flags : Bool → List Int → List (Bool × Int)
  | _, [] => []
  | over, l :: ls => (over, l) :: flags (!over) ls

/-- The lengths from a point to the next one and so on. -/
def gaps : Pt → List Pt → List Int
  | _, [] => []
  | p, x :: l => size x p :: gaps x l

/-- The point of the wall that follows, backwards or forwards; the wall is a ring. -/
def neighbour (back : Bool) (n i : Nat) : Nat :=
  if back then (if i = 0 then n - 1 else i - 1) else if i + 1 = n then 0 else i + 1

/-- The stretches of the `k` segments of the wall that follow: the next one leads from `p` to point `i`. -/
def ahead (M : Mask) (pts : List Pt) (back : Bool) : Nat → Pt → Nat → Bool → List (Bool × Int)
  | 0, _, _, _ => []
  | k + 1, p, i, over =>
    match pts[i]? with
    | none => []
    | some q => flags over (gaps p (((M.cross p q).insertionSort (· ≤ ·)).map (Scarf.lerpPt p q) ++ [q])) ++
        ahead M pts back k q (neighbour back pts.length i) (over != decide ((M.cross p q).length % 2 = 1))

/-- The length of what is supported within the first `S` units. -/
def supported : Int → List (Bool × Int) → Int
  | _, [] => 0
  | S, e :: l => (if e.1 then 0 else min S e.2) + supported (max 0 (S - e.2)) l

/-- An end of a line is anchored: what is supported at that end of the line, together with what is supported of the rest of the wall up to twice the line
width from it, is at least as long as the line is wide. -/
def Anchored (M : Mask) (pts : List Pt) (i : Nat) (tip : Pt) (back : Bool) (inner width : Int) : Prop :=
  width ≤ inner ∨ ∃ k, ∀ k' ≥ k, width ≤ inner + supported (width * 2) (ahead M pts back k' tip (neighbour back pts.length i) (M.inside tip))

/-- What is supported of the line itself at its start or end. -/
def inner (inside : Bool) (len : Int) (first : Option ℚ) : Int := if inside then 0 else ⌊first.getD 0 * len⌋

/-- The mask behaves: intersections are on the line, there is one if only one end is inside, and what is inside or crosses hits the bounding box. -/
structure Good (M : Mask) (p q : Pt) : Prop where
  range : ∀ x ∈ M.cross p q, 0 ≤ x ∧ x ≤ 1
  crosses : M.inside p ≠ M.inside q → M.cross p q ≠ []
  hits : M.hit p q = false → M.inside p = false ∧ M.inside q = false ∧ M.cross p q = []

/-- Parts of a line in order, not overlapping. -/
def Ordered (subs : List (ℚ × ℚ)) : Prop :=
  (∀ x ∈ subs, 0 ≤ x.1 ∧ x.1 ≤ x.2 ∧ x.2 ≤ 1) ∧ subs.Pairwise fun x y => x.2 ≤ y.1

/-- Moves that follow each other from one place to another. -/
def Leads : ℚ → List Out → ℚ → Prop
  | x, [], y => x = y
  | x, o :: l, y => o.a = x ∧ x ≤ o.b ∧ Leads o.b l y

/-- The numbers that are never negative. -/
structure Cfg.Ok (c : Cfg) : Prop where
  flow : 0 ≤ c.flow
  width : 0 ≤ c.width
  rate : 0 ≤ c.rate
  ease : 0 ≤ c.ease
  coast : 0 ≤ c.coast

/-- A bridge is printed where it should be. -/
structure Bridged (c : Cfg) (len : ℚ) (o : Out) (sub : ℚ × ℚ) : Prop where
  stop : o.b = sub.2 * len
  start : o.a ≤ sub.1 * len ∧ sub.1 * len - o.a ≤ 5
  flow : o.flow = c.flow
  speed : o.speed = 1

end Verif.Bridge
