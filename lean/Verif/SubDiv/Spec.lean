import Mathlib.Data.List.Basic
import Mathlib.Data.List.Forall2

/-! # Cubic subdivision: what is to be drawn -/

namespace Verif.SubDiv

structure P2 where
  x : Int
  y : Int
  deriving DecidableEq, Repr

structure P3 where
  x : Int
  y : Int
  z : Int
  deriving DecidableEq, Repr

/-- A line from one point to another. -/
abbrev Line := P2 × P2

/-- A cube: how often it can still be divided, its middle, and the cubes it is divided into. -/
inductive Cube where
  | node (depth : Nat) (center : P3) (children : List Cube)

/-- `CubeProperties` (include/infill/SubDivCube.h:54-61), without the two that only say where in a cube a line is. -/
structure Step where
  side : Int
  height : Int
  drawZ : Int
  deriving DecidableEq, Repr

namespace Cube

def depth : Cube → Nat
  | node d _ _ => d

def center : Cube → P3
  | node _ c _ => c

def children : Cube → List Cube
  | node _ _ cs => cs

end Cube

def P3.add (a b : P3) : P3 := ⟨a.x + b.x, a.y + b.y, a.z + b.z⟩

def P3.scale (a : P3) (k : Int) : P3 := ⟨a.x * k, a.y * k, a.z * k⟩

namespace Spec

mutual
/-- All cubes of a tree. -/
def cubes : Cube → List Cube
  | .node d c cs => .node d c cs :: cubesList cs

def cubesList : List Cube → List Cube
  | [] => []
  | c :: cs => cubes c ++ cubesList cs
end

/-- Two points that count as one. -/
def Close (p q : P2) : Prop := (p.x - q.x).natAbs < 10 ∧ (p.y - q.y).natAbs < 10

/-- Lines that follow each other, and the line from the beginning of the first to the end of the last. -/
inductive Chain : List Line → Line → Prop where
  | one (l : Line) : Chain [l] l
  | join {xs ys : List Line} {a b c d : P2} : Chain xs (a, b) → Chain ys (c, d) → Close b c → Chain (xs ++ ys) (a, d)

/-- The lines of a group are made of the given ones: each given line is in exactly one of them. -/
def MadeOf (given group : List Line) : Prop :=
  ∃ parts : List (List Line), List.Forall₂ Chain parts group ∧ parts.flatten.Perm given

/-- How the sizes of the steps fit, as far as needed for `d` divisions: the height of a cube is the root of three times its side, rounded down, so that it doubles
at least; its lines end at a third of the height; and the smallest cube is not too small for rounding. -/
structure Fits (steps : List Step) (d : Nat) : Prop where
  len : d < steps.length
  double : ∀ (i : Nat) (a b : Step), steps[i]? = some a → steps[i + 1]? = some b → 2 * a.height ≤ b.height
  draw : ∀ (i : Nat) (a : Step), steps[i]? = some a → 3 * a.drawZ ≤ a.height + 1
  first : ∀ a : Step, steps[0]? = some a → 6 * (d : Int) + 5 ≤ a.height

/-- The cubes that have to be there: the root, and of each that can be divided those parts that are worth it. -/
inductive Needed (steps : List Step) (rot : P3 → P3) (valid : P3 → Int → Bool) (add : Int) (root : P3) (D : Nat) : Nat → P3 → Prop where
  | root : Needed steps rot valid add root D D root
  | part {d : Nat} {c : P3} (st : Step) (r : P3) (hn : Needed steps rot valid add root D (d + 1) c) (hs : steps[d + 1]? = some st)
      (hx : r.x = 1 ∨ r.x = -1) (hy : r.y = 1 ∨ r.y = -1) (hz : r.z = 1 ∨ r.z = -1)
      (hv : valid (c.add (rot (r.scale (st.side.tdiv 4)))) ((st.height + 4 * add).tdiv 4) = true) :
      Needed steps rot valid add root D d (c.add (rot (r.scale (st.side.tdiv 4))))

end Spec

end Verif.SubDiv
