import Verif.Lightning.Model

/-! # What is expected of lightning infill -/

namespace Verif.Lightning

variable {P K : Type}

/-- The nodes of trees. -/
def ids (ts : List (Tree P)) : List Nat := (nodesList ts).map (·.1)

mutual
/-- The branches: from a node to each of its children. -/
def Tree.edges : Tree P → List (Nat × Nat)
  | .node i _ _ cs => edgesList i cs
def edgesList (i : Nat) : List (Tree P) → List (Nat × Nat)
  | [] => []
  | c :: cs => (i, c.id) :: (c.edges ++ edgesList i cs)
end

/-- The branches of a forest. -/
def edges (ts : List (Tree P)) : List (Nat × Nat) := ts.flatMap Tree.edges

/-- Two nodes are connected by a branch, whichever is the parent. -/
def Adj (ts : List (Tree P)) (a b : Nat) : Prop := (a, b) ∈ edges ts ∨ (b, a) ∈ edges ts

/-- What is assumed of a layer: the points to be supported are in different cells, the cell of a point is looked at when it is supported, and a point supports
itself. -/
structure Layer.Ok (l : Layer P K) : Prop where
  distinct : (l.dots.map l.env.cell).Nodup
  self : ∀ node, ∀ u ∈ l.dots, l.env.cell u ∈ l.env.cells node u
  short : ∀ u, l.env.short u u = true

/-- What is on the outline of a layer. -/
structure Outline (env : Env P K) (on : P → Prop) : Prop where
  closest : ∀ x, on (env.closest x)
  crossing : ∀ x y z, env.crossing x y = some z → on z

/-- All points are supported by a node that is close. -/
def Supported (env : Env P K) (dots : List P) (ts : List (Tree P)) : Prop := ∀ u ∈ dots, ∃ n ∈ nodesList ts, env.short u n.2 = true

mutual
/-- How far it is from a node to the end of the branches. -/
def Tree.height (dist : P → P → Int) : Tree P → Int
  | .node _ p _ cs => heightList dist p cs
def heightList (dist : P → P → Int) (p : P) : List (Tree P) → Int
  | [] => 0
  | c :: cs => max (c.height dist + dist p c.loc) (heightList dist p cs)
end

mutual
/-- The nodes other than the first, each with the tree from there on and its parent. -/
def Tree.kids : Tree P → List (Nat × P × Tree P)
  | .node i p _ cs => kidsList i p cs
def kidsList (i : Nat) (p : P) : List (Tree P) → List (Nat × P × Tree P)
  | [] => []
  | c :: cs => (i, p, c) :: (c.kids ++ kidsList i p cs)
end

mutual
/-- The branches by the places of their ends, from the child to the parent. -/
def Tree.segments : Tree P → List (P × P)
  | .node _ p _ cs => segmentsList p cs
def segmentsList (p : P) : List (Tree P) → List (P × P)
  | [] => []
  | c :: cs => (c.loc, p) :: (c.segments ++ segmentsList p cs)
end

/-- A branch, by its nodes and the place of the child. -/
def brief (x : Nat × P × Tree P) : Nat × Nat × P := (x.1, x.2.2.id, x.2.2.loc)

/-- A branch, by its nodes and where these are. -/
def link (x : Nat × P × Tree P) : Nat × P × Nat × P := (x.1, x.2.1, x.2.2.id, x.2.2.loc)

/-- The branches of a forest. -/
def links (ts : List (Tree P)) : List (Nat × P × Nat × P) := ts.flatMap fun t => t.kids.map link

mutual
/-- The ends of the branches. -/
def Tree.ends : Tree P → List (Nat × P)
  | .node i p _ [] => [(i, p)]
  | .node _ _ _ (c :: cs) => c.ends ++ endsList cs
def endsList : List (Tree P) → List (Nat × P)
  | [] => []
  | c :: cs => c.ends ++ endsList cs
end

mutual
/-- The shape of a tree: nodes along a branch are left out. -/
def Tree.skeleton : Tree P → Tree Unit
  | .node _ _ _ [c] => c.skeleton
  | .node i _ _ cs => .node i () none (skeletonList cs)
def skeletonList : List (Tree P) → List (Tree Unit)
  | [] => []
  | c :: cs => c.skeleton :: skeletonList cs
end

/-- The pieces of a line. -/
def pieces : List P → List (P × P)
  | a :: b :: ps => (a, b) :: pieces (b :: ps)
  | _ => []

/-- How long a line is. -/
def lineLength (dist : P → P → Int) : List P → Int
  | a :: b :: ps => dist a b + lineLength dist (b :: ps)
  | _ => 0

/-- A branch which is new: from the leaf to where it is grounded. -/
def NewBranch (env : Env P K) (ts : List (Tree P)) (a b : Nat) (dots : List P) : Prop :=
  ∃ u ∈ dots, (b, u) ∈ nodesList ts ∧ ((a, env.closest u) ∈ nodesList ts ∨ ∃ q, (a, q) ∈ nodesList ts ∧ env.collides u q = false)

/-- Whether a branch is kept: it is not within a distance from the ends of the branches. -/
def keeps (dist : P → P → Int) (d : Int) (x : Nat × P × Tree P) : Bool :=
  decide (d ≤ x.2.2.height dist) || decide (d < x.2.2.height dist + dist x.2.1 x.2.2.loc)

/-- A branch which is kept: the node goes to where the distance from the ends is reached. -/
def cut (env : Env P K) (d : Int) (x : Nat × P × Tree P) : Nat × Nat × P :=
  (x.1, x.2.2.id, if x.2.2.height env.dist < d then env.along x.2.2.loc x.2.1 (d - x.2.2.height env.dist) else x.2.2.loc)

/-- What is assumed of how nodes are moved. -/
structure Smooth.Ok (s : Smooth P) (near : P → P → Prop) : Prop where
  refl : ∀ p, near p p
  toward : ∀ p q, near p (s.toward p q)
  push : ∀ p ds, near p (s.push p ds)
  stay : ∀ p, s.toward p p = p
  start : ∀ a b m, s.dest a b 0 m = a

/-- A relation between the nodes before and the nodes after. -/
def Moved (near : P → P → Prop) (old new : List (Nat × P)) : Prop :=
  ∀ n ∈ new, ∃ p, (n.1, p) ∈ old ∧ near p n.2

/-- Whether a branch stays: both ends are inside and it is not broken. -/
def sound (env : Env P K) (l : Nat × P × Nat × P) : Bool := env.inside l.2.1 && (env.inside l.2.2.2 && (env.crossing l.2.2.2 l.2.1).isNone)

end Verif.Lightning
