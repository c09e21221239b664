import Mathlib.Data.Int.Notation

/-! # Lightning infill

Models `LightningTreeNode` (src/infill/LightningTreeNode.cpp), `LightningLayer` (src/infill/LightningLayer.cpp), `LightningDistanceField`
(src/infill/LightningDistanceField.cpp) and the loop of `LightningGenerator::generateTrees` (src/infill/LightningGenerator.cpp:137-184): trees that support what
is above, which are grounded on the outline of the infill, layer by layer from the top.

Nodes are numbers, and a tree holds its children, so that pointers to parents are implicit: that this is a tree is shown in the proofs, by numbers that do not
repeat. Geometry is a parameter: distances, the closest point on the outline, what is inside, what lines cross. -/

namespace Verif.Lightning

/-- `LightningTreeNode` (include/infill/LightningTreeNode.h): the node, `p_`, `last_grounding_location_` and `children_`. -/
inductive Tree (P : Type)
  | node (id : Nat) (p : P) (ground : Option P) (cs : List (Tree P))

variable {P K : Type}

def Tree.id : Tree P → Nat
  | .node i _ _ _ => i

def Tree.loc : Tree P → P
  | .node _ p _ _ => p

def Tree.ground : Tree P → Option P
  | .node _ _ g _ => g

def Tree.cs : Tree P → List (Tree P)
  | .node _ _ _ cs => cs

def Tree.setLoc (q : P) : Tree P → Tree P
  | .node i _ g cs => .node i q g cs

def Tree.setGround (g : Option P) : Tree P → Tree P
  | .node i p _ cs => .node i p g cs

/-- The parameters of a layer. `closest` is `PolygonUtils::findClosest`; `dist` is `vSize` and `dist2` is `vSize2` of a difference; `collides` is
`polygonCollidesWithLineSegment`; `crossing` is `lineSegmentPolygonsIntersection`; `inside` is `Shape::inside`; `nearby` is `getNearbyVals`; `cell` is
`SquareGrid::toGridPoint`; `cells` are the cells that `LightningDistanceField::update` visits, in order; `short` is `shorterThen` with the supporting radius;
`along b a d` is `b + normal(a - b, d)`. -/
structure Env (P K : Type) where
  closest : P → P
  dist : P → P → Int
  dist2 : P → P → Int
  collides : P → P → Bool
  crossing : P → P → Option P
  inside : P → Bool
  empty : Bool
  nearby : List (P × Nat) → P → Int → List Nat
  cell : P → K
  cells : P → P → List K
  short : P → P → Bool
  radius : Int
  wallRadius : Int
  along : P → P → Int → P

/-! ## Nodes -/

mutual
/-- Looks for a node; `hasOffspring` (src/infill/LightningTreeNode.cpp:25-37) is whether it is found. -/
def Tree.find (i : Nat) : Tree P → Option (Tree P)
  | .node j p g cs => if j = i then some (.node j p g cs) else findList i cs
def findList (i : Nat) : List (Tree P) → Option (Tree P)
  | [] => none
  | c :: cs => match c.find i with
    | some t => some t
    | none => findList i cs
end

mutual
/-- `addChild` (src/infill/LightningTreeNode.cpp:56-64) at the node `i`. -/
def Tree.addAt (i : Nat) (new : Tree P) : Tree P → Tree P
  | .node j p g cs => .node j p g (addAtList i new cs ++ if j = i then [new] else [])
def addAtList (i : Nat) (new : Tree P) : List (Tree P) → List (Tree P)
  | [] => []
  | c :: cs => Tree.addAt i new c :: addAtList i new cs
end

mutual
/-- `closestNode` (src/infill/LightningTreeNode.cpp:154-171): the node and where it is. -/
def Tree.closest (dist2 : P → P → Int) (q : P) : Tree P → Nat × P
  | .node i p _ cs => closestList dist2 q cs (i, p)
def closestList (dist2 : P → P → Int) (q : P) : List (Tree P) → Nat × P → Nat × P
  | [], best => best
  | c :: cs, best => closestList dist2 q cs (if dist2 (c.closest dist2 q).2 q < dist2 best.2 q then c.closest dist2 q else best)
end

mutual
/-- `reroot` (src/infill/LightningTreeNode.cpp:132-152) at the node `i`: `up` is what becomes of the parent, if there is one. -/
def Tree.reroot (i : Nat) : Tree P → List (Tree P) → Option (Tree P)
  | .node j p g cs, up => if j = i then some (.node j p g (cs ++ up)) else rerootList i j p g [] cs up
def rerootList (i j : Nat) (p : P) (g : Option P) (before : List (Tree P)) : List (Tree P) → List (Tree P) → Option (Tree P)
  | [], _ => none
  | c :: cs, up => match c.reroot i [.node j p g (before ++ cs ++ up)] with
    | some t => some t
    | none => rerootList i j p g (before ++ [c]) cs up
end

mutual
/-- `visitNodes` (src/infill/LightningTreeNode.cpp:97-105): the nodes in the order in which they are visited. -/
def Tree.nodes : Tree P → List (Nat × P)
  | .node i p _ cs => (i, p) :: nodesList cs
def nodesList : List (Tree P) → List (Nat × P)
  | [] => []
  | c :: cs => c.nodes ++ nodesList cs
end

/-! ## New trees -/

/-- `unsupported_points_` and `unsupported_points_grid_` (include/infill/LightningDistanceField.h:109-119). -/
structure Field (P K : Type) where
  points : List P
  grid : List (K × P)

variable [DecidableEq P] [DecidableEq K]

/-- The constructor (src/infill/LightningDistanceField.cpp:13-40), given the points in the order in which they are sorted. A cell keeps its first point. -/
def Field.init (env : Env P K) (dots : List P) : Field P K :=
  ⟨dots, dots.foldl (fun grid q => if (grid.lookup (env.cell q)).isSome then grid else grid ++ [(env.cell q, q)]) []⟩

/-- `process_func` in `update` (src/infill/LightningDistanceField.cpp:54-68). -/
def Field.process (env : Env P K) (leaf : P) (f : Field P K) (k : K) : Field P K :=
  match f.grid.lookup k with
  | none => f
  | some q => if env.short q leaf then ⟨f.points.erase q, f.grid.filter (fun e => !decide (e.1 = k))⟩ else f

/-- `update` (src/infill/LightningDistanceField.cpp:52-83). -/
def Field.update (env : Env P K) (node leaf : P) (f : Field P K) : Field P K := (env.cells node leaf).foldl (Field.process env leaf) f

/-- `tree_roots`, the `tree_node_locator`, and the number of the next node. -/
structure State (P : Type) where
  forest : List (Tree P)
  locator : List (P × Nat)
  next : Nat

omit [DecidableEq P] in
omit [DecidableEq K] in
/-- `LightningTreeNode::getWeightedDistance` (src/infill/LightningTreeNode.cpp:13-23). -/
def weighted (env : Env P K) (forest : List (Tree P)) (n : Tree P) (u : P) : Int :=
  let valence := (if forest.any (fun t => decide (t.id = n.id)) then 0 else 1) + n.cs.length
  env.dist n.loc u - (if 0 < valence ∧ valence < 4 then 4 * env.radius else 0)

/-- One candidate in `getBestGroundingLocation` (src/infill/LightningLayer.cpp:101-114). -/
def consider (env : Env P K) (forest : List (Tree P)) (exclude : Option (Tree P)) (u : P) (a : Int × Option (Tree P)) (i : Nat) : Int × Option (Tree P) :=
  match findList i forest with
  | none => a
  | some n =>
    if (exclude.bind (Tree.find i)).isNone ∧ env.collides u n.loc = false ∧ weighted env forest n u < a.1 then (weighted env forest n u, some n) else a

/-- `getBestGroundingLocation` (src/infill/LightningLayer.cpp:81-125): the node of a tree, or none for the closest point on the outline. -/
def best (env : Env P K) (wallRadius : Int) (st : State P) (exclude : Option (Tree P)) (u : P) : Option (Tree P) :=
  let d := env.dist (env.closest u) u
  if wallRadius ≤ d then ((env.nearby st.locator u d).foldl (consider env st.forest exclude u) (d, none)).2 else none

/-- `attach` (src/infill/LightningLayer.cpp:127-142), and the nodes are put into the locator (70-74). -/
def attach (u q : P) (g : Option (Tree P)) (st : State P) : State P :=
  match g with
  | none => ⟨st.forest ++ [.node st.next q (some q) [.node (st.next + 1) u none []]], st.locator ++ [(u, st.next + 1), (q, st.next)], st.next + 2⟩
  | some n => ⟨addAtList n.id (.node st.next u none []) st.forest, st.locator ++ [(u, st.next)], st.next + 1⟩

/-- The loop of `generateNewTrees` (src/infill/LightningLayer.cpp:61-78). The number bounds the number of rounds. -/
def newLoop (env : Env P K) : Nat → Field P K → State P → Option (State P)
  | 0, f, st => if f.points = [] then some st else none
  | n + 1, f, st =>
    match f.points with
    | [] => some st
    | u :: _ =>
      let g := best env env.wallRadius st none u
      newLoop env n (f.update env (match g with | none => env.closest u | some n => n.loc) u) (attach u (env.closest u) g st)

/-- `fillLocator` (src/infill/LightningLayer.cpp:35-45). -/
def fill (forest : List (Tree P)) : List (P × Nat) := (nodesList forest).map fun n => (n.2, n.1)

/-- `generateNewTrees` (src/infill/LightningLayer.cpp:47-79). -/
def newTrees (env : Env P K) (dots : List P) (forest : List (Tree P)) (next : Nat) : Option (State P) :=
  newLoop env dots.length (Field.init env dots) ⟨forest, fill forest, next⟩

/-! ## Trees from above are connected -/

/-- The place of a root in `tree_roots` (src/infill/LightningLayer.cpp:159). -/
def split (i : Nat) : List (Tree P) → Option (List (Tree P) × Tree P × List (Tree P))
  | [] => none
  | t :: ts => if t.id = i then some ([], t, ts) else (split i ts).map fun (a, x, b) => (t :: a, x, b)

/-- A root is replaced by the last one (src/infill/LightningLayer.cpp:212-214). -/
def swapOut (before after : List (Tree P)) : List (Tree P) :=
  match after.getLast? with
  | none => before
  | some l => before ++ l :: after.dropLast

/-- Where the line to the last ground crosses the outline (src/infill/LightningLayer.cpp:161-168). -/
def lastGround (env : Env P K) (t : Tree P) : Option P :=
  match t.ground with
  | none => none
  | some g => if g = t.loc then none else env.crossing t.loc g

/-- A root is connected (src/infill/LightningLayer.cpp:157-216). The offset is 100. -/
def reconnectOne (env : Env P K) (i : Nat) (st : State P) : Option (State P) := do
  let (before, t, after) ← split i st.forest
  match lastGround env t with
  | some x => some ⟨before ++ .node st.next x (some x) [t] :: after, st.locator ++ [(x, st.next)], st.next + 1⟩
  | none =>
    match best env (env.wallRadius - 100) st (some t) t.loc with
    | none =>
      let q := env.closest t.loc
      if q = t.loc then some st
      else do
        let t' ← t.reroot (t.closest env.dist2 q).1 []
        some ⟨before ++ .node st.next q (some q) [t'] :: after, st.locator ++ [(q, st.next)], st.next + 1⟩
    | some n => do
      let t' ← t.reroot (t.closest env.dist2 n.loc).1 []
      if (findList n.id (before ++ after)).isSome then some { st with forest := addAtList n.id t' (swapOut before after) } else none

/-- `reconnectRoots` (src/infill/LightningLayer.cpp:144-217). -/
def reconnect (env : Env P K) : List Nat → State P → Option (State P)
  | [], st => some st
  | i :: is, st => (reconnectOne env i st).bind (reconnect env is)

/-! ## The next layer -/

mutual
/-- `deepCopy` (src/infill/LightningTreeNode.cpp:114-130). -/
def Tree.copy (root : Bool) : Tree P → Tree P
  | .node i p g cs => .node i p (if root then some (g.getD p) else none) (copyList cs)
def copyList : List (Tree P) → List (Tree P)
  | [] => []
  | c :: cs => c.copy false :: copyList cs
end

mutual
/-- `prune` (src/infill/LightningTreeNode.cpp:310-351) for a distance above zero: the distance that was pruned and the tree. -/
def Tree.prune (env : Env P K) (d : Int) : Tree P → Int × Tree P
  | .node i p g cs => ((pruneList env d p cs 0).1, .node i p g (pruneList env d p cs 0).2)
def pruneList (env : Env P K) (d : Int) (p : P) : List (Tree P) → Int → Int × List (Tree P)
  | [], best => (best, [])
  | c :: cs, best =>
    let r := c.prune env d
    if d ≤ r.1 then
      let rest := pruneList env d p cs (max best r.1)
      (rest.1, r.2 :: rest.2)
    else if r.1 + env.dist p c.loc ≤ d then pruneList env d p cs (max best (r.1 + env.dist p c.loc))
    else
      let rest := pruneList env d p cs (max best d)
      (rest.1, r.2.setLoc (env.along c.loc p (d - r.1)) :: rest.2)
end

/-- The parameters of `straighten`: `dest a b n m` is `a + (b - a) * n / m`; `toward p q` is `q` if that is not further from `p` than the magnitude, and
otherwise the point in that direction at that distance (src/infill/LightningTreeNode.cpp:250-257); `close q p c` is whether the node at `p` is on the line
(264-265); `push p ds` is where a junction is moved to (283-304), given where the junctions next to it are; `near` is whether a distance is below the
magnitude. -/
structure Smooth (P : Type) where
  dest : P → P → Int → Int → P
  toward : P → P → P
  close : P → P → P → Bool
  push : P → List P → P
  near : Int → Bool

mutual
/-- `straighten` (src/infill/LightningTreeNode.cpp:226-307): the distance and the place of the junction below, and the tree which takes the place of this one. -/
def Tree.straighten (env : Env P K) (s : Smooth P) (parent : Option P) (above : P) (acc : Int) : Tree P → (Int × P) × Tree P
  | .node i p g [] => ((acc, p), .node i p g [])
  | .node i p g [c] =>
    let r := c.straighten env s (some p) above (acc + env.dist p c.loc)
    let p' := if above = r.1.2 then p else s.toward p (s.dest above r.1.2 acc (max 1 r.1.1))
    match parent with
    | none => (r.1, .node i p' g [r.2])
    | some q => if s.close q p' r.2.loc then (r.1, r.2) else (r.1, .node i p' g [r.2])
  | .node i p g (c :: c' :: cs) =>
    let r := straightenList env s p (c :: c' :: cs)
    let p' := if parent.isNone ∨ r.1.any (fun j => s.near j.1) then p else s.push p (above :: r.1.map (·.2))
    ((acc, p'), .node i p' g r.2)
def straightenList (env : Env P K) (s : Smooth P) (p : P) : List (Tree P) → List (Int × P) × List (Tree P)
  | [] => ([], [])
  | c :: cs =>
    let r := c.straighten env s (some p) p (env.dist p c.loc)
    let rest := straightenList env s p cs
    (r.1 :: rest.1, r.2 :: rest.2)
end

mutual
/-- `realign` (src/infill/LightningTreeNode.cpp:173-224): whether the node stays, the tree and the `rerooted_parts` that are added. -/
def Tree.realign (env : Env P K) : Tree P → Bool × Tree P × List (Tree P)
  | .node i p g cs =>
    if env.empty then (false, .node i p g cs, [])
    else if env.inside p then
      let r := realignKids env p cs
      (true, .node i p (if r.2.2 then none else g) r.1, r.2.1)
    else (false, .node i p g [], realignLift env p cs)
/-- The children of a node that is inside: those that stay, the parts, and whether one was cut off. -/
def realignKids (env : Env P K) (p : P) : List (Tree P) → List (Tree P) × List (Tree P) × Bool
  | [] => ([], [], false)
  | c :: cs =>
    let r := c.realign env
    let rest := realignKids env p cs
    if r.1 then
      if (env.crossing r.2.1.loc p).isSome then (rest.1, r.2.2 ++ r.2.1.setGround none :: rest.2.1, true)
      else (r.2.1 :: rest.1, r.2.2 ++ rest.2.1, rest.2.2)
    else (rest.1, r.2.2 ++ rest.2.1, rest.2.2)
/-- The children of a node that is not. -/
def realignLift (env : Env P K) (p : P) : List (Tree P) → List (Tree P)
  | [] => []
  | c :: cs =>
    let r := c.realign env
    r.2.2 ++ (if r.1 then [r.2.1.setGround (some p)] else []) ++ realignLift env p cs
end

/-- `propagateToNextLayer` (src/infill/LightningTreeNode.cpp:66-82); `env` is that of the layer below. -/
def propagate (env : Env P K) (s : Smooth P) (d : Int) (t : Tree P) : List (Tree P) :=
  let t := t.copy true
  let t := if d ≤ 0 then t else (t.prune env d).2
  let t := (t.straighten env s none t.loc 0).2
  let r := t.realign env
  r.2.2 ++ if r.1 then [r.2.1] else []

/-- A layer: its geometry and the points that are to be supported. -/
structure Layer (P K : Type) where
  env : Env P K
  dots : List P

/-- A layer, given the trees from above (src/infill/LightningGenerator.cpp:162-167). -/
def doLayer (l : Layer P K) (forest : List (Tree P)) (next : Nat) : Option (State P) := do
  let st ← newTrees l.env l.dots forest next
  reconnect l.env (forest.map Tree.id) { st with locator := fill st.forest }

/-- The trees of the next layer down, if there is one (src/infill/LightningGenerator.cpp:169-182). -/
def lower (s : Smooth P) (d : Int) (ls : List (Layer P K)) (forest : List (Tree P)) : List (Tree P) :=
  match ls with
  | [] => []
  | l :: _ => forest.flatMap (propagate l.env s d)

/-- The loop of `generateTrees` (src/infill/LightningGenerator.cpp:155-183): the trees of the layers, from the top. -/
def generate (s : Smooth P) (d : Int) : List (Layer P K) → List (Tree P) → Nat → Option (List (List (Tree P)))
  | [], _, _ => some []
  | l :: ls, forest, next => do
    let st ← doLayer l forest next
    let rest ← generate s d ls (lower s d ls st.forest) st.next
    some (st.forest :: rest)

/-- How far the outlines are from the edge of the infill (src/infill/LightningGenerator.cpp:37,56,120,137-148): the number of infill walls is handed over as
the thickness of the walls. -/
def meshWallOffset (wallCount _lineWidth : Int) : Int := -wallCount

/-! ## Lines -/

mutual
/-- `convertToPolylines` (src/infill/LightningTreeNode.cpp:367-387): the long line and the other ones. `pick` is what `rand` yields at a node. -/
def Tree.lines (pick : Nat → Nat) : Tree P → List P × List (List P)
  | .node i p _ cs =>
    let parts := linesList pick cs
    match parts.drop (pick i % cs.length) ++ parts.take (pick i % cs.length) with
    | [] => ([p], [])
    | first :: rest => (first.1 ++ [p], first.2 ++ rest.flatMap fun l => (l.1 ++ [p]) :: l.2)
def linesList (pick : Nat → Nat) : List (Tree P) → List (List P × List (List P))
  | [] => []
  | c :: cs => c.lines pick :: linesList pick cs
end

/-- The end of a line is taken off (src/infill/LightningTreeNode.cpp:402-420); the last point is the first in the list. `at a b d` is `a + (b - a) * d / |b - a|`. -/
def shorten (dist : P → P → Int) (at' : P → P → Int → P) : List P → Int → List P
  | a :: b :: ps, d => if d ≤ dist b a then at' a b d :: b :: ps else shorten dist at' (b :: ps) (d - dist b a)
  | ps, _ => ps

/-- The current line is replaced by the last one. -/
def dropLine (ls : List (List P)) : List (List P) :=
  match ls.getLast? with
  | none => []
  | some l => l :: ls.dropLast

/-- The loop of `removeJunctionOverlap` (src/infill/LightningTreeNode.cpp:392-431). Each round is done with one line, so that their number bounds the rounds. -/
def overlapLoop (dist : P → P → Int) (at' : P → P → Int → P) (d : Int) : Nat → List (List P) → List (List P)
  | 0, _ => []
  | _, [] => []
  | n + 1, l :: ls =>
    if l.length ≤ 1 then overlapLoop dist at' d n (dropLine ls)
    else
      let l' := (shorten dist at' l.reverse d).reverse
      if l'.length ≤ 1 then overlapLoop dist at' d n (dropLine ls) else l' :: overlapLoop dist at' d n ls

/-- `removeJunctionOverlap` (src/infill/LightningTreeNode.cpp:389-432). -/
def removeOverlap (dist : P → P → Int) (at' : P → P → Int → P) (d : Int) (ls : List (List P)) : List (List P) := overlapLoop dist at' d ls.length ls

/-- `convertToPolylines` (src/infill/LightningTreeNode.cpp:358-365). -/
def Tree.toLines (dist : P → P → Int) (at' : P → P → Int → P) (pick : Nat → Nat) (width : Int) (t : Tree P) : List (List P) :=
  removeOverlap dist at' (width.tdiv 2) ((t.lines pick).1 :: (t.lines pick).2)

end Verif.Lightning
