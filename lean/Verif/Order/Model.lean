import Verif.Basic
import Mathlib.Data.Int.Order.Basic
import Mathlib.Data.List.Dedup

/-
Model of the ordering of paths: include/PathOrderOptimizer.h and the depth-first search of
include/utils/views/dfs.h.

A path is known by its position in `paths_`; `id` stands for the `Path` value itself (a pointer), which
is what order requirements mention. What the choice of the next path depends on is kept as parameters
and so ranges over everything: the seam position of a closed path, the combing distance, the length of a
path, the result of the grid lookup, and the iteration order of `std::unordered_set`.
-/

namespace Verif.Order

/-- `Point2LL`. -/
structure Pt where
  x : Int
  y : Int
deriving DecidableEq, Repr

/-- A path as it is added: `PathOrdering` (include/path_ordering.h:29-112) before optimisation.
`fixedSeam` says that its seam type is one of RANDOM, USER_SPECIFIED and SHARPEST_CORNER
(include/PathOrderOptimizer.h:206-217, 248-249). -/
structure PathIn where
  id : Nat
  points : List Pt
  closed : Bool
  fixedSeam : Bool
deriving DecidableEq, Repr

/-- The optimizer with its parameters (include/PathOrderOptimizer.h:122-148). `seam i pos` is what
`findStartLocation` returns for the closed path at position `i` (lines 767-852, not modelled further);
`combing` is `getCombingDistance` (lines 876-910) if there is a combing boundary; `nearby` is the grid
lookup of line 373; `hashOrder` is the order in which an `unordered_set` with the given elements is
iterated. -/
structure Env where
  paths : List PathIn
  startPoint : Pt
  combing : Option (Pt → Pt → Int)
  seam : Nat → Pt → Nat
  seamPos : Pt
  length : Nat → Int
  nearby : Pt → List Nat
  hashOrder : List Nat → List Nat
  precompute : Bool
  detectLoops : Bool
  preferLongest : Bool
  reverse : Bool
  group : Bool

/-- `std::numeric_limits<coord_t>::max()`. -/
def COORD_MAX : Int := 2 ^ 63 - 1

/-- `getDirectDistance` (include/PathOrderOptimizer.h:861-864): the squared distance. -/
def direct (a b : Pt) : Int := (a.x - b.x) * (a.x - b.x) + (a.y - b.y) * (a.y - b.y)

/-- What the search for the next path changes: `start_vertex_` and `backwards_` of each path (by
position) and `prefer_longest_path_`. -/
structure St where
  start : Nat → Nat
  back : Nat → Bool
  longest : Bool

/-- Assigning one entry of a table. -/
def setAt {α : Type} (f : Nat → α) (i : Nat) (v : α) : Nat → α := fun j => if j = i then v else f j

/-- The path at a position. -/
def Env.path (env : Env) (i : Nat) : Outcome PathIn := Outcome.index env.paths i

/-- `back()` and `front()` of a polyline: undefined if it is empty. -/
def front (ps : List Pt) : Outcome Pt := Outcome.index ps 0

/-- See `front`. -/
def back (ps : List Pt) : Outcome Pt := if ps = [] then .ub else Outcome.index ps (ps.length - 1)

/-- The distance used for the back end (include/PathOrderOptimizer.h:756-757). -/
def backDistance (env : Env) (b target : Pt) : Int :=
  match env.combing with
  | none => direct b target
  | some c => c b target

/-- The comparison of the two ends (include/PathOrderOptimizer.h:758-760). -/
def backIsCloser (env : Env) (f b target : Pt) : Bool :=
  decide (backDistance env b target < direct f target) ||
    match env.combing with
    | none => false
    | some c => decide (backDistance env b target < c f target)

/-- `findStartLocation` (include/PathOrderOptimizer.h:751-852); for closed paths a parameter. -/
def findStartLocation (env : Env) (i : Nat) (p : PathIn) (target : Pt) : Outcome Nat :=
  if p.closed then .ok (env.seam i target)
  else do
    let b ← back p.points
    let f ← front p.points
    if backIsCloser env f b target then .ok (p.points.length - 1) else .ok 0

/-- The update of the start vertex and direction in `findClosestPath`
(include/PathOrderOptimizer.h:662-671). -/
def refreshStart (env : Env) (pos : Pt) (i : Nat) (p : PathIn) (st : St) : Outcome St :=
  if p.closed = false ∨ p.fixedSeam = false then do
    let v ← findStartLocation env i p pos
    let st := { st with start := setAt st.start i v }
    if p.closed = false then .ok { st with back := setAt st.back i (decide (v > 0)) } else .ok st
  else .ok st

/-- The distance to a candidate (include/PathOrderOptimizer.h:672-678). -/
def candidateDistance (env : Env) (pos q : Pt) (best : Int) : Int :=
  match env.combing with
  | none => direct pos q
  | some c => if direct pos q < best then c pos q else direct pos q

/-- The body of the loop of `findClosestPath` (include/PathOrderOptimizer.h:651-684). The loop state is
the best distance, the best candidate and the optimizer's state. -/
def closestStep (env : Env) (pos : Pt) (acc : Int × Option Nat × St) (i : Nat) :
    Outcome (Int × Option Nat × St) := do
  let p ← env.path i
  if p.points = [] then
    if acc.1 = COORD_MAX then .ok (acc.1, some i, acc.2.2) else .ok acc
  else
    let st ← refreshStart env pos i p acc.2.2
    let q ← Outcome.index p.points (st.start i)
    let d := candidateDistance env pos q acc.1
    if d < acc.1 then .ok (d, some i, st) else .ok (acc.1, acc.2.1, st)

/-- `findClosestPath` (include/PathOrderOptimizer.h:646-687). -/
def findClosest (env : Env) (pos : Pt) (cands : List Nat) (st : St) : Outcome (Option Nat × St) := do
  let r ← cands.foldlM (closestStep env pos) (COORD_MAX, none, st)
  .ok (r.2.1, r.2.2)

/-- `findLongestPath` (include/PathOrderOptimizer.h:633-644): the first of the longest ones. -/
def findLongest (env : Env) : List Nat → Option Nat
  | [] => none
  | i :: l =>
    match findLongest env l with
    | none => some i
    | some j => if env.length i < env.length j then some j else some i

/-- `findBestPath` (include/PathOrderOptimizer.h:626-631). -/
def findBest (env : Env) (pos : Pt) (cands : List Nat) (st : St) : Outcome (Option Nat × St) :=
  if st.longest then .ok (findLongest env cands, { st with longest := false })
  else findClosest env pos cands st

/-- Where the nozzle is after printing the path (include/PathOrderOptimizer.h:400-411, 476-484, 498-506):
a closed path ends where it started, an open one at its other end. -/
def endPosition (p : PathIn) (start : Nat) : Outcome Pt :=
  if p.closed then Outcome.index p.points start
  else if start = 0 then back p.points else front p.points

/-- One element of the result: a copy of the path, of which the start vertex and direction matter. -/
structure Out where
  idx : Nat
  start : Nat
  backwards : Bool
deriving DecidableEq, Repr

/-! ### Without order requirements -/

/-- The candidates of one round (include/PathOrderOptimizer.h:371-392). -/
def available (env : Env) (pos : Pt) (picked : List Nat) : List Nat :=
  let near := (env.nearby pos).filter (fun i => decide (i ∉ picked))
  if near = [] then (List.range env.paths.length).filter (fun i => decide (i ∉ picked)) else near

/-- The loop of `getOptimizedOrder` (include/PathOrderOptimizer.h:356-414); the fuel is the number of
rounds. Dereferencing a null result of `findBestPath` is undefined. -/
def freeLoop (env : Env) : Nat → Pt → List Out → St → Outcome (List Out)
  | 0, _, order, _ => if order.length < env.paths.length then .diverge else .ok order
  | fuel + 1, pos, order, st =>
    if order.length < env.paths.length then do
      let (best, st) ← findBest env pos (available env pos (order.map (·.idx))) st
      match best with
      | none => .ub
      | some i => do
        let p ← env.path i
        let order := order ++ [⟨i, st.start i, st.back i⟩]
        let pos ← if p.points = [] then .ok pos else endPosition p (st.start i)
        freeLoop env fuel pos order st
    else .ok order

/-! ### With order requirements -/

/-- The state of `getOptimizerOrderWithConstraints`: `num_incoming_edges` by path, `current_position`,
`optimized_order`, `visited`, `root_neighbours`. Counters are unbounded integers; they are unsigned in
the code and would wrap if they went below zero. -/
structure CSt where
  st : St
  pos : Pt
  order : List Out
  counts : Nat → Int
  visited : List Nat
  pool : List Nat

/-- `vertices_to_paths_.at` (include/PathOrderOptimizer.h:619, filled at line 189): the first path with
that value; it throws for unknown ones, which is not distinguished from undefined behaviour here. -/
def Env.find (env : Env) (id : Nat) : Outcome Nat :=
  match env.paths.findIdx? (fun p => decide (p.id = id)) with
  | some i => .ok i
  | none => .ub

/-- `findBestPathVertices` (include/PathOrderOptimizer.h:612-624). -/
def findBestVertices (env : Env) (pos : Pt) (cands : List Nat) (st : St) : Outcome (Nat × St) := do
  let idx ← (env.hashOrder cands).mapM env.find
  let (best, st) ← findBest env pos idx st
  match best with
  | none => .ub
  | some i => do
    let p ← env.path i
    .ok (p.id, st)

/-- The order requirements: `std::unordered_multimap`, as a list in iteration order. -/
abbrev Edges := List (Nat × Nat)

/-- The candidates among the neighbours of a node (include/PathOrderOptimizer.h:450-463). -/
def neighbourCandidates (edges : Edges) (counts : Nat → Int) (node : Nat) : List Nat :=
  (((edges.filter (fun e => decide (e.1 = node))).map (·.2)).filter
    (fun v => decide (counts v = 0))).dedup

/-- The sorting loop of `get_neighbours` (include/PathOrderOptimizer.h:465-485); the fuel is the number of
candidates. -/
def sortLoop (env : Env) : Nat → Pt → List Nat → List Nat → St → Outcome (List Nat × St)
  | 0, _, cands, order, st => if cands = [] then .ok (order, st) else .diverge
  | fuel + 1, pos, cands, order, st =>
    if cands = [] then .ok (order, st)
    else do
      let (b, st) ← findBestVertices env pos cands st
      let i ← env.find b
      let p ← env.path i
      let pos ← endPosition p (st.start i)
      sortLoop env fuel pos (cands.erase b) (order ++ [b]) st

/-- `get_neighbours` (include/PathOrderOptimizer.h:445-488). -/
def getNeighbours (env : Env) (edges : Edges) (node : Nat) (c : CSt) : Outcome (List Nat × CSt) := do
  let cands := neighbourCandidates edges c.counts node
  let (ns, st) ← sortLoop env cands.length c.pos cands [] c.st
  .ok (ns, { c with st := st })

/-- The decrements of `handle_node` (include/PathOrderOptimizer.h:511-516). -/
def decrement (edges : Edges) (node : Nat) (counts : Nat → Int) : Nat → Int :=
  (edges.filter (fun e => decide (e.1 = node))).foldl (fun k e => setAt k e.2 (k e.2 - 1)) counts

/-- `handle_node` (include/PathOrderOptimizer.h:490-523): nothing happens for a value that is not among
the paths. -/
def handleNode (env : Env) (edges : Edges) (node : Nat) (c : CSt) : Outcome CSt :=
  match env.paths.findIdx? (fun p => decide (p.id = node)) with
  | none => .ok c
  | some i => do
    let p ← env.path i
    let pos ← endPosition p (c.st.start i)
    .ok { c with
      pos := pos
      order := c.order ++ [⟨i, c.st.start i, c.st.back i⟩]
      counts := decrement edges node c.counts }

/-- `actions::dfs` (include/utils/views/dfs.h:41-63); the fuel bounds the depth of the recursion. -/
def dfs (env : Env) (edges : Edges) : Nat → Nat → CSt → Outcome CSt
  | 0, _, _ => .diverge
  | fuel + 1, node, c =>
    if node ∈ c.visited then .ok c
    else do
      let c ← handleNode env edges node { c with visited := node :: c.visited }
      let (ns, c) ← getNeighbours env edges node c
      ns.foldlM (fun c n => dfs env edges fuel n c) c

/-- The loops `while (! set.empty())` of include/PathOrderOptimizer.h:535-588: take the best element out
of the set and act on it; the fuel is the size of the set. -/
def setLoop (env : Env) (act : Nat → CSt → Outcome CSt) : Nat → List Nat → CSt → Outcome CSt
  | 0, s, c => if s = [] then .ok c else .diverge
  | fuel + 1, s, c =>
    if s = [] then .ok c
    else do
      let (b, st) ← findBestVertices env c.pos s c.st
      let c ← act b { c with st := st }
      setLoop env act fuel (s.erase b) c

/-- `roots` after include/PathOrderOptimizer.h:421-438: paths without an incoming requirement. -/
def rootsOf (env : Env) (edges : Edges) : List Nat :=
  ((env.paths.map (·.id)).dedup).filter (fun v => decide (∀ e ∈ edges, e.2 ≠ v))

/-- `leaves` after include/PathOrderOptimizer.h:421-438: paths without an outgoing requirement. -/
def leavesOf (env : Env) (edges : Edges) : List Nat :=
  ((env.paths.map (·.id)).dedup).filter (fun v => decide (∀ e ∈ edges, e.1 ≠ v))

/-- `num_incoming_edges` after include/PathOrderOptimizer.h:421-438: undefined if a requirement mentions
a successor that is not among the paths. -/
def initialCounts (env : Env) (edges : Edges) : Outcome (Nat → Int) :=
  if ∀ e ∈ edges, e.2 ∈ env.paths.map (·.id) then
    .ok (fun v => ((edges.filter (fun e => decide (e.2 = v))).length : Int))
  else .ub

/-- Acting on an outer wall when these come first (include/PathOrderOptimizer.h:556-569). -/
def outerFirst (env : Env) (edges : Edges) (node : Nat) (c : CSt) : Outcome CSt := do
  let c ← handleNode env edges node c
  let c := { c with visited := node :: c.visited }
  let (ns, c) ← getNeighbours env edges node c
  .ok { c with pool := ns.foldl (fun s n => if n ∈ s then s else s ++ [n]) c.pool }

/-- `getOptimizerOrderWithConstraints` (include/PathOrderOptimizer.h:416-592). -/
def constrained (env : Env) (edges : Edges) (fuel : Nat) (st : St) : Outcome (List Out) := do
  let counts ← initialCounts env edges
  let roots := rootsOf env edges
  let leaves := leavesOf env edges
  let c : CSt := ⟨st, env.startPoint, [], counts, [], []⟩
  if env.group then
    if env.reverse then do
      let c := { c with visited := leaves }
      let c ← setLoop env (dfs env edges fuel) roots.length roots c
      let c ← setLoop env (handleNode env edges) leaves.length leaves c
      .ok c.order
    else do
      let c ← setLoop env (outerFirst env edges) roots.length roots c
      let c ← setLoop env (dfs env edges fuel) c.pool.length c.pool c
      .ok c.order
  else do
    let c ← setLoop env (dfs env edges fuel) roots.length roots c
    .ok c.order

/-! ### The whole -/

/-- `isLoopingPolyline` (include/PathOrderOptimizer.h:912-919). -/
def isLooping (ps : List Pt) : Bool :=
  match ps.head?, ps.getLast? with
  | some f, some b => decide (direct b f < 10 * 10)
  | _, _ => false

/-- The detection of loops (include/PathOrderOptimizer.h:192-203). -/
def detect (env : Env) (p : PathIn) : PathIn :=
  if env.detectLoops = true ∧ p.closed = false then { p with closed := isLooping p.points } else p

/-- The optimizer after the detection of loops. -/
def Env.detected (env : Env) : Env := { env with paths := env.paths.map (detect env) }

/-- The start vertices before the search (include/PathOrderOptimizer.h:242-258): precomputed for closed
paths with a fixed seam, 0 for the others. -/
def initialStart (env : Env) (i : Nat) : Nat :=
  match env.paths[i]? with
  | some p =>
    if env.precompute = true ∧ p.fixedSeam = true ∧ p.closed = true ∧ p.points ≠ [] then
      env.seam i env.seamPos
    else 0
  | none => 0

/-- The state before the search. -/
def initialState (env : Env) : St := ⟨initialStart env, fun _ => false, env.preferLongest⟩

/-- Subtraction of `size_t` values. -/
def subSize (a b : Nat) : Nat := (((a : Int) - b) % 2 ^ 64).toNat

/-- One element of `reverseOrderPaths` (include/PathOrderOptimizer.h:594-610). -/
def reverseOut (env : Env) (o : Out) : Outcome Out := do
  let p ← env.path o.idx
  .ok ⟨o.idx, if p.closed then o.start else subSize (subSize p.points.length 1) o.start, !o.backwards⟩

/-- `PathOrderOptimizer::optimize` (include/PathOrderOptimizer.h:178-283), the paths that come out. The
fuel bounds the depth of the depth-first search. -/
def optimize (env0 : Env) (edges : Edges) (fuel : Nat) : Outcome (List Out) :=
  if env0.paths = [] then .ok []
  else
    let env := env0.detected
    let st := initialState env
    if edges = [] then do
      let order ← freeLoop env env.paths.length env.startPoint [] st
      if env.reverse then order.reverse.mapM (reverseOut env) else .ok order
    else constrained env edges fuel st

end Verif.Order
