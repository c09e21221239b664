import Mathlib.Data.Rat.Floor
import Mathlib.Algebra.Order.Ring.Rat
import Mathlib.Tactic.Linarith
import Mathlib.Data.List.Sort

/-! # The monotonic order of lines

Models `PathOrderMonotonic` (src/PathOrderMonotonic.cpp, include/PathOrderMonotonic.h) and `detectLoops` (include/PathOrder.h).
Pointers to paths are positions in the list of paths. Doubles are rationals, coordinates have no bounds. The order in which
a hash set is iterated and the order in which the grid of end points gives what is near are parameters. -/

namespace Verif.Monotonic

abbrev Pt := Int × Int

/-- `PathOrdering` as far as it matters here: vertices, and whether it is closed (include/path_ordering.h). -/
structure Path where
  pts : List Pt
  closed : Bool

/-- `front()` and `back()` of the vertices; they are asked for only if there are some. -/
def Path.front (p : Path) : Pt := p.pts.headD (0, 0)
def Path.back (p : Path) : Pt := p.pts.getLastD (0, 0)

/-- `start_vertex_` of a line: not known yet (the number of vertices), the first or the last vertex. -/
inductive Start where
  | unknown
  | first
  | last
  deriving DecidableEq, Repr

/-- The parameters of the object (include/PathOrderMonotonic.h:65-78), and the two orders that depend on hash tables. -/
structure Config where
  v : ℚ × ℚ
  dist : Int
  start : Pt
  interlaced : Bool
  hash : List Nat → List Nat
  scan : Pt → List (Nat × Pt) → List (Nat × Pt)

/-- `vSize2` of a difference. -/
def dist2 (p q : Pt) : Int := (p.1 - q.1) * (p.1 - q.1) + (p.2 - q.2) * (p.2 - q.2)

/-- `projectToVector` (include/PathOrderMonotonic.h:131-134). -/
def project (u : ℚ × ℚ) (p : Pt) : ℚ := p.1 * u.1 + p.2 * u.2

/-- The projections of the end points, sorted (src/PathOrderMonotonic.cpp:54-60, 204-214, 222-225, 233-236). -/
def lo (u : ℚ × ℚ) (p : Path) : ℚ := min (project u p.front) (project u p.back)
def hi (u : ℚ × ℚ) (p : Path) : ℚ := max (project u p.front) (project u p.back)

/-- `rotated90CCW` (src/PathOrderMonotonic.cpp:282). -/
def perp (u : ℚ × ℚ) : ℚ × ℚ := (-u.2, u.1)

/-- `detectLoops` for one path (include/PathOrder.h:117-135). -/
def detectLoop (p : Path) : Path :=
  if p.closed then p
  else if p.pts.length < 3 then p
  else if dist2 p.back p.front < 10 * 10 then { p with closed := true } else p

/-- Closed paths and single points are no lines (src/PathOrderMonotonic.cpp:34-46). -/
def Path.isLine (p : Path) : Bool := !(p.closed || decide (p.pts.length ≤ 1))

/-! ## Strings of lines -/

/-- The end points in the grid (src/PathOrderMonotonic.cpp:259-268). -/
def endpoints (path : Nat → Path) (ids : List Nat) : List (Nat × Pt) := ids.flatMap fun i => [(i, (path i).front), (i, (path i).back)]

/-- `getFarthestEndpoint` (include/PathOrderMonotonic.h:164-176). -/
def farthest (p : Path) (q : Pt) : Start := if dist2 p.front q < dist2 p.back q then .last else .first

def Start.opposite : Start → Start
  | .first => .last
  | _ => .first

/-- A vertex. -/
def Path.at (p : Path) : Start → Pt
  | .last => p.back
  | _ => p.front

def set (st : Nat → Start) (i : Nat) (s : Start) : Nat → Start := fun j => if j = i then s else st j

/-- `getNearby` and `find_if` with `canConnectToPolyline` (src/PathOrderMonotonic.cpp:121-138, include/PathOrderMonotonic.h:208-212). -/
def findNear (c : Config) (ends : List (Nat × Pt)) (st : Nat → Start) (p : Pt) : Option (Nat × Pt) :=
  (c.scan p ends).find? fun x => decide (st x.1 = .unknown ∧ dist2 x.2 p < 10 * 10)

/-- The string in one direction: the lines found and the end of the string (src/PathOrderMonotonic.cpp:140-173). `fwd` is the loop
behind the line. Each line that is found has an unknown start, with the exception of the first one, so `fuel` that is more
than the number of lines is enough. -/
def follow (c : Config) (path : Nat → Path) (ends : List (Nat × Pt)) (fwd : Bool) : Nat → Option (Nat × Pt) → (Nat → Start) → Pt →
    List Nat × (Nat → Start) × Pt
  | 0, _, st, p => ([], st, p)
  | _ + 1, none, st, p => ([], st, p)
  | n + 1, some (j, q), st, _ =>
    let far := farthest (path j) q
    let st := set st j (if fwd then far.opposite else far)
    let p := (path j).at far
    let r := follow c path ends fwd n (findNear c ends st p) st p
    (j :: r.1, r.2)

/-- All lines of a string are turned round (src/PathOrderMonotonic.cpp:179-187). -/
def flipAll (l : List Nat) (st : Nat → Start) : Nat → Start := l.foldl (fun st j => set st j (st j).opposite) st

/-- `findPolylineString` (src/PathOrderMonotonic.cpp:109-194). -/
def findString (c : Config) (path : Nat → Path) (ids : List Nat) (i : Nat) (st : Nat → Start) : List Nat × (Nat → Start) :=
  let ends := endpoints path ids
  let st := set st i .first
  let after := findNear c ends st (path i).back
  let b := follow c path ends false (ids.length + 1) (findNear c ends st (path i).front) st (path i).front
  let a := follow c path ends true (ids.length + 1) after b.2.1 (path i).back
  let l := b.1.reverse ++ i :: a.1
  let flip := decide (project c.v a.2.2 < project c.v b.2.2)
  let l' := if flip then l.reverse else l
  let st := if flip then flipAll l' a.2.1 else a.2.1
  if l'.length = 1 then (l', set st i .unknown) else (l', st)

/-! ## Lines side by side -/

/-- The loop ends (src/PathOrderMonotonic.cpp:227-230). -/
def tooFar (v : ℚ × ℚ) (d : Int) (a b : Path) : Bool := decide (lo v b > hi v a + d ∨ lo v a - d > hi v b)

/-- The lines are side by side (src/PathOrderMonotonic.cpp:243-247). -/
def overlap (v : ℚ × ℚ) (d : Int) (a b : Path) : Bool :=
  let u := perp v
  let near := lo u a - d
  let far := hi u a + d
  decide ((near ≥ lo u b ∧ near ≤ hi u b) ∨ (far ≥ lo u b ∧ far ≤ hi u b) ∨ (lo u b ≥ near ∧ hi u b ≤ far))

/-- `getOverlappingLines` with the lines behind this one in the sorted list (src/PathOrderMonotonic.cpp:196-251). -/
def overlapping (c : Config) (path : Nat → Path) (d : Int) (i : Nat) (rest : List Nat) : List Nat :=
  (rest.takeWhile fun j => !tooFar c.v d (path i) (path j)).filter fun j => overlap c.v d (path i) (path j)

/-! ## Sequences -/

/-- The sets and maps of `makeOrderedPath` (src/PathOrderMonotonic.cpp:284-286), with the start vertices. -/
structure Links where
  st : Nat → Start
  connected : List Nat
  starting : List Nat
  next : Nat → Option Nat

def connect (next : Nat → Option Nat) (i j : Nat) : Nat → Option Nat := fun k => if k = i then some j else next k

/-- A string of lines (src/PathOrderMonotonic.cpp:297-322): each line with the one behind it. -/
def linkPairs (c : Config) (path : Nat → Path) (ids : List Nat) (d : Int) (all : List Nat) : List Nat → Links → Links
  | i :: j :: rest, l =>
    let l := { l with next := connect l.next i j, connected := l.connected.insert j }
    let over := (overlapping c path d i ((ids.dropWhile (· ≠ i)).drop 1)).filter fun k => k ∉ all
    let l := { l with starting := over.foldl (fun s k => (s.insert k).insert j) l.starting }
    linkPairs c path ids d all (j :: rest) l
  | _, l => l

/-- A line that is in no string (src/PathOrderMonotonic.cpp:323-349). -/
def linkLine (i : Nat) (over : List Nat) (l : Links) : Links :=
  let starting := if i ∈ l.connected then l.starting else l.starting.insert i
  match over with
  | [j] =>
    if j ∈ l.connected then { l with next := connect l.next i j, starting := starting.insert j }
    else { l with next := connect l.next i j, starting := starting, connected := l.connected.insert j }
  | _ => { l with starting := over.foldl (fun s k => s.insert k) starting }

/-- One line, with those behind it in the sorted list (src/PathOrderMonotonic.cpp:288-350). -/
def linkOne (c : Config) (path : Nat → Path) (ids : List Nat) (d : Int) (i : Nat) (rest : List Nat) (l : Links) : Links :=
  if (l.next i).isSome then l
  else
    let s := findString c path ids i l.st
    if 1 < s.1.length then linkPairs c path ids d s.1 s.1 { l with st := s.2, starting := l.starting.insert (s.1.headD i) }
    else linkLine i (overlapping c path d i rest) { l with st := s.2 }

/-- All lines (src/PathOrderMonotonic.cpp:288-350). -/
def linkAll (c : Config) (path : Nat → Path) (ids : List Nat) (d : Int) : List Nat → Links → Links
  | [], l => l
  | i :: rest, l => linkAll c path ids d rest (linkOne c path ids d i rest l)

/-! ## The order -/

/-- `std::llround`. -/
def llround (q : ℚ) : Int := if 0 ≤ q then ⌊q + 1 / 2⌋ else -⌊-q + 1 / 2⌋

/-- `LineProjections` (src/PathOrderMonotonic.cpp:352-362). -/
def key (c : Config) (p : Path) : Int × Int :=
  let a := llround (project c.v p.front / 10)
  let b := llround (project c.v p.back / 10)
  (min a b, max a b)

/-- `operator<` of `LineProjections`, negated and with its arguments swapped (src/PathOrderMonotonic.cpp:364-367). -/
def keyLe (a b : Int × Int) : Bool := decide (a.1 < b.1 ∨ (a.1 = b.1 ∧ a.2 ≤ b.2))

/-- A vertex that is closer than the closest so far (src/PathOrderMonotonic.cpp:392-403). -/
def better (path : Nat → Path) (pos : Pt) (i : Nat) (s : Start) : Option (Int × Nat × Start) → Option (Int × Nat × Start)
  | some (d, j, t) => if dist2 pos ((path i).at s) < d then some (dist2 pos ((path i).at s), i, s) else some (d, j, t)
  | none => some (dist2 pos ((path i).at s), i, s)

/-- The closest line of a row, and whether its last vertex is the closest (src/PathOrderMonotonic.cpp:384-404). -/
def closest (path : Nat → Path) (pos : Pt) : List Nat → Option (Int × Nat × Start) → Option (Int × Nat × Start)
  | [], best => best
  | i :: rest, best => closest path pos rest (better path pos i .last (better path pos i .first best))

/-- What is planned so far. -/
structure Walk where
  st : Nat → Start
  pos : Pt
  out : List (Nat × Start)

/-- A line is planned with its start vertex (src/PathOrderMonotonic.cpp:406-409, 424-425, include/PathOrderMonotonic.h:125). -/
def Walk.plan (path : Nat → Path) (w : Walk) (i : Nat) (s : Start) : Walk :=
  { st := set w.st i s, pos := (path i).at s.opposite, out := w.out ++ [(i, s)] }

/-- `optimizeClosestStartPoint` (include/PathOrderMonotonic.h:117-126). -/
def closestStart (path : Nat → Path) (w : Walk) (i : Nat) : Start :=
  if w.st i = .unknown then (if dist2 w.pos (path i).front ≥ dist2 w.pos (path i).back then .last else .first) else w.st i

/-- The lines behind a line that is planned (src/PathOrderMonotonic.cpp:412-428). Each step checks one more connection, so `fuel` that
is more than the number of lines is enough. -/
def chain (path : Nat → Path) (l : Links) : Nat → Nat → List (Nat × Nat) → Walk → Walk
  | 0, _, _, w => w
  | n + 1, i, checked, w =>
    match l.next i with
    | none => w
    | some j =>
      if j ∈ l.starting then w
      else if checked.lookup i = some j then w
      else chain path l n j (checked ++ [(i, j)]) (w.plan path j (closestStart path w j))

/-- The loop over the rows (src/PathOrderMonotonic.cpp:377-429). In each step one line is erased, so `fuel` that is the number
of lines is enough. -/
def rows (c : Config) (path : Nat → Path) (l : Links) (n : Nat) : Nat → List Nat → Walk → Walk
  | 0, _, w => w
  | _ + 1, [], w => w
  | m + 1, x :: rest, w =>
    match closest path w.pos ((x :: rest).takeWhile fun i => key c (path i) = key c (path x)) none with
    | none => w
    | some (_, i, s) => rows c path l n m ((x :: rest).erase i) (chain path l n i [] (w.plan path i s))

/-- A stable sort: `std::stable_sort` (src/PathOrderMonotonic.cpp:48-63), or a multimap that is filled (src/PathOrderMonotonic.cpp:370-375). -/
def sortBy (l : List Nat) (le : Nat → Nat → Bool) : List Nat := l.insertionSort fun i j => le i j = true

/-- `makeOrderedPath` (src/PathOrderMonotonic.cpp:253-432). -/
def makeOrdered (c : Config) (path : Nat → Path) (d : Int) (ids : List Nat) : List (Nat × Start) :=
  let l := linkAll c path ids d ids ⟨fun _ => .unknown, [], [], fun _ => none⟩
  let pre := sortBy (c.hash l.starting) fun i j => keyLe (key c (path i)) (key c (path j))
  (rows c path l (ids.length + 1) pre.length pre ⟨l.st, c.start, []⟩).out

/-- The two sets of lines (src/PathOrderMonotonic.cpp:65-91); `second` is whether the second set is filled at the moment, and `at`
is where its row is, if there is one. -/
def passes (c : Config) (path : Nat → Path) : List Nat → Option (Bool × ℚ) → List Nat × List Nat
  | [], _ => ([], [])
  | i :: rest, cur =>
    let p := project c.v (path i).front
    let cur := match cur with
      | none => (false, p)
      | some (second, q) => if p - q > ((c.dist.tdiv 2 : Int) : ℚ) then (!second, p) else (second, q)
    let r := passes c path rest (some cur)
    if cur.1 then (r.1, i :: r.2) else (i :: r.1, r.2)

/-- `optimize` (src/PathOrderMonotonic.cpp:14-107): positions of the paths with their start vertices. -/
def optimize (c : Config) (paths : List Path) : List (Nat × Start) :=
  let paths := paths.map detectLoop
  let path := fun i => paths.getD i ⟨[], false⟩
  let all := List.range paths.length
  let others := (all.filter fun i => !(path i).isLine).map fun i => (i, Start.first)
  let ids := sortBy (all.filter fun i => (path i).isLine) fun i j => decide (lo c.v (path i) ≤ lo c.v (path j))
  if c.interlaced then
    let p := passes c path ids none
    makeOrdered c path (c.dist * 2) p.2 ++ (makeOrdered c path (c.dist * 2) p.1 ++ others)
  else makeOrdered c path c.dist ids ++ others

end Verif.Monotonic
