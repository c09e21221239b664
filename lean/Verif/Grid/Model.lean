/-
Model of the spatial grids:
  src/utils/SquareGrid.cpp, include/utils/SparseGrid.h, include/utils/SparsePointGrid.h,
  include/utils/SparseLineGrid.h, and shorterThen / vSize2 of include/geometry/Point2LL.h.

Coordinates are `coord_t` (64-bit) in the code; here they are unbounded integers, so signed
overflow is not modelled.
-/

namespace Verif.Grid

/-- `Point2LL` (include/geometry/Point2LL.h): a point with integer coordinates. -/
structure Pt where
  x : Int
  y : Int
deriving DecidableEq, Repr

/-- `SquareGrid::toGridCoord` (src/utils/SquareGrid.cpp:24-33): C++ integer division, which
truncates towards zero. -/
def toGridCoord (s v : Int) : Int := v.tdiv s

/-- `SquareGrid::toGridPoint` (src/utils/SquareGrid.cpp:18-21). -/
def toGridPoint (s : Int) (p : Pt) : Pt := ⟨toGridCoord s p.x, toGridCoord s p.y⟩

/-- `SquareGrid::toLowerCoord` (src/utils/SquareGrid.cpp:42-51). -/
def toLowerCoord (s c : Int) : Int := c * s

/-- `SquareGrid::nonzeroSign` (src/utils/SquareGrid.cpp:185-188). -/
def nonzeroSign (z : Int) : Int := if 0 ≤ z then 1 else -1

/-- The values of the loop variable of `for (c = a; c <= b; ++c)`
(src/utils/SquareGrid.cpp:100, 171, 173). -/
def span (a b : Int) : List Int := (List.range (b + 1 - a).toNat).map (fun i : Nat => a + (i : Int))

/-- A loop over a list with a callback that may stop it: the callback changes the state and says
whether to go on (`process_func` of the process* functions). The result is the state and what the
loop's function returns: `false` when it was stopped. -/
def processAll {α σ : Type} (f : σ → α → Bool × σ) : List α → σ → Bool × σ
  | [], st => (true, st)
  | a :: l, st =>
    match f st a with
    | (false, st') => (false, st')
    | (true, st') => processAll f l st'

/-- The cells passed by the two loops of `SquareGrid::processNearby`
(src/utils/SquareGrid.cpp:163-183), row by row. -/
def nearbyCells (s : Int) (q : Pt) (r : Int) : List Pt :=
  let lo := toGridPoint s ⟨q.x - r, q.y - r⟩
  let hi := toGridPoint s ⟨q.x + r, q.y + r⟩
  (span lo.y hi.y).flatMap (fun y => (span lo.x hi.x).map (fun x => (⟨x, y⟩ : Pt)))

/-- `SquareGrid::processNearby` (src/utils/SquareGrid.cpp:163-183). -/
def processNearbyCells {σ : Type} (s : Int) (q : Pt) (r : Int) (f : σ → Pt → Bool × σ) (st : σ) :
    Bool × σ :=
  processAll f (nearbyCells s q r) st

/-- How one row of `processLineCells` ends. -/
inductive RowEnd (σ : Type) where
  /-- the callback returned false: `return false` -/
  | stopped (st : σ)
  /-- the end cell was processed: `return true` -/
  | reached (st : σ)
  /-- the row is finished, go on with the next one -/
  | next (st : σ)

/-- The inner loop of `processLineCells` (src/utils/SquareGrid.cpp:100-111) over the given cell
columns of row `cy`. -/
def rowLoop {σ : Type} (f : σ → Pt → Bool × σ) (endCell : Pt) (cy : Int) :
    List Int → σ → RowEnd σ
  | [], st => .next st
  | x :: xs, st =>
    match f st ⟨x, cy⟩ with
    | (false, st') => .stopped st'
    | (true, st') => if (⟨x, cy⟩ : Pt) = endCell then .reached st' else rowLoop f endCell cy xs st'

/-- `nearest_next_y` (src/utils/SquareGrid.cpp:82). -/
def nextY (s dir c : Int) : Int :=
  toLowerCoord s (c + if nonzeroSign c = dir ∨ c = 0 then dir else 0)

/-- `corresponding_x` with its correction (src/utils/SquareGrid.cpp:90-93), before the division by
the cell size. `%` is the C++ remainder. -/
def crossingX (a b : Pt) (ny : Int) : Int :=
  let area := (b.x - a.x) * (ny - a.y)
  let cx := a.x + area.tdiv (b.y - a.y)
  cx + if cx < 0 ∧ area.tmod (b.y - a.y) ≠ 0 then 1 else 0

/-- `x_cell_end` of a row (src/utils/SquareGrid.cpp:83-98); `xs` is `x_cell_start`. -/
def rowLast (s : Int) (a b : Pt) (dir xs cy : Int) : Int :=
  if b.y - a.y = 0 then toGridCoord s b.x
  else
    let e := toGridCoord s (crossingX a b (nextY s dir cy))
    if e < toGridCoord s a.x then xs else e

/-- How `processLineCells` ends. -/
inductive LineEnd (σ : Type) where
  /-- `return false` because the callback said so -/
  | stopped (st : σ)
  /-- `return true` at the end cell -/
  | reached (st : σ)
  /-- the loop ran out: `assert(false && "We should have returned already before here!")` -/
  | assertFailed (st : σ)

/-- The outer loop of `processLineCells` (src/utils/SquareGrid.cpp:79-118). The first argument is
the number of rows still to do, which is how many times the condition
`cell_y * y_dir <= end_cell.Y * y_dir` still holds. -/
def lineLoop {σ : Type} (s : Int) (a b : Pt) (f : σ → Pt → Bool × σ) (dir : Int) :
    Nat → Int → Int → σ → LineEnd σ
  | 0, _, _, st => .assertFailed st
  | n + 1, cy, xs, st =>
    let xe := rowLast s a b dir xs cy
    match rowLoop f (toGridPoint s b) cy (span xs xe) st with
    | .stopped st' => .stopped st'
    | .reached st' => .reached st'
    | .next st' => lineLoop s a b f dir n (cy + dir) xe st'

/-- `make sure X increases between start and end` (src/utils/SquareGrid.cpp:62-67). -/
def orderX (l : Pt × Pt) : Pt × Pt := if l.2.x < l.1.x then (l.2, l.1) else l

/-- How many rows the outer loop has: the number of values `cell_y = start, start + dir, …` with
`cell_y * y_dir <= end_cell.Y * y_dir` (src/utils/SquareGrid.cpp:79). -/
def rowCount (s : Int) (a b : Pt) (dir : Int) : Nat :=
  ((toGridCoord s b.y - toGridCoord s a.y) * dir + 1).toNat

/-- `SquareGrid::processLineCells` (src/utils/SquareGrid.cpp:60-119). -/
def processLineCells {σ : Type} (s : Int) (line : Pt × Pt) (f : σ → Pt → Bool × σ) (st : σ) :
    LineEnd σ :=
  let a := (orderX line).1
  let b := (orderX line).2
  let dir := nonzeroSign (b.y - a.y)
  lineLoop s a b f dir (rowCount s a b dir) (toGridCoord s a.y) (toGridCoord s a.x) st

/-- The state a line walk leaves behind, however it ends. -/
def LineEnd.state {σ : Type} : LineEnd σ → σ
  | .stopped st => st
  | .reached st => st
  | .assertFailed st => st

/-- The cells a line walk hands to its callback, in order: `processLineCells` with a callback that
records the cell and never stops. -/
def lineCells (s : Int) (line : Pt × Pt) : List Pt :=
  (processLineCells s line (fun acc c => (true, acc ++ [c])) ([] : List Pt)).state

/-! ### The sparse grids -/

/-- The contents of the `unordered_multimap` `grid_` (include/utils/SparseGrid.h:34, 137): pairs of
cell and element, in the order of insertion. -/
abbrev Table (E : Type) := List (Pt × E)

/-- `SparsePointGrid::insert` (include/utils/SparsePointGrid.h:73-80). -/
def insertPoint {E : Type} (s : Int) (loc : E → Pt) (t : Table E) (e : E) : Table E :=
  t ++ [(toGridPoint s (loc e), e)]

/-- `SparseLineGrid::insert` (include/utils/SparseLineGrid.h:71-87): the element is put in every
cell its line passes. -/
def insertLine {E : Type} (s : Int) (loc : E → Pt × Pt) (t : Table E) (e : E) : Table E :=
  (processLineCells s (loc e) (fun acc c => (true, acc ++ [(c, e)])) t).state

/-- A point grid after inserting the given elements one by one. -/
def pointGrid {E : Type} (s : Int) (loc : E → Pt) (es : List E) : Table E :=
  es.foldl (insertPoint s loc) []

/-- A line grid after inserting the given elements one by one. -/
def lineGrid {E : Type} (s : Int) (loc : E → Pt × Pt) (es : List E) : Table E :=
  es.foldl (insertLine s loc) []

/-- What `grid_.equal_range` may return: for every cell the elements stored under it, in any order
(the iteration order of an `unordered_multimap` is unspecified). -/
def Lookup {E : Type} (t : Table E) (look : Pt → List E) : Prop :=
  ∀ c, (look c).Perm ((t.filter (fun p => decide (p.1 = c))).map Prod.snd)

/-- `SparseGrid::processFromCell` (include/utils/SparseGrid.h:156-168). -/
def processFromCell {E σ : Type} (look : Pt → List E) (f : σ → E → Bool × σ) (st : σ) (c : Pt) :
    Bool × σ :=
  processAll f (look c) st

/-- `SparseGrid::processNearby` (include/utils/SparseGrid.h:170-180). -/
def processNearby {E σ : Type} (s : Int) (look : Pt → List E) (q : Pt) (r : Int)
    (f : σ → E → Bool × σ) (st : σ) : Bool × σ :=
  processNearbyCells s q r (processFromCell look f) st

/-- `SparseGrid::processLine` (include/utils/SparseGrid.h:182-190). -/
def processLine {E σ : Type} (s : Int) (look : Pt → List E) (line : Pt × Pt)
    (f : σ → E → Bool × σ) (st : σ) : LineEnd σ :=
  processLineCells s line (processFromCell look f) st

/-- `SparseGrid::getNearby` (include/utils/SparseGrid.h:192-203). -/
def getNearby {E : Type} (s : Int) (look : Pt → List E) (q : Pt) (r : Int) : List E :=
  (processNearby s look q r (fun ret e => (true, ret ++ [e])) []).2

/-- `vSize2` of a difference (include/geometry/Point2LL.h:119-122). -/
def dist2 (p q : Pt) : Int := (p.x - q.x) * (p.x - q.x) + (p.y - q.y) * (p.y - q.y)

/-- The callback of `getNearest` (include/utils/SparseGrid.h:216-230). The state is the element
found so far and `best_dist2`. `elem.point` is the element's location. -/
def nearestStep {E : Type} (loc : E → Pt) (q : Pt) (pre : E → Bool) (st : Option E × Int) (e : E) :
    Bool × (Option E × Int) :=
  if pre e then
    if dist2 (loc e) q < st.2 then (true, (some e, dist2 (loc e) q)) else (true, st)
  else (true, st)

/-- `SparseGrid::getNearest` (include/utils/SparseGrid.h:211-233): `none` is the return value
`false`, `some e` is `true` with `elem_nearest = e`. -/
def getNearest {E : Type} (s : Int) (look : Pt → List E) (loc : E → Pt) (q : Pt) (r : Int)
    (pre : E → Bool) : Option E :=
  (processNearby s look q r (nearestStep loc q pre) (none, r * r)).2.1

/-- `shorterThen` (include/geometry/Point2LL.h:129-140) of the difference of two points. -/
def shorterThen (p q : Pt) (len : Int) : Bool :=
  if p.x - q.x > len ∨ p.x - q.x < -len then false
  else if p.y - q.y > len ∨ p.y - q.y < -len then false
  else decide (dist2 p q ≤ len * len)

/-- The callback of `getAnyNearby` (include/utils/SparsePointGrid.h:86-94). -/
def anyStep {E : Type} (loc : E → Pt) (q : Pt) (r : Int) (st : Option E) (e : E) :
    Bool × Option E :=
  if shorterThen (loc e) q r then (false, some e) else (true, st)

/-- `SparsePointGrid::getAnyNearby` (include/utils/SparsePointGrid.h:82-98). -/
def getAnyNearby {E : Type} (s : Int) (look : Pt → List E) (loc : E → Pt) (q : Pt) (r : Int) :
    Option E :=
  (processNearby s look q r (anyStep loc q r) none).2

end Verif.Grid
