import Verif.Basic
import Mathlib.Algebra.Order.Floor.Ring
import Mathlib.Data.Rat.Floor

/-! # Beading strategies

Model of src/BeadingStrategy/*.cpp: how many lines (beads) a wall of a given thickness gets, how wide they are and where they lie.
`coord_t` is `Int` (no overflow), `Ratio` and `double` are `ℚ` (no rounding). Conversion of a `double` to `coord_t` truncates; the
division of `coord_t` truncates as well (`Int.tdiv`). -/

set_option linter.dupNamespace false

namespace Verif.Beading

/-- Conversion of a `double` to an integer: towards zero. -/
def trunc (q : ℚ) : Int := if 0 ≤ q then ⌊q⌋ else ⌈q⌉

/-- `BeadingStrategy::Beading`, include/BeadingStrategy/BeadingStrategy.h:31-37. The members of the structure are not initialised
by the code; only `left_over` can stay so (`none`). -/
structure Beading where
  total : Int
  widths : List Int
  locs : List Int
  leftOver : Option Int
  deriving DecidableEq, Repr

/-- The strategies, each with its own parameters and its parent. -/
inductive Strategy where
  /-- `DistributedBeadingStrategy`: optimal width, thresholds for splitting and adding the middle line, distribution radius. -/
  | distributed (width : Int) (split add : ℚ) (radius : Int)
  /-- `RedistributeBeadingStrategy`: optimal width of the outer wall, minimum variable line ratio. -/
  | redistribute (outer : Int) (ratio : ℚ) (parent : Strategy)
  /-- `WideningBeadingStrategy`: minimum input and output width. -/
  | widening (minIn minOut : Int) (parent : Strategy)
  /-- `OuterWallInsetBeadingStrategy`. -/
  | outerInset (offset : Int) (parent : Strategy)
  /-- `InnerWallInsetBeadingStrategy`. -/
  | innerInset (offset : Int) (parent : Strategy)
  /-- `LimitedBeadingStrategy`. -/
  | limited (maxCount : Int) (parent : Strategy)
  deriving DecidableEq

/-- The member `optimal_width_`, copied from the parent: src/BeadingStrategy/BeadingStrategy.cpp:26-34. -/
def Strategy.width : Strategy → Int
  | .distributed w _ _ _ => w
  | .redistribute _ _ p | .widening _ _ p | .outerInset _ p | .innerInset _ p | .limited _ p => p.width

/-- `getSplitMiddleThreshold`, src/BeadingStrategy/BeadingStrategy.cpp:71-74. -/
def Strategy.split : Strategy → ℚ
  | .distributed _ s _ _ => s
  | .redistribute _ _ p | .widening _ _ p | .outerInset _ p | .innerInset _ p | .limited _ p => p.split

/-- `one_over_distribution_radius_squared_`, src/BeadingStrategy/DistributedBeadingStrategy.cpp:19-26. -/
def falloff (radius : Int) : ℚ := if 2 ≤ radius then 1 / ((radius - 1 : Int) : ℚ) / ((radius - 1 : Int) : ℚ) else 1

/-- `getWeight`, src/BeadingStrategy/DistributedBeadingStrategy.cpp:38-44. -/
def weight (radius : Int) (n : Nat) (i : Nat) : ℚ :=
  let dev : ℚ := (i : ℚ) - ((n : ℚ) - 1) / 2
  max 0 (1 - falloff radius * dev * dev)

/-- The weights, src/BeadingStrategy/DistributedBeadingStrategy.cpp:46-53. -/
def totalWeight (radius : Int) (n : Nat) : ℚ := ((List.range n).map (weight radius n)).sum

/-- The widths for more than two beads, src/BeadingStrategy/DistributedBeadingStrategy.cpp:54-58. -/
def distWidths (w radius thickness : Int) (n : Nat) : List Int :=
  (List.range n).map fun i => w + trunc (((thickness - n * w : Int) : ℚ) * (weight radius n i / totalWeight radius n))

/-- The locations after the first, src/BeadingStrategy/DistributedBeadingStrategy.cpp:63-66. -/
def locsAfter : Int → Int → List Int → List Int
  | _, _, [] => []
  | loc, prev, w :: ws => let l := loc + (prev + w).tdiv 2; l :: locsAfter l w ws

/-- The locations, src/BeadingStrategy/DistributedBeadingStrategy.cpp:59-66. -/
def locsOf : List Int → List Int
  | [] => []
  | w :: ws => w.tdiv 2 :: locsAfter (w.tdiv 2) w ws

/-- `DistributedBeadingStrategy::compute`, src/BeadingStrategy/DistributedBeadingStrategy.cpp:30-92. -/
def computeDist (w radius thickness n : Int) : Beading :=
  if 2 < n then ⟨thickness, distWidths w radius thickness n.toNat, locsOf (distWidths w radius thickness n.toNat), some 0⟩
  else if n = 2 then
    ⟨thickness, [thickness.tdiv 2, thickness.tdiv 2], [(thickness.tdiv 2).tdiv 2, thickness - (thickness.tdiv 2).tdiv 2], some 0⟩
  else if n = 1 then ⟨thickness, [thickness], [thickness.tdiv 2], some 0⟩
  else ⟨thickness, [], [], some thickness⟩

/-- `getOptimalThickness`: src/BeadingStrategy/BeadingStrategy.cpp:86-89, RedistributeBeadingStrategy.cpp:21-26,
LimitedBeadingStrategy.cpp:100-107; the others ask the parent. -/
def optThickness : Strategy → Int → Int
  | .distributed w _ _ _, n => w * n
  | .redistribute o _ p, n => optThickness p (max 0 (n - 2)) + o * (n - max 0 (n - 2))
  | .widening _ _ p, n | .outerInset _ p, n | .innerInset _ p, n => optThickness p n
  | .limited m p, n => if n ≤ m then optThickness p n else 10000000

/-- `getTransitionThickness`: src/BeadingStrategy/BeadingStrategy.cpp:91-97, RedistributeBeadingStrategy.cpp:28-39,
WideningBeadingStrategy.cpp:50-60, LimitedBeadingStrategy.cpp:109-120. -/
def transThickness : Strategy → Int → Int
  | .distributed w s a _, n =>
    trunc ((w * n : Int) + (if n.tmod 2 = 1 then s else a) * ((w * (n + 1) - w * n : Int) : ℚ))
  | .redistribute o r p, n =>
    if n = 0 then trunc (r * o) else if n = 1 then trunc ((1 + p.split) * o) else transThickness p (n - 2) + 2 * o
  | .widening i _ p, n => if n = 0 then i else transThickness p n
  | .outerInset _ p, n | .innerInset _ p, n => transThickness p n
  | .limited m p, n => if n < m then transThickness p n else if n = m then optThickness p (n + 1) - 10 else 9000000

/-- `getOptimalBeadCount`: src/BeadingStrategy/DistributedBeadingStrategy.cpp:94-100, RedistributeBeadingStrategy.cpp:41-52,
WideningBeadingStrategy.cpp:62-70, LimitedBeadingStrategy.cpp:122-138. Division by an optimal width of zero is undefined. -/
def optCount : Strategy → Int → Outcome Int
  | .distributed w s a _, t =>
    if w = 0 then .ub
    else
      let naive := t.tdiv w
      .ok (naive + if t - naive * w ≥ trunc (w * (if naive.tmod 2 = 1 then s else a)) then 1 else 0)
  | .redistribute o r p, t =>
    if (t : ℚ) < r * o then .ok 0
    else if t ≤ 2 * o then .ok (if (t : ℚ) > (1 + p.split) * o then 2 else 1)
    else (optCount p (t - 2 * o)).bind fun c => .ok (c + 2)
  | .widening i _ p, t =>
    if t < i then .ok 0 else (optCount p t).bind fun c => .ok (if t ≥ i ∧ c < 1 then 1 else c)
  | .outerInset _ p, t | .innerInset _ p, t => optCount p t
  | .limited m p, t => (optCount p t).bind fun c =>
    if c ≤ m then .ok c
    else if c = m + 1 then .ok (if t < optThickness p (m + 1) - 10 then m else m + 1)
    else .ok (m + 1)

/-- `v[i] = a` for an index of any sign: outside the vector undefined. -/
def setAt (l : List Int) (i a : Int) : Outcome (List Int) :=
  if 0 ≤ i ∧ i < l.length then .ok (l.set i.toNat a) else .ub

/-- `v[i]` for an index of any sign. -/
def getAt (l : List Int) (i : Int) : Outcome Int := if 0 ≤ i then Outcome.index l i.toNat else .ub

/-- `v.insert(v.begin() + i, a)` for an index of any sign. -/
def insertAt (l : List Int) (i a : Int) : Outcome (List Int) :=
  if 0 ≤ i ∧ i ≤ l.length then .ok (l.take i.toNat ++ a :: l.drop i.toNat) else .ub

/-- `RedistributeBeadingStrategy::compute`, src/BeadingStrategy/RedistributeBeadingStrategy.cpp:87-106: the outer walls are put around
the beading of the inner walls. -/
def wrap (outer thickness n : Int) (inner : Beading) : Beading :=
  let actual := if 2 < n then min (thickness.tdiv 2) outer else thickness.tdiv n
  let widths := actual :: inner.widths ++ if 1 < n then [actual] else []
  let locs := actual.tdiv 2 :: inner.locs ++ if 1 < n then [thickness - actual.tdiv 2] else []
  ⟨thickness, widths, locs, some (thickness - widths.sum)⟩

/-- Adds a wall of width zero beside a bead: src/BeadingStrategy/LimitedBeadingStrategy.cpp:49-52, 84-87, 91-94. `side` is 1 for a wall
after the bead `i` (put at `at_`) and -1 for one before it. -/
def marker (b : Beading) (i at_ side : Int) : Outcome Beading :=
  (getAt b.locs i).bind fun loc => (getAt b.widths i).bind fun w =>
  (insertAt b.locs at_ (loc + side * w.tdiv 2)).bind fun locs => (insertAt b.widths at_ 0).bind fun widths =>
    .ok { b with locs := locs, widths := widths }

/-- `LimitedBeadingStrategy::compute`, src/BeadingStrategy/LimitedBeadingStrategy.cpp:77-80: the locations are mirrored. `k` beads
remain to be treated, beginning with bead `i`. -/
def mirror (thickness count : Int) : Nat → Int → List Int → Outcome (List Int)
  | 0, _, locs => .ok locs
  | k + 1, i, locs => (getAt locs i).bind fun l => (setAt locs (count - 1 - i) (thickness - l)).bind fun locs =>
      mirror thickness count k (i + 1) locs

/-- `LimitedBeadingStrategy::compute`, src/BeadingStrategy/LimitedBeadingStrategy.cpp:59-97: more beads than allowed. `b` is the beading
of the parent for the maximum number of beads at its optimal thickness. Using the uninitialised `left_over` is undefined. -/
def overLimit (m thickness optimal : Int) (b : Beading) : Outcome Beading :=
  let count : Int := b.locs.length
  match b.leftOver with
  | none => .ub
  | some lo =>
    let b := { b with leftOver := some (lo + (thickness - b.total)), total := thickness }
    let odd : Outcome Beading := if count.tmod 2 = 1 then
        (setAt b.locs (count.tdiv 2) (thickness.tdiv 2)).bind fun locs =>
        (setAt b.widths (count.tdiv 2) (thickness - optimal)).bind fun widths => .ok { b with locs := locs, widths := widths }
      else .ok b
    odd.bind fun b => (mirror thickness count ((count + 1).tdiv 2).toNat 0 b.locs).bind fun locs =>
    (marker { b with locs := locs } (m.tdiv 2 - 1) (m.tdiv 2) 1).bind fun b =>
    marker b (count - (m.tdiv 2 - 1)) (count - (m.tdiv 2 - 1)) (-1)

/-- `compute` of the strategies. src/BeadingStrategy/DistributedBeadingStrategy.cpp:30-92, RedistributeBeadingStrategy.cpp:69-107,
WideningBeadingStrategy.cpp:22-43, OuterWallInsetBeadingStrategy.cpp:44-66, InnerWallInsetBeadingStrategy.cpp:46-71,
LimitedBeadingStrategy.cpp:39-98. -/
def compute : Strategy → Int → Int → Outcome Beading
  | .distributed w _ _ r, t, n => .ok (computeDist w r t n)
  | .redistribute o r p, t, n =>
    if n = 0 ∨ (t : ℚ) < r * o then .ok ⟨t, [], [], some t⟩
    else if 0 < n - 2 ∧ 0 < t - 2 * o then
      (compute p (t - 2 * o) (n - 2)).bind fun b => .ok (wrap o t n { b with locs := b.locs.map (· + o) })
    else .ok (wrap o t n ⟨0, [], [], none⟩)
  | .widening i out p, t, n =>
    if t < p.width then
      if t ≥ i then .ok ⟨t, [max t out], [t.tdiv 2], none⟩ else .ok ⟨t, [], [], some t⟩
    else compute p t n
  | .outerInset off p, t, n => (compute p t n).bind fun b =>
    if (b.widths.countP fun w => 0 < w) < 2 then .ok b
    else (getAt b.locs 0).bind fun l => (setAt b.locs 0 (min (l + off) (t.tdiv 2))).bind fun locs => .ok { b with locs := locs }
  | .innerInset off p, t, n => (compute p t n).bind fun b =>
    if (b.widths.countP fun w => 0 < w) < 2 then .ok b
    else .ok { b with locs := b.locs.take 1 ++ (b.locs.drop 1).map (· + off) }
  | .limited m p, t, n =>
    if n ≤ m then
      (compute p t n).bind fun b =>
        if (b.locs.length : Int).tmod 2 = 0 ∧ (b.locs.length : Int) = m then marker b (m.tdiv 2 - 1) (m.tdiv 2) 1 else .ok b
    else (compute p (optThickness p m) m).bind fun b => overLimit m t (optThickness p m) b

/-- The parameters of `BeadingStrategyFactory::makeStrategy` that matter here (lengths and angles of transitions do not). -/
structure Params where
  outerWidth : Int
  innerWidth : Int
  thinWalls : Bool
  minBeadWidth : Int
  minFeatureSize : Int
  split : ℚ
  add : ℚ
  maxCount : Int
  outerOffset : Int
  innerOffset : Int
  radius : Int
  ratio : ℚ

/-- `BeadingStrategyFactory::makeStrategy`, src/BeadingStrategy/BeadingStrategyFactory.cpp:20-67. -/
def makeStrategy (p : Params) : Strategy :=
  let s := Strategy.redistribute p.outerWidth p.ratio (.distributed p.innerWidth p.split p.add p.radius)
  let s := if p.thinWalls then Strategy.widening p.minFeatureSize p.minBeadWidth s else s
  let s := if p.outerOffset > 0 then Strategy.outerInset p.outerOffset s else s
  let s := if p.innerOffset ≠ 0 then Strategy.innerInset p.innerOffset s else s
  .limited p.maxCount s

end Verif.Beading
