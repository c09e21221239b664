import Verif.Scarf.Model
import Mathlib.Data.List.Sort

/-! # Walls over air

Models `wallSegmentUsesBridging` and `isWallTipAnchored` (src/bridge/bridge.cpp:760-925), which decide what parts of a line of a wall are printed as
bridges; `addWallLine` (src/LayerPlan.cpp:1078-1273), which prints a line of a wall with them; and `Shape::intersectionsWithSegment`
(src/geometry/Shape.cpp:884-901). Floating point numbers are exact, integers have no bounds. -/

namespace Verif.Bridge

open Verif.Order (Pt)
open Verif.Walls (size)
open Verif.Scarf (lerpPt)

/-! ## What parts are bridges -/

/-- What is asked of `bridge_mask`: `inside` (without the border), `intersectionsWithSegment`, and whether its bounding box hits that of a line. -/
structure Mask where
  inside : Pt → Bool
  cross : Pt → Pt → List ℚ
  hit : Pt → Pt → Bool

/-- `LinearAlg2D::lineLineIntersection` and `segmentSegmentIntersection` (src/utils/linearAlg2D.cpp:275-302): the share of the first segment. -/
def crossing (p1 p2 p3 p4 : Pt) : Option ℚ :=
  let t : ℚ := (p1.x - p3.x) * (p3.y - p4.y) - (p1.y - p3.y) * (p3.x - p4.x)
  let u : ℚ := (p1.x - p3.x) * (p1.y - p2.y) - (p1.y - p3.y) * (p1.x - p2.x)
  let d : ℚ := (p1.x - p2.x) * (p3.y - p4.y) - (p1.y - p2.y) * (p3.x - p4.x)
  if d = 0 then none
  else if 0 ≤ t / d ∧ 0 ≤ u / d ∧ t / d ≤ 1 ∧ u / d ≤ 1 then some (t / d) else none

/-- `Shape::intersectionsWithSegment` (src/geometry/Shape.cpp:884-901) of polygons. -/
def crossings (polys : List (List Pt)) (p q : Pt) : List ℚ :=
  polys.flatMap fun poly => (poly.zip (poly.rotate 1)).filterMap fun e => crossing p q e.1 e.2

/-- `ranges::stable_sort`; equal numbers cannot be told apart. -/
def sort (xs : List ℚ) : List ℚ := xs.insertionSort (· ≤ ·)

/-- `inverse_lerp` (include/utils/math.h:119-128). -/
def inverseLerp (lo hi x : ℚ) : ℚ := if lo = hi then 0 else (x - lo) / (hi - lo)

/-- `add_bridging_subsegment` (src/bridge/bridge.cpp:885-900); the length is converted to an integer, which drops its fraction. -/
def addSub (minLen len : Int) (s e lo hi : ℚ) : List (ℚ × ℚ) :=
  if minLen ≤ ⌊(hi - lo) * len⌋ ∧ s ≤ hi ∧ lo ≤ e then [(inverseLerp s e (max lo s), inverseLerp s e (min hi e))] else []

/-- The loop over the intersections (src/bridge/bridge.cpp:902-918). -/
def scan (minLen len : Int) (s e : ℚ) : Bool → ℚ → List ℚ → List (ℚ × ℚ)
  | bridging, pos, [] => if bridging then addSub minLen len s e pos 1 else []
  | bridging, pos, x :: xs => (if bridging then addSub minLen len s e pos x else []) ++ scan minLen len s e (!bridging) x xs

/-- `over_air`, `remaining_anchoring_length`, `remaining_search_length`. -/
structure Anchor where
  over : Bool
  need : Int
  search : Int
deriving DecidableEq, Repr

/-- `account_for_segment` (src/bridge/bridge.cpp:799-807). -/
def account (a : Anchor) (len : Int) : Anchor :=
  ⟨a.over, if a.over then a.need else a.need - min a.search len, max 0 (a.search - len)⟩

/-- The lengths between the intersections of a following segment (src/bridge/bridge.cpp:814-829). -/
def stretches (p q : Pt) (xs : List ℚ) : List Int :=
  let ps := p :: (xs.map (lerpPt p q) ++ [q])
  (ps.zip ps.tail).map fun e => size e.2 e.1

/-- The body of the loop over following segments (src/bridge/bridge.cpp:812-831). -/
def walkSegment : Anchor → List Int → Anchor
  | a, [] => a
  | a, [l] => account a l
  | a, l :: l' :: ls => walkSegment { account a l with over := !a.over } (l' :: ls)

/-- `increment_index` (src/bridge/bridge.cpp:794-797); `forward` is a `segment_direction` of 1. -/
def nextIndex (forward : Bool) (n i : Nat) : Nat := if forward then (i + n - 1) % n else (i + 1) % n

/-- The loop over following segments (src/bridge/bridge.cpp:809-832); `none` if it is not left within the given number of rounds, or a point is missing. -/
def walk (M : Mask) (pts : List Pt) (forward : Bool) : Nat → Pt → Nat → Anchor → Option Anchor
  | n, p, i, a =>
    if 0 < a.search ∧ 0 < a.need then
      match n with
      | 0 => none
      | n + 1 => (pts[i]?).bind fun q => walk M pts forward n q (nextIndex forward pts.length i) (walkSegment a (stretches p q (sort (M.cross p q))))
    else some a

/-- `isWallTipAnchored` (src/bridge/bridge.cpp:760-836); `none` is undefined behaviour or running on. -/
def tipAnchored (M : Mask) (pts : List Pt) (rounds i : Nat) (tip other : Pt) (inside forward : Bool) (width : Int) (xs : List ℚ) : Option Bool :=
  (if inside then some width
    else (if forward then xs.head? else xs.getLast?.map fun x => 1 - x).map fun (c : ℚ) => width - ⌊c * (size other tip : ℚ)⌋).bind fun need =>
  if 0 < need then (walk M pts forward rounds tip (nextIndex forward pts.length i) ⟨inside, need, width * 2⟩).map fun a => decide (a.need ≤ 0)
  else some true

/-- `wallSegmentUsesBridging` (src/bridge/bridge.cpp:838-925). -/
def usesBridging (M : Mask) (pts : List Pt) (rounds i : Nat) (s e : ℚ) (minLen width : Int) : Option (List (ℚ × ℚ)) :=
  (pts[i]?).bind fun p => (pts[(i + 1) % pts.length]?).bind fun q =>
    let len := size p q
    let xs := sort (M.cross p q)
    if M.hit p q = false ∨ len < minLen then some []
    else if M.inside p = false ∧ M.inside q = false ∧ M.cross p q = [] then some []
    else (tipAnchored M pts rounds i p q (M.inside p) true width xs).bind fun a =>
      if a then (tipAnchored M pts rounds ((i + 1) % pts.length) q p (M.inside q) false width xs).map fun b =>
        if b then scan minLen len s e (M.inside p) 0 xs else []
      else some []

/-! ## How a line is printed

Places on the line are distances from its start; the rounding of points and of distances is left out. -/

/-- How a move is made: as usual, without material, or as a bridge. -/
inductive Kind where
  | plain
  | coast
  | bridge
deriving DecidableEq, Repr

/-- A move along the line. `a` is where the one before ended. -/
structure Out where
  kind : Kind
  a : ℚ
  b : ℚ
  flow : ℚ
  speed : ℚ
deriving DecidableEq, Repr

/-- What the printing of a line depends on: `flow`, `width_factor`, the speed of the default config, `speed_flow_factor`, `bridge_wall_coast` and the
ratio of speeds of the bridge config and the default config. -/
structure Cfg where
  flow : ℚ
  width : ℚ
  rate : ℚ
  ease : ℚ
  coast : ℚ
  ratio : ℚ

/-- `cur_point`, `non_bridge_line_volume`, `speed_factor`, `distance_to_bridge_start`. -/
structure St where
  cur : ℚ
  volume : ℚ
  speed : ℚ
  dist : ℚ
deriving DecidableEq

/-- `coast_dist` (src/LayerPlan.cpp:1136). -/
def coastDist (c : Cfg) (volume : ℚ) : ℚ := min volume 100000 * (1 - c.ease) * c.coast / 40

/-- `speed_factor` after a segment (src/LayerPlan.cpp:1198-1202). -/
def faster (s : ℚ) : ℚ := if 9 / 10 ≤ 1 - (1 - s) * (3 / 4) then 1 else 1 - (1 - s) * (3 / 4)

/-- `segment_end` (src/LayerPlan.cpp:1119-1121, 1138-1142). -/
def segmentEnd (c : Cfg) (st : St) (lineEnd : ℚ) : ℚ :=
  if 0 < st.dist ∧ st.dist - (lineEnd - st.cur) ≤ coastDist c st.volume then lineEnd
  else if st.speed = 1 ∨ lineEnd - st.cur < 1000 then lineEnd else st.cur + 1000

/-- `segment_flow` (src/LayerPlan.cpp:1125). -/
def segmentFlow (c : Cfg) (st : St) : ℚ := if 1 < st.speed then c.flow * (1 / st.speed) else c.flow

/-- The moves of a segment (src/LayerPlan.cpp:1127-1195). -/
def segmentMoves (c : Cfg) (st : St) (lineEnd : ℚ) : List Out :=
  let cd := coastDist c st.volume
  let x := segmentEnd c st lineEnd
  let len := x - st.cur
  if 0 < st.dist ∧ 0 < cd ∧ st.dist - len ≤ cd then
    if 5 < len - cd then [⟨.plain, st.cur, x - cd, segmentFlow c st, st.speed⟩, ⟨.coast, x - cd, x, 0, st.speed⟩]
    else [⟨.coast, st.cur, x, 0, st.speed⟩]
  else [⟨.plain, st.cur, x, segmentFlow c st, st.speed⟩]

/-- The state after a segment (src/LayerPlan.cpp:1179, 1196-1203). -/
def segmentNext (c : Cfg) (st : St) (lineEnd : ℚ) : St :=
  let x := segmentEnd c st lineEnd
  ⟨x, st.volume + (x - st.cur) * segmentFlow c st * c.width * st.speed * c.rate, faster st.speed,
    if 0 < st.dist then st.dist - (x - st.cur) else st.dist⟩

/-- `addNonBridgeLine` (src/LayerPlan.cpp:1112-1206); `none` if it does not end within the given number of rounds. -/
def nonBridge (c : Cfg) (lineEnd : ℚ) : Nat → St → Option (List Out × St)
  | n, st =>
    if 5 < lineEnd - st.cur then
      match n with
      | 0 => none
      | n + 1 => (nonBridge c lineEnd n (segmentNext c st lineEnd)).map fun r => (segmentMoves c st lineEnd ++ r.1, r.2)
    else some ([], st)

/-- The speed after a bridge (src/LayerPlan.cpp:1260). -/
def afterBridge (c : Cfg) : ℚ := max (min c.ratio 1) (1 / 2)

/-- The loop over the bridges and the rest of the line (src/LayerPlan.cpp:1247-1263, 1272), for a line of length `len`. -/
def printLine (c : Cfg) (len : ℚ) (rounds : Nat) : List (ℚ × ℚ) → St → Option (List Out × St)
  | [], st => nonBridge c len rounds st
  | sub :: subs, st =>
    (nonBridge c (sub.1 * len) rounds st).bind fun r =>
      let x := sub.2 * len
      (printLine c len rounds subs ⟨x, 0, afterBridge c, r.2.dist⟩).map fun o => (r.1 ++ ⟨.bridge, r.2.cur, x, c.flow, 1⟩ :: o.1, o.2)

end Verif.Bridge
