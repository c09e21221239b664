import Verif.Walls.Model

/-! # Following a wall

Models `LayerPlan::addSplitWall` and `LayerPlan::addWallWithScarfSeam` (src/LayerPlan.cpp:1327-1580, 1786-1883): how a wall with junctions of varying
width becomes extrusion moves, with the ramp of a scarf seam and changes of speed at its ends; and `writeExtrusionRelativeZ`
(src/LayerPlan.cpp:2842-2866), which decides how much is extruded when the height is not that of the layer. Floating point numbers are exact, integers
have no bounds. What is known about bridges (`distance_to_bridge_start`) is left out. -/

namespace Verif.Scarf

open Verif.Order (Pt)
open Verif.Walls (Junction size)

/-- `Point3LL`. -/
structure P3 where
  x : Int
  y : Int
  z : Int
deriving DecidableEq, Repr

/-- The parameters of `addSplitWall` (src/LayerPlan.cpp:1328-1354); `closed` and `reversed` stand for `max_index` and `direction`. -/
structure Cfg where
  closed : Bool
  reversed : Bool
  small : Bool
  closure : Bool
  wallLength : Int
  areaDeviation : Int
  resolution : Int
  scarf : Int
  scarfSplit : Int
  drop : Int
  speedSplit : Int
  startSpeed : ℚ
  accelerate : Int
  endSpeed : ℚ
  decelerate : Int

/-- What is given to `func_add_segment` (src/LayerPlan.cpp:1538-1550). `d0` and `d1` are `wall_processed_distance` before and after, which are not
passed on. -/
structure Seg where
  index : Nat
  r0 : ℚ
  r1 : ℚ
  a : P3
  b : P3
  speed : ℚ
  width : Int
  toZ : Bool
  d0 : Int
  d1 : Int
deriving DecidableEq, Repr

/-- What is added to the plan: a travel to the start, moves of small features, parts of the wall. -/
inductive Move where
  | travel (p : Pt)
  | small (p : Pt) (width : Int)
  | seg (s : Seg)
deriving DecidableEq, Repr

/-- `split_origin`, `wall_processed_distance`, `accelerate_factor_origin`, `decelerate_factor_origin`, `keep_processing`. -/
structure St where
  origin : P3
  done : Int
  acc : ℚ
  dec : ℚ
  keep : Bool

/-- `std::lerp` (with exact numbers). -/
def lerp (a b t : ℚ) : ℚ := a + t * (b - a)

/-- `cura::lerp` of points (include/geometry/Point2LL.h:226-229, include/utils/Coord_t.h:37-41). -/
def lerpPt (a b : Pt) (t : ℚ) : Pt := ⟨Simplify.llrint (lerp a.x b.x t), Simplify.llrint (lerp a.y b.y t)⟩

/-- `normal` (include/geometry/Point2LL.h:164-172), added to a point. -/
def along (p q : Pt) (d : Int) : Pt :=
  if size q p < 1 then ⟨p.x + d, p.y⟩
  else ⟨p.x + ((q.x - p.x) * d).tdiv (size q p), p.y + ((q.y - p.y) * d).tdiv (size q p)⟩

/-- `pieces` (src/LayerPlan.cpp:1424-1440). -/
def pieces (c : Cfg) (a b : Junction) : Nat :=
  let len := size b.p a.p
  let deviation := |b.w - a.w| * len / 4
  max 1 (min ((deviation + c.areaDeviation - 1) / c.areaDeviation).toNat (len / c.resolution).toNat)

/-- `piece_length` (src/LayerPlan.cpp:1441). -/
def pieceLength (c : Cfg) (a b : Junction) : Int := (size b.p a.p + (pieces c a b / 2 : Nat)) / pieces c a b

/-- `line_width` (src/LayerPlan.cpp:1445-1448). -/
def lineWidth (a b : Junction) (n piece : Nat) : Int :=
  Simplify.llrint ((a.w : ℚ) + ((piece : ℚ) + 1 / 2) / n * ((b.w - a.w : Int) : ℚ))

/-- `destination_position` (src/LayerPlan.cpp:1463-1496). -/
def stop (c : Cfg) (done remaining : Int) : Int :=
  let m := done + remaining
  let m := if done < c.scarf then min (min m c.scarf) (done + c.scarfSplit) else m
  let m := if !c.closure && decide (done < c.accelerate) then min (min m c.accelerate) (done + c.speedSplit) else m
  if !c.closure && decide (0 < c.decelerate) then
    (if c.wallLength - c.decelerate ≤ done then min m (done + c.speedSplit) else min m (c.wallLength - c.decelerate))
  else m

/-- The height of the destination, relative to the layer (src/LayerPlan.cpp:1499-1511). -/
def height (c : Cfg) (done target : Int) : Int :=
  if done < c.scarf ∧ c.closure = false then Simplify.llrint (lerp c.drop 0 ((target : ℚ) / c.scarf)) else 0

/-- `accelerate_factor_destination` (src/LayerPlan.cpp:1514-1519). -/
def accTo (c : Cfg) (done target : Int) : ℚ := if c.closure = false ∧ done < c.accelerate then (target : ℚ) / c.accelerate else 1

/-- `deceleration_started` (src/LayerPlan.cpp:1479-1483). -/
def slowing (c : Cfg) (done : Int) : Bool := !c.closure && decide (0 < c.decelerate) && decide (c.wallLength - c.decelerate ≤ done)

/-- `decelerate_factor_destination` (src/LayerPlan.cpp:1525-1530). -/
def decTo (c : Cfg) (done target : Int) : ℚ := if slowing c done then 1 - ((c.wallLength - target : Int) : ℚ) / c.decelerate else 0

/-- The factor of the speed (src/LayerPlan.cpp:1513-1545). -/
def speed (c : Cfg) (st : St) (target : Int) : ℚ :=
  (if c.closure = false ∧ st.done < c.accelerate then lerp c.startSpeed 1 ((st.acc + accTo c st.done target) / 2) else 1) *
    (if slowing c st.done then lerp 1 c.endSpeed ((st.dec + decTo c st.done target) / 2) else if c.closure then c.endSpeed else 1)

/-- The body of the innermost loop (src/LayerPlan.cpp:1460-1564), for the part of the wall from `a` to `b`, of which `sofar` has been processed and
`remaining` of the piece have not. -/
def sub (c : Cfg) (index : Nat) (a b : Junction) (width sofar remaining : Int) (st : St) : Seg × St :=
  let len := size b.p a.p
  let target := stop c st.done remaining
  let r1 : ℚ := ((sofar + (target - st.done) : Int) : ℚ) / len
  let p := lerpPt a.p b.p r1
  let dest : P3 := ⟨p.x, p.y, height c st.done target⟩
  (⟨index, (sofar : ℚ) / len, r1, st.origin, dest, speed c st target, width, decide (st.done = 0), st.done, target⟩,
    ⟨dest, target, accTo c st.done target, decTo c st.done target, if c.closure then decide (target < c.scarf) else st.keep⟩)

/-- The innermost loop (src/LayerPlan.cpp:1457-1565); `none` if it is not left within the given number of rounds. Also results in what has been
processed of the part from `a` to `b`. -/
def cut (c : Cfg) (index : Nat) (a b : Junction) (width : Int) : Nat → Int → Int → St → Option (List Seg × Int × St)
  | n, sofar, remaining, st =>
    if 0 < remaining ∧ st.keep = true then
      match n with
      | 0 => none
      | n + 1 =>
        let r := sub c index a b width sofar remaining st
        let step := r.2.done - st.done
        (cut c index a b width n (sofar + step) (remaining - step) r.2).map fun o => (r.1 :: o.1, o.2)
    else some ([], sofar, st)

/-- The loop over the pieces (src/LayerPlan.cpp:1443-1567), for the pieces from `piece` on. -/
def cutAll (c : Cfg) (index : Nat) (a b : Junction) (n : Nat) : Nat → Nat → Int → St → Option (List Seg × St)
  | 0, _, _, st => some ([], st)
  | left + 1, piece, sofar, st =>
    if st.keep then
      (cut c index a b (lineWidth a b n piece) (pieceLength c a b).toNat sofar (pieceLength c a b) st).bind fun o =>
        (cutAll c index a b n left (piece + 1) o.2.1 o.2.2).map fun r => (o.1 ++ r.1, r.2)
    else some ([], st)

/-- The moves of a small feature (src/LayerPlan.cpp:1450-1454). -/
def smallMoves (c : Cfg) (a b : Junction) : List Move :=
  (List.range (pieces c a b)).map fun piece => .small (along a.p b.p (pieceLength c a b * (piece + 1 : Nat))) (lineWidth a b (pieces c a b) piece)

/-- `actual_point_index` (src/LayerPlan.cpp:1388). The unsigned arithmetic does not go below zero, as there are at most `size` steps. -/
def vertex (c : Cfg) (n start k : Nat) : Nat := if c.reversed then (n + start - k) % n else (n + start + k) % n

/-- `point_index(actual_point_index - 1)` (src/LayerPlan.cpp:1376-1384, 1540). -/
def indexBefore (n i : Nat) : Nat := (i + n - 1) % n

/-- The loop over the vertices (src/LayerPlan.cpp:1386-1577), from the `k`th step on with `left` steps to go. -/
def follow (c : Cfg) (js : List Junction) (start : Nat) : Nat → Nat → St → Option (List Move × St)
  | 0, _, st => some ([], st)
  | left + 1, k, st =>
    if st.keep then
      (js[vertex c js.length start (k - 1)]?).bind fun a => (js[vertex c js.length start k]?).bind fun b =>
        if c.small && !c.closure then (follow c js start left (k + 1) st).map fun r => (smallMoves c a b ++ r.1, r.2)
        else (cutAll c (indexBefore js.length (vertex c js.length start k)) a b (pieces c a b) (pieces c a b) 0 0 st).bind fun o =>
          (follow c js start left (k + 1) o.2).map fun r => (o.1.map .seg ++ r.1, r.2)
    else some ([], st)

/-- `max_index - 1` (src/LayerPlan.cpp:1821). -/
def steps (c : Cfg) (js : List Junction) : Nat := if c.closed then js.length else js.length - 1

/-- `addSplitWall` (src/LayerPlan.cpp:1327-1580), one pass along the wall. -/
def pass (c : Cfg) (js : List Junction) (start : Nat) : Option (List Move) :=
  (js[start]?).bind fun j =>
    let st : St := ⟨⟨j.p.x, j.p.y, if !c.closure && decide (0 < c.scarf) then c.drop else 0⟩, 0, 0, 0, true⟩
    (follow c js start (steps c js) 1 st).map fun r => (if !c.closure && decide (0 < steps c js) then [.travel j.p] else []) ++ r.1

/-- The end of `addWallWithScarfSeam` (src/LayerPlan.cpp:1873-1880). -/
def addWall (c : Cfg) (js : List Junction) (start : Nat) : Option (List Move) :=
  (pass { c with closure := false } js start).bind fun m =>
    if 0 < c.scarf then (pass { c with closure := true } js start).map fun m' => m ++ m' else some m

/-- `ExtrusionLine::length` (src/utils/ExtrusionLine.cpp:15-33), and that of polygons. -/
def wallLength (closed : Bool) (js : List Junction) : Int :=
  ((js.zip js.tail).map fun e => size e.2.p e.1.p).sum +
    match closed, js.head?, js.getLast? with
    | true, some a, some b => size a.p b.p
    | _, _, _ => 0

/-- `scarf_max_z_offset` (src/LayerPlan.cpp:1826); the conversion drops the fraction. -/
def maxDrop (startRatio : ℚ) (thickness : Int) : Int := -⌊(1 - startRatio) * thickness⌋

/-- `std::clamp` to the range from 0 to 1. -/
def clamp01 (x : ℚ) : ℚ := if x < 0 then 0 else if 1 < x then 1 else x

/-- `thickness_factor` (src/LayerPlan.cpp:2850-2863): by how much the flow is changed. `now` is the height of the nozzle and `offset` that of the path,
relative to the layer. -/
def thicknessFactor (thickness now offset : Int) : ℚ :=
  if now ≠ 0 ∨ offset ≠ 0 then (clamp01 (1 + (now : ℚ) / thickness) + clamp01 (1 + (offset : ℚ) / thickness)) / 2 else 1

end Verif.Scarf
