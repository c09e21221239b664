import Mathlib.Data.Rat.Defs
import Mathlib.Algebra.Order.Ring.Rat
import Mathlib.Algebra.Order.Field.Basic

/-! # Retracting and priming during travels

Models `LayerPlan::computeTravelDurations`, `computeAntiOozeAmounts`, `computeAntiOozeTravelSplit` and `writeTravelSegment`
(src/LayerPlan.cpp:2546-2825) and the part of `LayerPlan::writeGCode` that writes a travel (src/LayerPlan.cpp:3622-3629, 3725-3754).
Positions are any type with a length between two of them and a point at some ratio between two (which the code rounds to its grid). Numbers
are exact. The sum of the lengths is an `int` in the code (`ranges::accumulate` with `0`), here it has no bounds. -/

namespace Verif.Ooze

/-- `vSize`, in mm, and `cura::lerp` on the plane. -/
structure Geo (X : Type) where
  len : X → X → ℚ
  lerp : X → X → ℚ → X

/-- `AntiOozeSettings`: how much, how fast, and which part of it during travels (include/LayerPlan.h:102-107). -/
structure Half where
  distance : ℚ
  speed : ℚ
  ratio : ℚ

/-- `expected_duration_during_travel` (src/LayerPlan.cpp:2598-2601); a `Duration` is never negative. -/
def Half.duration (h : Half) (zHop : ℚ) : ℚ := max 0 (h.distance / h.speed * h.ratio - zHop)

/-- `expected_amount_during_travel` (src/LayerPlan.cpp:2602). -/
def Half.during (h : Half) (zHop : ℚ) : ℚ := h.duration zHop * h.speed

/-- `amount_while_still` (src/LayerPlan.cpp:2605-2606). -/
def Half.still (h : Half) : ℚ := h.distance - h.distance * h.ratio

/-- `actual_distance_during_zhop` (src/LayerPlan.cpp:2608-2612). -/
def Half.hop (h : Half) (zHop : ℚ) : ℚ := if 0 < zHop then min (h.distance * h.ratio) (h.speed * zHop) else 0

/-- `z_hop.ratio` (src/LayerPlan.cpp:2613). -/
def Half.hopRatio (h : Half) (zHop : ℚ) : ℚ := if 0 < zHop then h.hop zHop / (h.speed * zHop) else 0

/-- The amounts to be reached while still, during the z-hop and while travelling, how much of that is processed while travelling, and
how fast. -/
structure Amounts where
  still : ℚ
  zHop : ℚ
  travel : ℚ
  during : ℚ
  speed : ℚ

/-- The first part of `computeAntiOozeAmounts` (src/LayerPlan.cpp:2588-2676), for a travel and a z-hop of some duration. Ratios are compared
crosswise: with numbers of IEEE 754, a ratio of a positive number to zero is larger than any other. -/
def amounts (travel zHop : ℚ) (retract prime : Half) (keep : Bool) : Amounts × Amounts :=
  let expected := retract.duration zHop + prime.duration zHop
  let free := travel - expected
  let zr := retract.still + retract.hop zHop
  let zp := prime.still + prime.hop zHop
  if free < 0 then
    let reduction := -(free / expected)
    let lessR := retract.during zHop * reduction
    let lessP := prime.during zHop * reduction
    let duringR := retract.during zHop - lessR
    let duringP := prime.during zHop - lessP
    let reducedR := retract.distance - lessR
    let reducedP := prime.distance - lessP
    if reducedP * retract.distance < prime.distance * reducedR then
      let less := reducedR - reducedP / (prime.distance / retract.distance)
      (⟨retract.still - less, zr - less, zr - less + duringR, duringR, retract.speed⟩, ⟨prime.still, zp, zp + duringP, duringP, prime.speed⟩)
    else if prime.distance * reducedR < reducedP * retract.distance then
      let less := reducedP - reducedR * (prime.distance / retract.distance)
      (⟨retract.still, zr, zr + duringR, duringR, retract.speed⟩, ⟨prime.still - less, zp - less, zp - less + duringP, duringP, prime.speed⟩)
    else (⟨retract.still, zr, zr + duringR, duringR, retract.speed⟩, ⟨prime.still, zp, zp + duringP, duringP, prime.speed⟩)
  else
    let speed := if keep && decide (0 < free) then retract.during zHop / (retract.duration zHop + free) else retract.speed
    (⟨retract.still, zr, zr + retract.during zHop, retract.during zHop, speed⟩,
     ⟨prime.still, zp, zp + prime.during zHop, prime.during zHop, prime.speed⟩)

/-- How long an amount lasts during the travel (`duration_during_travel`, src/LayerPlan.cpp:2715): nothing if the amount and the speed
are both zero, as a `Duration` that is no number is zero. -/
def Amounts.duration (a : Amounts) : ℚ := a.during / a.speed

section
variable {X : Type} (G : Geo X) (speed : ℚ)

/-- The time that a segment takes (src/LayerPlan.cpp:2722). -/
def time (a b : X) : ℚ := G.len a b / speed

/-- The duration of the travel (src/LayerPlan.cpp:2556-2571). -/
def total : X → List X → ℚ
  | _, [] => 0
  | a, b :: l => time G speed a b + total b l

/-- The loop of `computeAntiOozeTravelSplit` (src/LayerPlan.cpp:2716-2751): the position at which the segment is split and the amounts at
the ends of the segments before it. `z` and `top` are the amounts between which to interpolate. -/
def splitLoop (duration z top : ℚ) : ℚ → X → List X → X × List ℚ
  | _, a, [] => (a, [])
  | elapsed, a, b :: l =>
    let t := time G speed a b
    if duration - 1 / 1000 ≤ elapsed + t ∨ l = [] then
      (if 1 / 1000 < t then G.lerp a b (max 0 (duration - elapsed) / t) else a, [])
    else
      let r := splitLoop duration z top (elapsed + t) b l
      (r.1, (z + (top - z) * ((elapsed + t) / duration)) :: r.2)

/-- What matters of `TravelAntiOozing` when a travel is written. -/
structure Split (X : Type) where
  position : X
  bySegment : List ℚ

/-- `computeAntiOozeTravelSplit` for the retraction (src/LayerPlan.cpp:2708-2712, 2740-2743). -/
def splitRetract (a : Amounts) (start : X) (points : List X) : Split X :=
  let r := splitLoop G speed a.duration a.zHop a.travel 0 start points
  ⟨r.1, if points = [] then [] else r.2 ++ [a.travel]⟩

/-- `computeAntiOozeTravelSplit` for priming, where the points are visited from the end (src/LayerPlan.cpp:2701-2707, 2736-2739), and the
shift of its amounts to what is reached by the retraction (src/LayerPlan.cpp:2681-2689). -/
def splitPrime (a : Amounts) (shift : ℚ) (start : X) (points : List X) : Split X :=
  match points.reverse ++ [start] with
  | [] => ⟨start, []⟩
  | last :: l =>
    let r := splitLoop G speed a.duration a.zHop a.travel 0 last l
    ⟨r.1, (if points = [] then [] else a.zHop :: r.2).map (· + shift)⟩

/-- What is written: a travel, maybe while the amount that is retracted changes, or the end of the retraction. -/
inductive Event (X : Type)
  | move (x : X) (amount : Option ℚ)
  | unretract
  deriving DecidableEq

/-- `TravelRetractionState` (include/LayerPlan.h:118-124). -/
inductive State
  | none
  | retracting
  | travelling
  | priming
  deriving DecidableEq

/-- `writeTravelSegment` while priming (src/LayerPlan.cpp:2811-2823). Assertions that fail and accesses out of range are errors. -/
def writePriming (points : List X) (prime : Split X) (i : Nat) : Option (State × List (Event X)) :=
  points[i]?.bind fun x => prime.bySegment[points.length - 1 - i]?.map fun amount => (.priming, [.move x (some amount)])

/-- `writeTravelSegment` between retracting and priming (src/LayerPlan.cpp:2792-2809). -/
def writeTravelling (points : List X) (prime : Split X) (i : Nat) : Option (State × List (Event X)) :=
  if points.length - 1 - i + 1 = prime.bySegment.length then
    (writePriming points prime i).map fun r => (r.1, .move prime.position none :: r.2)
  else points[i]?.map fun x => (.travelling, [.move x none])

/-- `writeTravelSegment` while retracting (src/LayerPlan.cpp:2769-2790). -/
def writeRetracting (points : List X) (retract prime : Split X) (i : Nat) : Option (State × List (Event X)) :=
  if i + 1 = retract.bySegment.length then
    retract.bySegment[i]?.bind fun amount =>
      (writeTravelling points prime i).map fun r => (r.1, .move retract.position (some amount) :: r.2)
  else points[i]?.bind fun x => retract.bySegment[i]?.map fun amount => (.retracting, [.move x (some amount)])

/-- `writeTravelSegment` (src/LayerPlan.cpp:2754-2825). -/
def writeSegment (points : List X) (retract prime : Split X) (s : State) (i : Nat) : Option (State × List (Event X)) :=
  match s with
  | .none => points[i]?.map fun x => (.none, [.move x none])
  | .retracting => writeRetracting points retract prime i
  | .travelling => writeTravelling points prime i
  | .priming => writePriming points prime i

/-- The segments from one on, with what is inserted before the last one (src/LayerPlan.cpp:3736-3748). -/
def writeFrom (points : List X) (retract prime : Split X) (unretract : Bool) : Nat → Nat → State → Option (List (Event X))
  | 0, _, _ => some []
  | n + 1, i, s =>
    (writeSegment points retract prime s i).bind fun r =>
      (writeFrom points retract prime unretract n (i + 1) r.1).map fun rest =>
        (if unretract && n == 0 then [.unretract] else []) ++ r.2 ++ rest

/-- A travel with retraction, from the position where the nozzle is (src/LayerPlan.cpp:3622-3629, 3725-3748). -/
def write (retract prime : Half) (keep unretract : Bool) (zHop : ℚ) (start : X) (points : List X) : Option (List (Event X)) :=
  let a := amounts (total G speed start points) zHop retract prime keep
  let r := splitRetract G speed a.1 start points
  let p := splitPrime G speed a.2 (a.1.travel - a.2.travel) start points
  writeFrom points r p unretract points.length 0 (if 0 < a.1.travel then .retracting else .none)

end
end Verif.Ooze
