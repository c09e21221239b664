import Mathlib.Data.Nat.Sqrt
import Mathlib.Data.List.Sort
import Mathlib.Logic.Function.Basic
import Mathlib.Tactic.Linarith
import Mathlib.Data.Rat.Floor

/-! # Simplification of polygons and lines

Models src/utils/Simplify.cpp and what it uses of src/utils/linearAlg2D.cpp, include/utils/linearAlg2D.h and
include/geometry/Point2LL.h. Integers have no bounds; the square root and the divisions of doubles are exact before they are rounded.
The intersection of two lines, which is computed with floats, is a parameter. -/

namespace Verif.Simplify

abbrev Pt := Int × Int

/-- `vSize2` of a difference (include/geometry/Point2LL.h:119-122). -/
def size2 (p q : Pt) : Int := (p.1 - q.1) * (p.1 - q.1) + (p.2 - q.2) * (p.2 - q.2)

/-- `std::llrint` of a square root; there are no ties. -/
def roundSqrt (n : Nat) : Nat := if Nat.sqrt n * Nat.sqrt n + Nat.sqrt n < n then Nat.sqrt n + 1 else Nat.sqrt n

/-- `vSize` of a difference (include/geometry/Point2LL.h:147-150). -/
def size (p q : Pt) : Int := roundSqrt (size2 p q).toNat

/-- `LinearAlg2D::getDistFromLine` (src/utils/linearAlg2D.cpp:242-259). -/
def dist (p a b : Pt) : Int :=
  if size b a = 0 then size p a
  else |(p.1 - b.1) * (p.2 - a.2) + (a.1 - p.1) * (p.2 - b.2)| / size b a

/-- `LinearAlg2D::getDist2FromLine` (src/utils/linearAlg2D.cpp:194-200). -/
def dist2 (p a b : Pt) : Int := dist p a b * dist p a b

/-- `LinearAlg2D::getDist2FromLineSegment` (include/utils/linearAlg2D.h:210-269). -/
def segDist2 (a b c : Pt) : Int :=
  if size c a = 0 then size2 b a
  else
    let ax := ((b.1 - a.1) * (c.1 - a.1) + (b.2 - a.2) * (c.2 - a.2)).tdiv (size c a)
    if ax < 0 then size2 b a
    else if ax > size c a then size2 b c
    else size2 (b.1 - a.1, b.2 - a.2) (((c.1 - a.1) * ax).tdiv (size c a), ((c.2 - a.2) * ax).tdiv (size c a))

/-- A kind of vertices, with the functions that differ between points and junctions (src/utils/Simplify.cpp:140-209), the settings
(include/utils/Simplify.h) and the intersection of lines. -/
structure Params (V : Type) where
  pos : V → Pt
  cross : V → Pt → V → V
  area : V → V → V → Int
  meet : Pt → Pt → Pt → Pt → Option Pt
  maxRes : Int
  maxDev : Int
  maxArea : Int

/-- `std::numeric_limits<coord_t>::max()`. -/
def top : Int := 2 ^ 63 - 1

/-- `min_resolution * min_resolution` (include/utils/Simplify.h:163). -/
def tiny2 : Int := 5 * 5

/-- `std::llrint` of an exact number: the nearest integer, of two the even one. -/
def llrint (x : ℚ) : Int :=
  if x - ⌊x⌋ < 1 / 2 then ⌊x⌋
  else if 1 / 2 < x - ⌊x⌋ then ⌊x⌋ + 1
  else if 2 ∣ ⌊x⌋ then ⌊x⌋ else ⌊x⌋ + 1

/-- `LinearAlg2D::lineLineIntersection` (src/utils/linearAlg2D.cpp:275-297, 304-320) with exact numbers instead of floats, a possible
value of the parameter. -/
def exactMeet (a b c d : Pt) : Option Pt :=
  let div := (a.1 - b.1) * (c.2 - d.2) - (a.2 - b.2) * (c.1 - d.1)
  if div = 0 then none
  else
    let t : ℚ := ((a.1 - c.1) * (c.2 - d.2) - (a.2 - c.2) * (c.1 - d.1) : Int) / (div : Int)
    let x := a.1 + llrint (((b.1 - a.1 : Int) : ℚ) * t)
    let y := a.2 + llrint (((b.2 - a.2 : Int) : ℚ) * t)
    if |x| > 2 ^ 31 - 1 ∨ |y| > 2 ^ 31 - 1 then none else some (x, y)

/-! ## Vertices as points -/

/-- `getPosition`, `createIntersection` and `getAreaDeviation` of points (src/utils/Simplify.cpp:140-153, 163-166). -/
def points (meet : Pt → Pt → Pt → Pt → Option Pt) (res dev area : Int) : Params Pt := ⟨id, fun _ x _ => x, fun _ _ _ => 0, meet, res, dev, area⟩

/-- A junction: position and width (src/utils/Simplify.cpp:145-148). -/
structure Junction where
  p : Pt
  w : Int
  deriving DecidableEq

/-- `getAreaDeviation` of junctions (src/utils/Simplify.cpp:168-209). -/
def areaDeviation (a b c : Junction) : Int :=
  let ab := size b.p a.p
  let bc := size c.p b.p
  let ac := size c.p a.p
  if ab = 0 ∨ ac = 0 ∨ bc = 0 then 0
  else
    let diff := max |b.w - a.w| |c.w - b.w|
    if diff > 1 then
      let abw := (a.w + b.w).tdiv 2
      let bcw := (b.w + c.w).tdiv 2
      let avg := (ab * abw + bc * bcw).tdiv ac
      |abw - avg| * ab + |bcw - avg| * bc
    else if ab > bc then diff * bc else diff * ab

/-- `getPosition`, `createIntersection` and `getAreaDeviation` of junctions (src/utils/Simplify.cpp:145-148, 155-161, 168-209). -/
def junctions (meet : Pt → Pt → Pt → Pt → Option Pt) (res dev area : Int) : Params Junction :=
  ⟨Junction.p, fun b x a => ⟨x, (b.w + a.w).tdiv 2⟩, areaDeviation, meet, res, dev, area⟩

/-! ## Neighbours -/

/-- `nextNotDeleted` (src/utils/Simplify.cpp:100-106). Without any vertex left it never ends. -/
def next (n : Nat) (del : Nat → Bool) (i : Nat) : Option Nat := ((List.range n).map fun k : Nat => (i + 1 + k) % n).find? fun j => !del j

/-- `previousNotDeleted` (src/utils/Simplify.cpp:108-114). -/
def prev (n : Nat) (del : Nat → Bool) (i : Nat) : Option Nat := ((List.range n).map fun k : Nat => (i + n - 1 - k) % n).find? fun j => !del j

section
variable {V : Type} (P : Params V) (n : Nat) (closed : Bool)

/-- The vertices and whether they are deleted. -/
structure St (V : Type) where
  poly : Nat → V
  del : Nat → Bool

/-- The importance of a vertex, given its neighbours (src/utils/Simplify.cpp:317-338). -/
def weigh (b v a : V) : Int :=
  if P.area b v a > P.maxArea then top
  else
    let dev := dist2 (P.pos v) (P.pos b) (P.pos a)
    if dev ≤ tiny2 then dev
    else if size2 (P.pos b) (P.pos v) > P.maxRes * P.maxRes ∧ size2 (P.pos a) (P.pos v) > P.maxRes * P.maxRes then top
    else dev

/-- `importance` (src/utils/Simplify.cpp:308-339). -/
def importance (s : St V) (i : Nat) : Option Int :=
  if !closed && (i = 0 || i = n - 1) then some top
  else do
    let b ← prev n s.del i
    let a ← next n s.del i
    return weigh P (s.poly b) (s.poly i) (s.poly a)

/-- The vertex is deleted. -/
def St.drop (s : St V) (i : Nat) : St V := { s with del := Function.update s.del i true }

/-- Another one is moved. -/
def St.move (s : St V) (j : Nat) (v : V) : St V := { s with poly := Function.update s.poly j v }

/-- A short edge is replaced by the intersection of the edges next to it (src/utils/Simplify.cpp:395-408). -/
def replaceEdge (s : St V) (i b a target : Nat) (from1 to1 from2 to2 : V) : St V × Bool :=
  match P.meet (P.pos from1) (P.pos to1) (P.pos from2) (P.pos to2) with
  | none => (s, false)
  | some x =>
    if segDist2 (P.pos to1) x (P.pos from2) ≤ P.maxDev * P.maxDev then
      ((s.drop i).move target (P.cross (s.poly b) x (s.poly a)), true)
    else (s, false)

/-- The shorter edge next to the vertex is replaced (src/utils/Simplify.cpp:367-408). -/
def shortEdge (s : St V) (i b a : Nat) : Option (St V × Bool) :=
  if size2 (P.pos (s.poly i)) (P.pos (s.poly b)) ≤ size2 (P.pos (s.poly i)) (P.pos (s.poly a)) then
    if !closed && b = 0 then some (s, false)
    else (prev n s.del b).map fun bb => replaceEdge P s i b a b (s.poly bb) (s.poly b) (s.poly i) (s.poly a)
  else
    if !closed && a = n - 1 then some (s, false)
    else (next n s.del a).map fun aa => replaceEdge P s i b a a (s.poly b) (s.poly i) (s.poly a) (s.poly aa)

/-- `remove` (src/utils/Simplify.cpp:342-409). -/
def remove (s : St V) (i : Nat) (dev : Int) : Option (St V × Bool) :=
  if dev ≤ tiny2 then some (s.drop i, true)
  else do
    let b ← prev n s.del i
    let a ← next n s.del i
    if size2 (P.pos (s.poly i)) (P.pos (s.poly b)) ≤ P.maxRes * P.maxRes ∧ size2 (P.pos (s.poly i)) (P.pos (s.poly a)) ≤ P.maxRes * P.maxRes then
      some (s.drop i, true)
    else shortEdge P n closed s i b a

/-! ## The queue -/

/-- The order of the queue: the least important vertex first, of equal ones the one with the lowest number
(src/utils/Simplify.cpp:246-250). -/
def before (x y : Nat × Int) : Bool := decide (x.2 < y.2 ∨ (x.2 = y.2 ∧ x.1 ≤ y.1))

/-- `top` of the queue. -/
def least : Nat × Int → List (Nat × Int) → Nat × Int
  | x, [] => x
  | x, y :: rest => least (if before x y then x else y) rest

/-- The inner loop (src/utils/Simplify.cpp:270-287). The first argument bounds the number of turns; `none` if it is not enough. -/
def drain (minSize : Nat) : Nat → St V → List (Nat × Int) → Nat → Option (St V × Nat)
  | _, s, [], removed => some (s, removed)
  | 0, _, _ :: _, _ => none
  | fuel + 1, s, x :: rest, removed =>
    if n - removed > minSize then
      let v := least x rest
      let queue := (x :: rest).erase v
      (importance P n closed s v.1).bind fun imp =>
        if imp ≠ v.2 then drain minSize fuel s (queue ++ [(v.1, imp)]) removed
        else if imp ≤ P.maxDev * P.maxDev then
          (remove P n closed s v.1 imp).bind fun r => drain minSize fuel r.1 queue (if r.2 then removed + 1 else removed)
        else drain minSize fuel s queue removed
    else some (s, removed)

/-- The numbers of the vertices that are left. -/
def alive (s : St V) : List Nat := (List.range n).filter fun i => !s.del i

/-- One turn of the outer loop (src/utils/Simplify.cpp:255-287). The queue is empty at the end of a turn, unless the loop is about to
end. -/
def round (minSize : Nat) (s : St V) : Option (St V × Nat) :=
  ((alive n s).mapM fun i => (importance P n closed s i).map fun imp => (i, imp)).bind fun queue =>
    drain P n closed minSize (n * (n + 1) + n) s queue 0

/-- The outer loop (src/utils/Simplify.cpp:253-288). -/
def rounds (minSize : Nat) : Nat → St V → Option (St V)
  | 0, _ => none
  | fuel + 1, s => (round P n closed minSize s).bind fun r =>
      if n - r.2 > minSize ∧ r.2 ≠ 0 then rounds minSize fuel r.1 else some r.1

end

/-- `detectSmall` (src/utils/Simplify.cpp:212-230). -/
def small {V : Type} (P : Params V) (minSize : Nat) (l : List V) : Bool :=
  decide (l.length < minSize) ||
  match l with
  | a :: b :: rest =>
    let c := (b :: rest).getLastD b
    decide (l.length = minSize ∧ max (max (size2 (P.pos b) (P.pos a)) (size2 (P.pos c) (P.pos a))) (size2 (P.pos c) (P.pos b)) < tiny2)
  | _ => false

/-- `simplify` (src/utils/Simplify.cpp:233-305). -/
def simplify {V : Type} (P : Params V) (closed : Bool) (l : List V) : Option (List V) :=
  let minSize := if closed then 3 else 2
  if small P minSize l then some []
  else if l.length = minSize then some l
  else
    match l with
    | [] => some []
    | v :: rest =>
      (rounds P (v :: rest).length closed minSize ((v :: rest).length + 1) ⟨fun i => (v :: rest).getD i v, fun _ => false⟩).map fun s =>
        let filtered := (alive (v :: rest).length s).map s.poly
        if small P minSize filtered then [] else filtered

end Verif.Simplify
