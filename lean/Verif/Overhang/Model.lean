import Verif.Overhang.Spec
import Mathlib.Data.List.Sort

/-! # Slowing down over overhangs: the code

Modelled is `LayerPlan::addExtrusionMoveWithGradualOverhang` (src/LayerPlan.cpp:595-793) and how the regions are made (src/FffGcodeWriter.cpp:2716-2784). Simplifications: the parameters of the crossings are rational numbers instead of floats; where the line crosses a region is given. -/

namespace Verif.Overhang

/-- `std::llround` (in `Point3LL::operator*`, include/geometry/Point3LL.h:53-57). -/
def llround (q : ℚ) : Int := if 0 ≤ q then ⌊q + 1 / 2⌋ else -⌊-q + 1 / 2⌋

/-- `start + vector * intersection_parameter` (src/LayerPlan.cpp:720). -/
def along (a b : P3) (t : ℚ) : P3 :=
  ⟨a.x + llround (((b.x - a.x : Int) : ℚ) * t), a.y + llround (((b.y - a.y : Int) : ℚ) * t), a.z + llround (((b.z - a.z : Int) : ℚ) * t)⟩

/-- The region where the line starts (src/LayerPlan.cpp:639-649). -/
def startRegion (ms : List Reg) : Nat := (ms.dropLast.findIdx? fun r => r.has 0).getD (ms.length - 1)

/-- The crossings of all regions but the last one, sorted (src/LayerPlan.cpp:655-662). -/
def crossings (ms : List Reg) : List (List ℚ) := ms.dropLast.map fun r => r.cuts.insertionSort (· ≤ ·)

/-- `remove_previous_intersections` (src/LayerPlan.cpp:664-677). -/
def removePrevious (t : ℚ) (xss : List (List ℚ)) : List (List ℚ) := xss.map fun xs => xs.dropWhile fun x => decide (x ≤ t)

/-- `first_intersection_current_region` (src/LayerPlan.cpp:696-698). -/
def current (xss : List (List ℚ)) (i : Nat) : Option ℚ := (xss.getD i []).head?

/-- `first_intersection_inner_region` (src/LayerPlan.cpp:700-701). -/
def inner (xss : List (List ℚ)) (i : Nat) : Option ℚ := if i > 0 then (xss.getD (i - 1) []).head? else none

/-- The next crossing and the region after it (src/LayerPlan.cpp:703-722). -/
def next (xss : List (List ℚ)) (i : Nat) : Option (ℚ × Nat) :=
  match current xss i, inner xss i with
  | some c, none => some (c, i + 1)
  | some c, some n => if n > c then some (c, i + 1) else some (n, i - 1)
  | none, some n => some (n, i - 1)
  | none, none => none

/-- The loop that divides the line (src/LayerPlan.cpp:688-734). Of a piece the parameter of its end and the region are kept; its position is that of the parameter (1 for the end). `none` if an index is out of range, or if there are more than the given number of rounds. -/
def walk : Nat → List (List ℚ) → Nat → Option (List (ℚ × Nat))
  | 0, _, _ => none
  | f + 1, xss, i =>
    if i > xss.length then none
    else match next xss i with
      | none => some [(1, i)]
      | some (t, j) => (walk f (removePrevious t xss) j).map fun ms => (t, i) :: ms

/-- The number of rounds that is allowed. -/
def rounds (xss : List (List ℚ)) : Nat := (xss.map List.length).sum + 1

/-- The loop that leaves out short pieces (src/LayerPlan.cpp:738-748; MINIMUM_LINE_LENGTH is 5, 49-50). -/
def keep (pos : ℚ → P3) : P3 → List (ℚ × Nat) → List (ℚ × Nat)
  | _, [] => []
  | cur, m :: ms => if Spec.dist2 (pos m.1) cur ≥ 25 then m :: keep pos (pos m.1) ms else keep pos (pos m.1) ms

/-- `extrusion_moves_filtered.back().position = …` (src/LayerPlan.cpp:756). -/
def setBack : List (ℚ × Nat) → ℚ → List (ℚ × Nat)
  | [], _ => []
  | [m], t => [(t, m.2)]
  | m :: n :: ms, t => m :: setBack (n :: ms) t

/-- The pieces that are not too short; the last one reaches the end (src/LayerPlan.cpp:736-757). -/
def filterMoves (pos : ℚ → P3) (moves : List (ℚ × Nat)) : List (ℚ × Nat) :=
  match moves.getLast? with
  | none => []
  | some l =>
    let kept := keep pos (pos 0) moves.dropLast
    if kept.isEmpty ∨ Spec.dist2 (pos l.1) (pos ((moves.dropLast.getLast?.map Prod.fst).getD 0)) ≥ 25 then kept ++ [l]
    else setBack kept l.1

/-- Merging consecutive pieces with the same speed (src/LayerPlan.cpp:774-786); `m` is the back of the result. -/
def mergeFrom (speed : Nat → ℚ) (m : ℚ × Nat) : List (ℚ × Nat) → List (ℚ × Nat)
  | [] => [m]
  | x :: xs => if speed x.2 = speed m.2 then mergeFrom speed (x.1, m.2) xs else m :: mergeFrom speed x xs

/-- The loop over all pieces (src/LayerPlan.cpp:769-786). -/
def merge (speed : Nat → ℚ) : List (ℚ × Nat) → List (ℚ × Nat)
  | [] => []
  | m :: ms => mergeFrom speed m ms

/-- The factor of the speed of a region (src/LayerPlan.cpp:608). -/
def speedOf (ms : List Reg) (i : Nat) : ℚ := (ms[i]?.map Reg.speed).getD 1

/-- The pieces of the line without the short ones (src/LayerPlan.cpp:638-757). -/
def pieces (a b : P3) (ms : List Reg) : Option (List (ℚ × Nat)) :=
  (walk (rounds (crossings ms)) (crossings ms) (startRegion ms)).map (filterMoves (along a b))

/-- The moves that are added (src/LayerPlan.cpp:595-793). `last` is the position before, if there is one. -/
def add (last : Option P3) (p : P3) (factor : ℚ) (ms : List Reg) : Option (List Move) :=
  match last with
  | none => some [⟨1, p, factor⟩]
  | some a =>
    if ms.isEmpty then some [⟨1, p, factor⟩]
    else (pieces a p ms).map fun l => (merge (speedOf ms) l).map fun m => ⟨m.1, along a p m.1, factor * speedOf ms m.2⟩

/-- What is known about the overhangs (include/LayerPlan.h:168-170). -/
structure Track where
  now : Bool
  cur : Nat
  max : Nat
deriving DecidableEq, Repr

/-- `update_is_overhanging` (src/LayerPlan.cpp:612-626); the length of the move is given. -/
def update (s : Track) (m : Nat × Bool) : Track :=
  let s1 := if m.2 ≠ s.now then { s with max := max s.cur s.max, cur := 0 } else s
  let s2 := if m.2 then { s1 with cur := s1.cur + m.1 } else s1
  { s2 with now := m.2 }

/-- The overhangs of a layer, from the beginning (include/LayerPlan.h:168-170, src/LayerPlan.cpp:759-767); the result is what is compared with the setting (src/LayerPlan.cpp:3346). -/
def measured (ms : List (Nat × Bool)) : Nat := (ms.foldl update ⟨false, 0, 0⟩).max

/-- Makes regions of an angle, a speed and whether they may be merged (src/FffGcodeWriter.cpp:2750-2763). -/
def rawRegions (first : ℚ) (factors : List ℚ) : List (ℚ × ℚ × Bool) :=
  (first, 1, false)
    :: (List.range factors.length).map (fun (k : Nat) => (first + ((k : ℚ) + 1) * ((90 - first) / factors.length), factors.getD k 1, true))
    ++ [(90, factors.getLastD 1, true)]

/-- The last element of each chunk (`chunk_by`, src/FffGcodeWriter.cpp:2766-2780); `m` is the last one so far. -/
def lastOfChunks (m : ℚ × ℚ × Bool) : List (ℚ × ℚ × Bool) → List (ℚ × ℚ)
  | [] => [(m.1, m.2.1)]
  | x :: xs => if m.2.2 = true ∧ x.2.2 = true ∧ m.2.1 = x.2.1 then lastOfChunks x xs else (m.1, m.2.1) :: lastOfChunks x xs

/-- The angles and speeds of the regions (src/FffGcodeWriter.cpp:2735-2784). -/
def regionAngles (first : ℚ) (factors : List ℚ) : List (ℚ × ℚ) :=
  if factors.length > 0 ∧ first < 90 then
    match rawRegions first factors with
    | [] => []
    | m :: ms =>
      let merged := lastOfChunks m ms
      if merged.length > 1 then merged else []
  else []

open Classical in
/-- The speed of the region of a point: the first one that has it, but the last one, and the last one otherwise (src/LayerPlan.cpp:640-649). The region of an angle (`get_supported_region`, src/FffGcodeWriter.cpp:2720-2733) is empty from 90 degrees on; here a predicate of the angle. -/
noncomputable def pointSpeed (supported : ℚ → Prop) : List (ℚ × ℚ) → ℚ
  | [] => 1
  | [m] => m.2
  | m :: n :: ms => if supported m.1 then m.2 else pointSpeed supported (n :: ms)

end Verif.Overhang
