import Verif.Support.Model
import Verif.Box.Model

/-! # Areas that are taken out of support

Models `SupportLayer::excludeAreasFromSupportInfillAreas` (src/sliceDataStorage.cpp:762-823), which takes the brim and the
prime tower out of the support of a layer. The parts are elements of a vector, whose capacity is modelled: the code holds a
reference to an element while it appends others. -/

namespace Verif.Support

open Verif.Volumes (Point Region times)
open Verif.Box (AABB)

/-- `SupportInfillPart` (include/SupportInfillPart.h:28-42), as far as it is used here. -/
structure InfillPart where
  outline : Region
  box : AABB
  width : Int
  fractional : Bool
  inset : Int
  distance : Int

/-- What is taken out, and its bounding box; the division into islands and the bounding box of an island; the capacity of
a full vector after it has grown. -/
structure Exclusion where
  region : Region
  box : AABB
  islands : Region → List Region
  boxOf : Region → AABB
  grow : Nat → Nat

/-- The vector of the parts, and the indices of the parts to remove, the last one first. -/
structure Parts where
  parts : List InfillPart
  capacity : Nat
  remove : List Nat

/-- The loop that appends the islands of a part but the first (src/sliceDataStorage.cpp:801-806). `valid` says that the
reference to the part at the index refers to an element of the vector. The constructor has read its arguments when the
vector grows, so the part that makes it grow is made correctly. -/
def append (e : Exclusion) (at_ : Nat) (valid : Bool) : List Region → Parts → Outcome Parts
  | [], s => .ok s
  | r :: rs, s =>
    if valid then
      (Outcome.index s.parts at_).bind fun p =>
        let s' : Parts := ⟨s.parts ++ [⟨r, e.boxOf r, p.width, p.fractional, p.inset, 0⟩],
          if s.parts.length < s.capacity then s.capacity else e.grow s.capacity, s.remove⟩
        append e at_ (decide (s.parts.length < s.capacity)) rs s'
    else .ub

/-- The body of the loop over the parts (src/sliceDataStorage.cpp:768-807). If nothing is left of the part, there are no
islands either. -/
def excludePart (e : Exclusion) (s : Parts) (at_ : Nat) : Outcome Parts :=
  (Outcome.index s.parts at_).bind fun p =>
    if e.box.hit p.box then
      match e.islands (p.outline \ e.region) with
      | [] => .ok ⟨s.parts, s.capacity, at_ :: s.remove⟩
      | r :: rs => append e at_ true rs ⟨s.parts.set at_ { p with outline := r }, s.capacity, s.remove⟩
    else .ok s

/-- The loop over the parts (src/sliceDataStorage.cpp:767-807). -/
def excludeParts (e : Exclusion) : List Nat → Parts → Outcome Parts
  | [], s => .ok s
  | k :: ks, s => (excludePart e s k).bind (excludeParts e ks)

/-- The removal of one part (src/sliceDataStorage.cpp:814-821). -/
def removePart (ps : List InfillPart) (k : Nat) : List InfillPart :=
  match ps.getLast? with
  | none => ps
  | some last => if k < ps.length - 1 then (ps.set k last).dropLast else ps.dropLast

/-- `excludeAreasFromSupportInfillAreas` (src/sliceDataStorage.cpp:762-823). -/
def exclude (e : Exclusion) (capacity : Nat) (ps : List InfillPart) : Outcome (List InfillPart) :=
  (excludeParts e (List.range ps.length) ⟨ps, capacity, []⟩).bind fun s => .ok (s.remove.foldl removePart s.parts)

end Verif.Support
