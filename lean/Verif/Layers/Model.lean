import Verif.Basic
import Mathlib.Data.Int.Order.Basic

/-
Model of the layer-numbered container (include/utils/LayerVector.h), of the classification of raft
layers (src/raft.cpp) and of the rounding divisions (include/utils/math.h).

Integers are unbounded except where a conversion between signed and unsigned matters
(`static_cast<size_t>`).
-/

namespace Verif.Layers

/-! ### Divisions, include/utils/math.h -/

/-- `round_divide_signed` (include/utils/math.h:37-44); division by zero is undefined (the documented
`std::invalid_argument` is never thrown). -/
def roundDivideSigned (n d : Int) : Outcome Int :=
  if d = 0 then .ub
  else if decide (n < 0) ^^ decide (d < 0) then .ok ((n - d.tdiv 2).tdiv d)
  else .ok ((n + d.tdiv 2).tdiv d)

/-- `ceil_divide_signed` (include/utils/math.h:54-66). -/
def ceilDivideSigned (n d : Int) : Outcome Int :=
  if d = 0 then .ub
  else
    let quotient := n.tdiv d
    let remainder := n.tmod d
    if remainder ≠ 0 ∧ ((n > 0 ∧ d > 0) ∨ (n < 0 ∧ d < 0)) then .ok (quotient + 1) else .ok quotient

/-- `floor_divide_signed` (include/utils/math.h:76-85). -/
def floorDivideSigned (n d : Int) : Outcome Int :=
  if d = 0 then .ub
  else
    let quotient := n.tdiv d
    let remainder := n.tmod d
    if remainder ≠ 0 ∧ ((n > 0 ∧ d < 0) ∨ (n < 0 ∧ d > 0)) then .ok (quotient - 1) else .ok quotient

/-- `round_divide` (include/utils/math.h:94-97), unsigned. -/
def roundDivide (n d : Nat) : Outcome Nat := if d = 0 then .ub else .ok ((n + d / 2) / d)

/-- `round_up_divide` (include/utils/math.h:106-109), unsigned. -/
def roundUpDivide (n d : Nat) : Outcome Nat := if d = 0 then .ub else .ok ((n + d - 1) / d)

/-! ### Raft, src/raft.cpp -/

/-- The settings that decide the raft layers: `adhesion_type == RAFT`, `raft_airgap`, `layer_height`,
`raft_interface_layers`, `raft_surface_layers`. -/
structure RaftSettings where
  raft : Bool
  airgap : Int
  layerHeight : Nat
  interfaceLayers : Nat
  surfaceLayers : Nat

/-- `Raft::getZdiffBetweenRaftAndLayer0` (src/raft.cpp:141-151). -/
def zdiff (r : RaftSettings) : Int := if r.raft then max 0 r.airgap else 0

/-- `Raft::getFillerLayerCount` (src/raft.cpp:153-157). -/
def fillerLayerCount (r : RaftSettings) : Outcome Nat := roundDivide (zdiff r).toNat r.layerHeight

/-- `Raft::getFillerLayerHeight` (src/raft.cpp:159-169). -/
def fillerLayerHeight (r : RaftSettings) : Outcome Nat :=
  if r.raft = false then .ok r.layerHeight
  else (fillerLayerCount r).bind fun c => roundDivide (zdiff r).toNat c

/-- `Raft::getBaseLayers` (src/raft.cpp:176-184). -/
def baseLayers (r : RaftSettings) : Nat := if r.raft then 1 else 0

/-- `Raft::getInterfaceLayers` with `getLayersAmount` (src/raft.cpp:186-189, 223-233). -/
def interfaceLayers (r : RaftSettings) : Nat := if r.raft then r.interfaceLayers else 0

/-- `Raft::getSurfaceLayers` with `getLayersAmount` (src/raft.cpp:191-194, 223-233). -/
def surfaceLayers (r : RaftSettings) : Nat := if r.raft then r.surfaceLayers else 0

/-- `Raft::getTotalExtraLayers` (src/raft.cpp:171-174). -/
def totalExtraLayers (r : RaftSettings) : Outcome Nat :=
  (fillerLayerCount r).bind fun f => .ok (baseLayers r + interfaceLayers r + surfaceLayers r + f)

/-- `Raft::LayerType` (include/raft.h:70-77). -/
inductive LayerType where
  | raftBase | raftInterface | raftSurface | airgap | model
deriving DecidableEq, Repr

/-- `Raft::getLayerType` (src/raft.cpp:196-221). -/
def layerType (r : RaftSettings) (l : Int) : Outcome LayerType :=
  (fillerLayerCount r).bind fun airgap =>
    if l < -((airgap + surfaceLayers r + interfaceLayers r : Nat) : Int) then .ok .raftBase
    else if l < -((airgap + surfaceLayers r : Nat) : Int) then .ok .raftInterface
    else if l < -(airgap : Int) then .ok .raftSurface
    else if l < 0 then .ok .airgap
    else .ok .model

/-! ### LayerVector -/

/-- `class LayerVector` (include/utils/LayerVector.h:228-229). -/
structure LayerVector (T : Type) where
  items : List T
  delta : Nat

variable {T : Type}

/-- `static_cast<size_t>` of a signed 64-bit value. -/
def toSize (i : Int) : Nat := (i % 2 ^ 64).toNat

/-- `LayerVector::init` (include/utils/LayerVector.h:46-55); `reserve` has no observable effect. -/
def LayerVector.init (contains_raft_layers : Bool) (r : RaftSettings) : Outcome (LayerVector T) :=
  if contains_raft_layers then (totalExtraLayers r).bind fun d => .ok ⟨[], d⟩ else .ok ⟨[], 0⟩

/-- `operator[]` (include/utils/LayerVector.h:97-105): undefined out of range. -/
def LayerVector.index (v : LayerVector T) (pos : Int) : Outcome T :=
  Outcome.index v.items (toSize (pos + v.delta))

/-- The effect of `v[pos] = x` through the reference returned by `operator[]`. -/
def LayerVector.assign (v : LayerVector T) (pos : Int) (x : T) : Outcome (LayerVector T) :=
  if toSize (pos + v.delta) < v.items.length then
    .ok { v with items := v.items.set (toSize (pos + v.delta)) x }
  else .ub

/-- What `at` does: return an element or throw `std::out_of_range`. -/
inductive Checked (T : Type) where
  | value (x : T)
  | outOfRange
deriving DecidableEq, Repr

/-- `at` (include/utils/LayerVector.h:107-115): `std::vector::at` throws out of range. -/
def LayerVector.at (v : LayerVector T) (pos : Int) : Checked T :=
  match v.items[toSize (pos + v.delta)]? with
  | some x => .value x
  | none => .outOfRange

/-- `iterator_at` (include/utils/LayerVector.h:127-145): an iterator is its distance from `begin()`;
`end()` is the size. -/
def LayerVector.iteratorAt (v : LayerVector T) (pos : Int) : Nat :=
  let i := pos + v.delta
  if i ≥ 0 ∧ toSize i < v.items.length then i.toNat else v.items.length

/-- `get` (include/utils/LayerVector.h:152-160); `default` is `value_type{}`. -/
def LayerVector.get [Inhabited T] (v : LayerVector T) (pos : Int) : Outcome T :=
  let i := pos + v.delta
  if i ≥ 0 ∧ toSize i < v.items.length then Outcome.index v.items (toSize i) else .ok default

/-- `getLayer` of an iterator (include/utils/LayerVector.h:162-170). -/
def LayerVector.getLayer (v : LayerVector T) (it : Nat) : Int := (it : Int) - v.delta

/-- `getLayer` of a reverse iterator (include/utils/LayerVector.h:172-180): a reverse iterator is its
distance from `rbegin()`, so `distance(it, rend())` is the size minus it. -/
def LayerVector.getLayerRev (v : LayerVector T) (it : Nat) : Int := ((v.items.length : Int) - it) - 1 - v.delta

/-- `push_back` (include/utils/LayerVector.h:187-195). -/
def LayerVector.pushBack (v : LayerVector T) (x : T) : LayerVector T := { v with items := v.items ++ [x] }

/-- `pop_back` (include/utils/LayerVector.h:182-185): undefined on an empty vector. -/
def LayerVector.popBack (v : LayerVector T) : Outcome (LayerVector T) :=
  if v.items = [] then .ub else .ok { v with items := v.items.dropLast }

/-- `resize` (include/utils/LayerVector.h:212-215): cut off or filled up with default values. -/
def LayerVector.resize [Inhabited T] (v : LayerVector T) (n : Nat) : LayerVector T :=
  { v with items := v.items.take n ++ List.replicate (n - v.items.length) default }

end Verif.Layers
