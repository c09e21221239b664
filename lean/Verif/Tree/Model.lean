import Verif.Support.Model
import Mathlib.Algebra.Order.Floor.Ring
import Mathlib.Data.Rat.Floor

/-! # The areas that the branches of tree support must avoid

Models src/TreeModelVolumes.cpp: the collision areas, the avoidance areas that are calculated from them layer by layer, and the caches they are kept
in. As in Verif/Support, an area is the set of the points it covers, and the offsets and the simplification of areas are parameters.

Not modelled: `calculateAccumulatedPlaceable0` (its result is a parameter), the threads, the progress, and `precalculate`, which requests the same
areas as are requested here one at a time. Doubles are rational numbers. -/

namespace Verif.Tree

open Verif.Volumes (Point Region)

/-- The operations on areas. -/
structure Ops where
  /-- `Shape::offset` with mitered joins, the default (src/geometry/Shape.cpp:212-229). -/
  offset : Int → Region → Region
  /-- `Shape::offset` with rounded joins. -/
  round : Int → Region → Region
  /-- `simplifier_.polygon`. -/
  simplify : Region → Region

/-- The models with the same support settings, an entry of `layer_outlines_` (src/TreeModelVolumes.cpp:630-637): their outlines on each layer, the
distance to keep from them sideways (`current_min_xy_dist_` for the models that are supported now), and the numbers of layers to keep free above
(`bottom`) and below (`top`) them. -/
structure Group where
  xy : Int
  top : Nat
  bottom : Nat
  layers : Nat
  outline : Nat → Region

/-- What a `TreeModelVolumes` is constructed from (src/TreeModelVolumes.cpp:22-170). `move` and `slow` are the arguments of the constructor,
`minStep` is `min_offset_per_step_`, `minXy` and `delta` are `current_min_xy_dist_` and `current_min_xy_dist_delta_`, `full` is
`increase_until_radius_`, `free` is `max_layer_idx_without_blocker_`, `border` is `machine_border_`, `anti` is `anti_overhang_`, `placed` is what
`getAccumulatedPlaceable0` returns. -/
structure Config where
  ops : Ops
  move : Int
  slow : Int
  minStep : Int
  minXy : Int
  delta : Int
  full : Int
  radius0 : Int
  ignorable : List Int
  free : Nat
  border : Region
  antiLayers : Nat
  anti : Nat → Region
  groups : List Group
  placed : Nat → Region

/-! ## Radii -/

/-- The last loop of `ceilRadius` (src/TreeModelVolumes.cpp:1277-1280). The first argument bounds the number of rounds. -/
def ceilLoop (ignorable : List Int) (radius : Int) : Nat → Int → Int
  | 0, e => e
  | n + 1, e => if e < radius ∨ e ∈ ignorable then ceilLoop ignorable radius n (max (e * 3 / 2) (e + 500)) else e

/-- A number of rounds that suffices: `e` grows by 500 at least, up to `radius` and beyond all of `ignorable`. -/
def rounds (ignorable : List Int) (radius : Int) : Nat := (ignorable.foldl max radius).toNat

/-- `ceilRadius(radius)` (src/TreeModelVolumes.cpp:1254-1282). The step is the quotient of a `coord_t` and a `size_t`, so its dividend is converted
to an unsigned number of 64 bits; `none` if the sum with the step overflows. -/
def ceilRadius (c : Config) (radius : Int) : Option Int :=
  if radius = 0 then some 0
  else if radius ≤ c.radius0 then some c.radius0
  else
    let step := (1500 - c.radius0) % 2 ^ 64 / 2
    let result := c.radius0 + step
    if 2 ^ 63 ≤ result then none
    else if radius ≤ result ∧ result ∉ c.ignorable then some result
    else some (ceilLoop c.ignorable radius (rounds c.ignorable radius) 1500)

/-! ## Collision -/

/-- `required_range_x` (src/TreeModelVolumes.cpp:694). -/
def required (xy : Int) (top k : Nat) : Int := Int.floor ((xy : ℚ) - ((k : ℚ) - if top = 1 then 1 / 2 else 0) * xy / top)

/-- The first loop over the layers in `calculateCollision` (src/TreeModelVolumes.cpp:650-663), for one layer. That outlines which overlap the border
of the build volume are not united with it if the offset is 0 is not modelled. -/
def base (c : Config) (g : Group) (r : Int) (l : Nat) : Region :=
  c.ops.offset (r + g.xy) (c.border ∪ if l < g.layers then g.outline l else ∅)

/-- The areas of the layers below that are added (src/TreeModelVolumes.cpp:666-672); `bottom` is `min_layer_bottom`. The loop goes from the top
down, so that only the result of the first loop is added. -/
def below (c : Config) (g : Group) (r : Int) (bottom : Int) (l : Nat) : Region :=
  {p | ∃ k : Nat, 1 ≤ k ∧ k ≤ g.bottom ∧ bottom < (l : Int) - k ∧ p ∈ base c g r (l - k)}

/-- The areas of the layers above that are added (src/TreeModelVolumes.cpp:684-720); `last` is `max_required_layer`. -/
def above (c : Config) (g : Group) (r : Int) (last l : Nat) : Region :=
  {p | ∃ k : Nat, 1 ≤ k ∧ k ≤ g.top ∧ l + k < min g.layers (last + 1) ∧ p ∈ c.ops.offset (r + required g.xy g.top k) (g.outline (l + k))}

/-- The support blockers on a layer (src/TreeModelVolumes.cpp:721). -/
def blocked (c : Config) (r : Int) (l : Nat) : Region := if l < c.antiLayers then c.ops.offset r (c.anti l) else ∅

/-- The area that `calculateCollision` (src/TreeModelVolumes.cpp:615-770) calculates for a radius and a layer `l ≤ key`, if `key` is the layer that
is requested and `known` the last layer of the cache (`getMaxCalculatedLayer`). -/
def collisionRun (c : Config) (r : Int) (known : Int) (key l : Nat) : Region :=
  {p | ∃ g ∈ c.groups, p ∈ c.ops.simplify
    (base c g r l ∪ below c g r (max 0 (known - g.bottom)) l ∪ above c g r (key + max 1 g.top) l ∪ blocked c r l)}

/-- The collision area, if it is the first one that is requested. -/
def collision (c : Config) (r : Int) (l : Nat) : Region := collisionRun c r (-1) l l

/-- `getCollision` (src/TreeModelVolumes.cpp:331-362). -/
def getCollision (c : Config) (r : Int) (l : Nat) (minXy : Bool) : Option Region :=
  let q := r + if minXy then 0 else c.delta
  if r = 0 then some (collision c q l) else (ceilRadius c q).map fun q => collision c q l

/-- `getCollisionHolefree` and `calculateCollisionHolefree` (src/TreeModelVolumes.cpp:364-392, 772-802), if the radius contains
`current_min_xy_dist_delta_` already. -/
def holefree (c : Config) (r : Int) (l : Nat) : Option Region :=
  if c.full + c.delta ≤ r then getCollision c r l true
  else do
    let big ← ceilRadius c (c.full + c.delta)
    let small ← ceilRadius c r
    let col ← getCollision c c.full l false
    some (c.ops.simplify (c.ops.round (5 - (big - small)) col))

/-! ## Where a branch can rest on the model -/

/-- `getPlaceableAreas(0, layer)` for a layer above the first one (src/TreeModelVolumes.cpp:673-683, 735-742), if it is the first one that is
requested. -/
def placeable0 (c : Config) : Nat → Region
  | 0 => ∅
  | l + 1 => {p | ∃ g ∈ c.groups, p ∈ c.ops.simplify
      ((base c g 0 l ∪ below c g 0 0 l) \
        (base c g 0 (l + 1) ∪ below c g 0 0 (l + 1) ∪ if l + 1 < c.antiLayers then c.anti l else ∅))}

/-- `getPlaceableAreas` and `calculatePlaceables` for a layer above the first one (src/TreeModelVolumes.cpp:493-521, 1016-1071). -/
def placeable (c : Config) (r : Int) (l : Nat) : Option Region := do
  let q ← ceilRadius c r
  if q = 0 then some (placeable0 c l) else some (c.ops.offset (-(q + (c.minXy + c.delta))) (c.ops.simplify (placeable0 c l)))

/-! ## Avoidance -/

/-- `sign` (include/utils/math.h:158-161). -/
def sign (d : Int) : Int := (if 0 < d then 1 else 0) - if d < 0 then 1 else 0

/-- A number of steps of `safeOffset`: an offset and a union with the collision area. -/
def steps (ops : Ops) (d : Int) (col : Region) : Nat → Region → Region
  | 0, a => a
  | n + 1, a => steps ops d col n (ops.round d a ∪ col)

/-- `safeOffset` (src/TreeModelVolumes.cpp:911-926). The sign is kept in a `uint8_t`; `none` if the distance is divided by 0. -/
def safeOffset (c : Config) (a : Region) (distance maxStep : Int) (col : Region) : Option Region :=
  let sgn := sign distance % 256
  let step := sgn * max c.minStep |maxStep|
  if step = 0 then none
  else some (c.ops.round (distance.tmod step) (steps c.ops step col (distance.tdiv step).natAbs a) ∪ col)

/-- `AvoidanceType` (include/TreeSupportEnums.h). -/
inductive Kind
  | slow
  | fastSafe
  | fast
  | collision
deriving DecidableEq, Repr

/-- `max_step_move` (src/TreeModelVolumes.cpp:868, 958, 1103). -/
def maxStep (c : Config) (r : Int) : Int := ⌊max (19 / 10 * (r : ℚ)) (c.minXy * (19 / 10))⌋

/-- `offset_speed` (src/TreeModelVolumes.cpp:57-60, 957, 1102), `max_move_` (887). -/
def speed (c : Config) (kind : Kind) : Int := if kind = .slow then max (c.slow - 2) 0 else max (c.move - 2) 0

/-- `col` (src/TreeModelVolumes.cpp:886, 979-987, 1129-1139). -/
def colFor (c : Config) (kind : Kind) (r : Int) (l : Nat) : Option Region :=
  if kind = .slow ∧ r < c.full + c.delta ∨ kind = .fastSafe then holefree c r l else getCollision c r l true

/-- What is removed from the area because a branch can rest there (src/TreeModelVolumes.cpp:888-889, 1141). -/
def removeRest (c : Config) (kind : Kind) (toModel : Bool) (r : Int) (l : Nat) (col s : Region) : Option Region :=
  match kind, toModel with
  | .collision, _ => some ((s \ c.ops.round (-max r c.full) (c.placed l)) ∪ col)
  | _, true => (placeable c r l).map fun q => s \ q
  | _, false => some s

/-- What the loops over the layers do for one layer (src/TreeModelVolumes.cpp:884-897, 976-997, 1126-1147). -/
def avoidStep (c : Config) (kind : Kind) (toModel : Bool) (r : Int) (l : Nat) (a : Region) : Option Region := do
  let col ← colFor c kind r l
  let s ← safeOffset c a (-speed c kind) (-maxStep c r) col
  let t ← removeRest c kind toModel r l col s
  some (c.ops.simplify t ∪ t)

/-- The kind of area that is looked up (src/TreeModelVolumes.cpp:422-425). -/
def kindFor (c : Config) (kind : Kind) (r : Int) : Kind := if c.full + c.delta ≤ r ∧ kind = .fastSafe then .fast else kind

/-- The areas that are kept, by the kind, whether it is to the model, the radius and the layer. The last area of a list is the oldest; the layer is
-1 for the unused entries of `data`. There is one list for all the maps. -/
abbrev Cache := List ((Kind × Bool × Int × Int) × Region)

/-- `getArea` (src/TreeModelVolumes.cpp:1284-1296). -/
def Cache.get (m : Cache) (k : Kind × Bool × Int × Int) : Option Region := (m.find? fun e => e.1 = k).map (·.2)

/-- `insert` of a map, which keeps what there is. -/
def Cache.insert (m : Cache) (k : Kind × Bool × Int × Int) (a : Region) : Cache := if (m.get k).isSome then m else (k, a) :: m

/-- The loop of `getMaxCalculatedLayer`; the first argument bounds the number of rounds. -/
def maxLoop (m : Cache) (kind : Kind) (toModel : Bool) (r : Int) : Nat → Int → Int
  | 0, l => l
  | n + 1, l => if (m.get (kind, toModel, r, l + 1)).isSome then maxLoop m kind toModel r n (l + 1) else l

/-- `getMaxCalculatedLayer` (src/TreeModelVolumes.cpp:596-613). The loop ends after the last layer of the map. -/
def maxCalculated (m : Cache) (kind : Kind) (toModel : Bool) (r : Int) : Int :=
  maxLoop m kind toModel r (m.foldl (fun (t : Int) (e : (Kind × Bool × Int × Int) × Region) => max t e.1.2.2.2) 0).toNat.succ
    (if (m.get (kind, toModel, r, 1)).isSome then 1 else -1)

/-- The map in which an avoidance area is kept (src/TreeModelVolumes.cpp:431-461): there is one only for `COLLISION`. -/
def mapFor (kind : Kind) (toModel : Bool) : Bool := if kind = .collision then true else toModel

/-- The loops over the layers (src/TreeModelVolumes.cpp:884-898, 976-998, 1126-1148): from the area of the layer before, `n` layers from `l` on, with
their results. -/
def layersFrom (c : Config) (kind : Kind) (toModel : Bool) (r : Int) : Nat → Nat → Region → Option (List (Nat × Region))
  | 0, _, _ => some []
  | n + 1, l, a => do
    let b ← avoidStep c kind toModel r l a
    let rest ← layersFrom c kind toModel r n (l + 1) b
    some ((l, b) :: rest)

/-- `getAvoidance` for a layer that is known, with the radius as it is kept; `none` if it is not known. -/
def known (c : Config) (m : Cache) (kind : Kind) (toModel : Bool) (r : Int) (l : Nat) : Option Region :=
  if l = 0 then getCollision c r l true
  else if kind = .collision ∧ l ≤ c.free then getCollision c r l true
  else m.get (kind, mapFor kind toModel, r, l)

/-- `calculateCollisionAvoidance`, `calculateAvoidance` and `calculateAvoidanceToModel` (src/TreeModelVolumes.cpp:858-906, 928-1014, 1074-1166), for
one radius up to the layer `last`. -/
def calculate (c : Config) (m : Cache) (kind : Kind) (toModel : Bool) (r : Int) (last : Nat) : Option Cache :=
  let top := maxCalculated m kind (mapFor kind toModel) r
  let start := if kind = .collision then 1 + max top c.free else max (1 + top) 1
  if (last : Int) < start then some m
  else do
    let q ← ceilRadius c r
    let a ← known c m kind toModel q (start - 1).toNat
    let data ← layersFrom c kind toModel r (last + 1 - start.toNat) start.toNat a
    some (data.foldl (fun m e => m.insert (kind, mapFor kind toModel, r, e.1) e.2) (m.insert (kind, mapFor kind toModel, r, -1) ∅))

/-- `getAvoidance` (src/TreeModelVolumes.cpp:408-491): the area and the caches afterwards. `none` if the calculation does not provide what was looked
up, in which case the code would never return. -/
def getAvoidance (c : Config) (m : Cache) (r : Int) (l : Nat) (kind : Kind) (toModel minXy : Bool) : Option (Region × Cache) :=
  if l = 0 then (getCollision c r l minXy).map fun a => (a, m)
  else do
    let q ← ceilRadius c (r + if minXy then 0 else c.delta)
    let kind := kindFor c kind q
    match known c m kind toModel q l with
    | some a => some (a, m)
    | none => do
      let m ← calculate c m kind toModel q l
      let a ← known c m kind toModel q l
      some (a, m)

end Verif.Tree
