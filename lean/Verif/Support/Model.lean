import Verif.Basic
import Verif.Volumes.Spec
import Mathlib.Data.Rat.Defs
import Mathlib.Logic.Function.Basic

/-! # Areas of support

Models src/support.cpp: the detection of overhang, the support areas of a mesh, the support interface and the division
into parts. As in Verif/Volumes, an area is the set of the points it covers. Offsets and the removal of small areas are
parameters (`Ops`); what is assumed of them is in the specification. Simplification of the outlines is not modelled.

`SliceDataStorage::getLayerOutlines` (src/sliceDataStorage.cpp:368-384) appends the outlines of all models without
uniting them. Clipper then takes a point that is in two of them as outside when it subtracts or intersects them (even-odd,
src/geometry/Shape.cpp:127-143, 198-210), and as inside when it offsets or unites them (src/geometry/Shape.cpp:163-176,
223-225). So these outlines are a list of areas here, `solid` is their union and `odd` what the even-odd rule makes of
them. That an offset by 0 does not unite them is not modelled. -/

namespace Verif.Support

open Verif.Volumes (Point Region times)

/-- The operations on areas. -/
structure Ops where
  /-- `Shape::offset` with mitered joins, the default. -/
  offset : Int → Region → Region
  /-- `Shape::offset` with rounded joins. -/
  round : Int → Region → Region
  /-- `Shape::removeSmallAreas`. -/
  small : Rat → Region → Region

/-- The union of some areas. -/
def solid (rs : List Region) : Region := {p | ∃ r ∈ rs, p ∈ r}

/-- The points in an odd number of areas. -/
def odd (rs : List Region) : Region := {p | times p rs % 2 = 1}

/-! ## Overhang -/

/-- The settings of `computeBasicAndFullOverhang` (src/support.cpp:1641-1654): `below` is the number of layers that make
up 0.4 mm, `reach` is how far a layer may stick out without support (`max_dist_from_lower_layer`). -/
structure OverhangConfig where
  enable : Bool
  below : Nat
  reach : Int

/-- `outlines_below` (src/support.cpp:1659-1664), for a layer above the first. -/
def outlinesBelow (ops : Ops) (c : OverhangConfig) (models : Nat → List Region) (l : Nat) : Region :=
  (List.range' 2 (c.below - 1)).foldl
    (fun r k => if k ≤ l then r ∪ ops.offset (c.reach * k) (solid (models (l - k))) else r)
    (ops.offset c.reach (solid (models (l - 1))))

/-- `basic_overhang` (src/support.cpp:1666-1681). `anti` and `force` are the areas of the support blockers and of the
meshes that force support, on the layer. -/
def basicOverhang (ops : Ops) (c : OverhangConfig) (models : Nat → List Region) (own anti force : Nat → Region) (l : Nat) :
    Region :=
  ((if c.enable then own l \ outlinesBelow ops c models l else ∅) \ anti l) ∪ force l

/-- `full_overhang` (src/support.cpp:1683-1686). -/
def fullOverhang (ops : Ops) (c : OverhangConfig) (models : Nat → List Region) (own anti force : Nat → Region) (l : Nat) :
    Region :=
  ops.offset (c.reach * c.below + 100) (basicOverhang ops c models own anti force l) ∩ own l

/-- `full_overhang_areas` of a mesh (`generateOverhangAreasForMesh`, src/support.cpp:947-998): no overhang on the first
layer. -/
def overhangs (ops : Ops) (c : OverhangConfig) (models : Nat → List Region) (own anti force : Nat → Region) : Nat → Region
  | 0 => ∅
  | l + 1 => fullOverhang ops c models own anti force (l + 1)

/-! ## The support areas of a mesh -/

/-- The settings of `generateSupportAreasForMesh`. `top`, `bottom` and `stair` are distances in micrometres. `conical` is
the offset of a layer of conical support (`conical_support_offset`), if that is on. `border` is the build plate without
the adhesion, `mesh` is `support_mesh` (all support meshes are handled together), `drop` is `support_mesh_drop_down`,
`slopeWidth` is `sloped_area_detection_width`. -/
structure Config where
  height : Nat
  top : Nat
  bottom : Nat
  stair : Nat
  stairWidth : Int
  xy : Int
  xyOverhang : Int
  zFirst : Bool
  mesh : Bool
  drop : Bool
  expansion : Int
  lineWidth : Int
  conical : Option Int
  conicalWidth : Int
  border : Region
  join : Int
  minWall : Int
  minArea : Rat
  plate : Bool
  slopeWidth : Int

/-- `layer_z_distance_top` (src/support.cpp:1194). -/
def Config.topLayers (c : Config) : Nat := c.top / c.height + 1

/-- `bottom_empty_layer_count` (src/support.cpp:1302). -/
def Config.bottomLayers (c : Config) : Nat := (c.bottom + c.height - 1) / c.height

/-- `bottom_stair_step_layer_count` (src/support.cpp:1303-1305). -/
def Config.stairLayers (c : Config) : Nat := c.stair / c.height + 1

/-- `half_min_feature_width` (src/support.cpp:761, 1239). -/
def Config.feature (c : Config) : Int := c.minWall + 10

/-- `is_support_mesh_nondrop_place_holder` (src/support.cpp:1292). -/
def Config.nonDrop (c : Config) : Bool := c.mesh && !c.drop

/-- What `generateSupportAreasForMesh` reads, by layer: the outlines of all models, the outline of the mesh, its overhang,
the support meshes and the ones that are dropped down. `varying` is `generateVaryingXYDisallowedArea`, and `towers` is
what `handleWallStruts` and `handleTowers` add; both are any areas here. -/
structure Input where
  models : Nat → List Region
  own : Nat → Region
  overhang : Nat → Region
  meshes : Nat → Region
  drops : Nat → Region
  varying : Nat → Region
  towers : Nat → Region

/-- `xy_disallowed_per_layer` (src/support.cpp:1236, 1272-1286). -/
def disallowed (ops : Ops) (c : Config) (i : Input) (l : Nat) : Region :=
  if l = 0 then ops.offset c.xy (solid (i.models 0))
  else if c.mesh || !c.zFirst then ops.offset c.xy (solid (i.models l))
  else ops.offset c.xyOverhang (i.own l) ∪ i.varying l

/-- One step of the horizontal expansion (src/support.cpp:1349-1352): the expanded support and what is left of the
grown models. -/
def expandStep (ops : Ops) (step : Int) (s : Region × Region) : Region × Region :=
  let grown := ops.offset step s.1
  let model := ops.offset step (s.2 \ grown)
  (grown \ model, model)

/-- `n` steps. -/
def expandSteps (ops : Ops) (step : Int) : Nat → Region × Region → Region × Region
  | 0, s => s
  | n + 1, s => expandSteps ops step n (expandStep ops step s)

/-- How often the loop of the horizontal expansion (src/support.cpp:1347) is run, for a positive step. -/
def expandCount (expansion step : Int) : Nat := if expansion < 0 then 0 else (expansion / step + 1).toNat

/-- The horizontal expansion (src/support.cpp:1335-1355). With lines of less than 2 micrometres it does not end; that is
not modelled. -/
def expand (ops : Ops) (c : Config) (models : List Region) (r : Region) : Region :=
  if c.expansion ≠ 0 ∧ c.mesh = false then
    r ∪ (expandSteps ops (c.lineWidth / 2) (expandCount c.expansion (c.lineWidth / 2)) (r, odd models)).1
  else r

/-- `AreaSupport::join` (src/support.cpp:645-773). -/
def join (ops : Ops) (c : Config) (up this : Region) : Region :=
  let joined := match c.conical with
    | some o =>
      let inset := ops.offset ((-c.conicalWidth).tdiv 2) up
      let thin := up \ ops.offset (c.conicalWidth.tdiv 2 + 20) inset
      (this ∪ ops.offset o up ∪ thin) ∩ c.border
    | none => this ∪ up
  if c.join > 0 then
    ops.round (-c.join) (ops.round (c.join + c.feature) (ops.offset (-c.feature) joined)) ∪ joined
  else joined

/-- The outlines of the layer below, nothing below the first layer. -/
def under (models : Nat → List Region) : Nat → List Region
  | 0 => []
  | l + 1 => models l

/-- `Shape::createTubeShape` (src/geometry/Shape.cpp:903-906). -/
def tube (ops : Ops) (inner outer : Int) (r : Region) : Region := ops.offset outer r \ ops.offset (-inner) r

/-- The sloped areas between a layer and the one below (src/support.cpp:1251-1261). -/
def slope (ops : Ops) (c : Config) (i : Input) (l : Nat) : Region :=
  ops.offset (10 + c.slopeWidth) (ops.offset (-10)
    (tube ops c.slopeWidth 10 (solid (i.models (l - 1))) ∩ tube ops 10 c.slopeWidth (solid (i.models l))))

/-- `sloped_areas_per_layer` (src/support.cpp:1223, 1307-1329). Within a step every layer also has the sloped areas of
those below it; the chunks of the parallel loop are whole steps, so their order does not matter. -/
def sloped (ops : Ops) (c : Config) (i : Input) : Nat → Region
  | 0 => ∅
  | l + 1 =>
    if c.stairLayers > 1 ∧ (l + 1) % c.stairLayers ≠ 1 then slope ops c i (l + 1) ∪ sloped ops c i l
    else slope ops c i (l + 1)

/-- `moveUpFromModel` (src/support.cpp:1532-1627): the support that is left, and the new `stair_removal`. -/
def moveUp (ops : Ops) (c : Config) (i : Input) (stair r : Region) (l : Nat) : Region × Region :=
  if l < c.bottomLayers ∨ c.bottomLayers = 0 ∧ c.stairLayers ≤ 1 then (r, stair)
  else
    let b := l - c.bottomLayers
    if c.stairLayers ≤ 1 then (r \ odd (i.models b), stair)
    else
      let stair' :=
        if l % c.stairLayers = 0 then
          let allowed := ops.offset c.stairWidth (solid (under i.models b)) ∩ sloped ops c i l
          if c.stairLayers ≤ b + 1 then odd (i.models (b + 1 - c.stairLayers)) ∩ allowed else allowed
        else stair
      (r \ (stair ∪ solid (i.models b)), stair')

/-- The support areas so far, and `stair_removal`. -/
structure State where
  areas : Nat → Region
  stair : Region

/-- The support on a layer from that of the layer above it (src/support.cpp:1331-1404), before it is moved up from the
models. The areas of towers are not used for support meshes; `layer_idx + 1 < layer_count` (src/support.cpp:1365) always
holds. -/
def gather (ops : Ops) (c : Config) (i : Input) (above : Region) (l : Nat) : Region :=
  let this := expand ops c (i.models l) (i.overhang (l + c.topLayers))
  let this := if c.mesh then this else this ∪ i.towers l
  let joined :=
    if c.nonDrop then join ops c ∅ (this ∪ i.meshes l)
    else join ops c above this \ (if l = 0 then ∅ else odd (i.models l))
  if c.mesh && c.drop then joined ∪ i.drops l else joined

/-- The body of the loop from the top to the bottom (src/support.cpp:1331-1419). -/
def layer (ops : Ops) (c : Config) (i : Input) (s : State) (l : Nat) : State :=
  let moved := moveUp ops c i s.stair (gather ops c i (s.areas (l + 1)) l) l
  ⟨Function.update s.areas l moved.1, moved.2⟩

/-- The loop (src/support.cpp:1331-1419). -/
def raw (ops : Ops) (c : Config) (i : Input) (n : Nat) : Nat → Region :=
  ((List.range (n - c.topLayers)).reverse.foldl (layer ops c i) ⟨fun _ => ∅, ∅⟩).areas

/-- The X/Y distance, and the removal of what cannot be printed (src/support.cpp:1426-1439). -/
def spaced (ops : Ops) (c : Config) (i : Input) (r : Nat → Region) (l : Nat) : Region :=
  ops.small c.minArea (ops.offset c.feature (ops.offset (-c.feature) (r l \ disallowed ops c i l)))

/-- `touching_buildplate` (src/support.cpp:1444-1481). The offset with the larger miter limit is taken as the ordinary
one. -/
def touching (ops : Ops) (c : Config) (r : Nat → Region) : Nat → Region
  | 0 => r 0
  | l + 1 => r (l + 1) ∩ match c.conical with
    | some o => ops.offset (o.natAbs + 10) (touching ops c r l)
    | none => touching ops c r l

/-- Support on the build plate only (src/support.cpp:1442-1483). -/
def plateOnly (ops : Ops) (c : Config) (r : Nat → Region) : Nat → Region := if c.plate then touching ops c r else r

/-- The distance below models (src/support.cpp:1486-1504). There are as many support layers as layers of the print
(src/FffPolygonGenerator.cpp:270). -/
def belowModels (c : Config) (i : Input) (n : Nat) (r : Nat → Region) (l : Nat) : Region :=
  if c.topLayers > 1 ∧ l < n - (c.topLayers - 1) then r l \ odd (i.models (l + c.topLayers - 1)) else r l

/-- The body of the loop that removes floating support (src/support.cpp:1507-1518). -/
def sink (r : Nat → Region) (l : Nat) : Nat → Region := Function.update r l (r l ∩ (r (l + 1) ∪ r (l - 1)))

/-- The loop that removes floating support (src/support.cpp:1507-1518). -/
def settle (n : Nat) (r : Nat → Region) : Nat → Region := (List.range' 1 (n - 2)).foldl sink r

/-- `generateSupportAreasForMesh` (src/support.cpp:1165-1530), for a mesh that has support, and `n` layers. -/
def meshAreas (ops : Ops) (c : Config) (i : Input) (n : Nat) : Nat → Region :=
  if c.topLayers + 1 > n then fun _ => ∅
  else settle n (belowModels c i n (plateOnly ops c (spaced ops c i (raw ops c i n))))

/-- The support areas of all meshes (src/support.cpp:820-868). -/
def areas (ops : Ops) (ms : List (Config × Input)) (n l : Nat) : Region := {p | ∃ m ∈ ms, p ∈ meshAreas ops m.1 m.2 n l}

/-! ## The support interface -/

/-- What `generateSupportRoof` and `generateSupportBottom` read of a mesh: its outlines, whether it has roofs and bottoms,
how many layers they have, and the number of layers between them and the models. -/
structure Interface where
  own : Nat → Region
  roof : Bool
  roofLayers : Nat
  roofGap : Nat
  roofWidth : Int
  roofOffset : Int
  roofArea : Rat
  bottom : Bool
  bottomLayers : Nat
  bottomGap : Nat
  bottomWidth : Int
  bottomOffset : Int
  bottomArea : Rat

/-- The support of all layers: what is left of the areas, the roofs and the bottoms. -/
structure Split where
  areas : Nat → Region
  roofs : Nat → List Region
  bottoms : Nat → List Region

/-- `generateSupportInterfaceLayer` (src/support.cpp:1967-1991): the interface in an area of support. -/
def interface (ops : Ops) (width offset : Int) (area : Rat) (model support : Region) : Region :=
  let r := ops.offset width (ops.offset (width.tdiv 2) support ∩ model) ∩ support
  let r := if offset = 0 then r else if offset > 0 then ops.offset offset r ∩ support else ops.offset offset r
  if area > 0 then ops.small area r else r

/-- The outlines of a mesh on the layers from `a` to `b` (src/support.cpp:1900-1905, 1932-1939). -/
def outlines (own : Nat → Region) (a b : Nat) : Region := {p | ∃ k, a ≤ k ∧ k ≤ b ∧ p ∈ own k}

/-- The roof on a layer of a print of `n` layers (src/support.cpp:1930-1941). -/
def roofOn (ops : Ops) (m : Interface) (n : Nat) (areas : Nat → Region) (l : Nat) : Region :=
  interface ops m.roofWidth m.roofOffset m.roofArea
    (outlines m.own (l + m.roofGap) (min (n - 1) (l + m.roofLayers + m.roofGap))) (areas l)

/-- The support that is removed between roofs and the model (src/support.cpp:1951-1964). -/
def capped (m : Interface) (n : Nat) (roofs : Nat → List Region) (l : Nat) : Region :=
  {p | ∃ k, 1 ≤ k ∧ k < n - m.roofGap ∧ k ≤ l ∧ l < min (k + m.roofLayers + m.roofGap + 5) (n - 1) ∧ p ∈ solid (roofs k)}

/-- `generateSupportRoof` (src/support.cpp:1913-1965). Every layer has a roof in its own area only. `support_fractional_roof`
is not modelled; it is part of the roof. -/
def addRoof (ops : Ops) (m : Interface) (n : Nat) (s : Split) : Split :=
  if m.roofLayers = 0 then s
  else
    let roofs l := if l < n - m.roofGap then s.roofs l ++ [roofOn ops m n s.areas l] else s.roofs l
    let areas l := if l < n - m.roofGap then s.areas l \ roofOn ops m n s.areas l else s.areas l
    ⟨fun l => areas l \ capped m n roofs l, roofs, s.bottoms⟩

/-- The bottom on a layer (src/support.cpp:1900-1907). -/
def bottomOn (ops : Ops) (m : Interface) (areas : Nat → Region) (l : Nat) : Region :=
  interface ops m.bottomWidth m.bottomOffset m.bottomArea
    (outlines m.own (l - m.bottomLayers - m.bottomGap) (l - m.bottomGap)) (areas l)

/-- `generateSupportBottom` (src/support.cpp:1882-1911). -/
def addBottom (ops : Ops) (m : Interface) (n : Nat) (s : Split) : Split :=
  if m.bottomLayers = 0 then s
  else ⟨fun l => if m.bottomGap ≤ l ∧ l < n then s.areas l \ bottomOn ops m s.areas l else s.areas l, s.roofs,
    fun l => if m.bottomGap ≤ l ∧ l < n then s.bottoms l ++ [bottomOn ops m s.areas l] else s.bottoms l⟩

/-- The interface of one mesh (src/support.cpp:871-887). -/
def addInterface (ops : Ops) (n : Nat) (s : Split) (m : Interface) : Split :=
  let s := if m.roof then addRoof ops m n s else s
  if m.bottom then addBottom ops m n s else s

/-- The interface of all meshes (src/support.cpp:871-887). -/
def split (ops : Ops) (n : Nat) (areas : Nat → Region) (ms : List Interface) : Split :=
  ms.foldl (addInterface ops n) ⟨areas, fun _ => [], fun _ => []⟩

/-- `splitGlobalSupportAreasIntoSupportInfillParts` and `SupportLayer::fillInfillParts` (src/support.cpp:107-153,
src/sliceDataStorage.cpp:825-865): the areas of a layer are divided into what is just below overhang and the rest, and
both into islands. The last layer has no parts. -/
def parts (islands : Region → List Region) (n : Nat) (areas overhang : Nat → Region) (l : Nat) : List Region :=
  if l + 1 < n then islands (areas l ∩ overhang l) ++ islands (areas l \ overhang l) else []

end Verif.Support
