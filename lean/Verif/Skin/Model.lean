import Verif.Basic
import Verif.Volumes.Model
import Mathlib.Data.Rat.Floor

/-! # Skin and infill areas

Models src/skin.cpp. As in Verif/Volumes, an area is the set of the points it covers. The operations on areas that are
not those of sets (offsets, the removal of small areas) are parameters (`Ops`); what is assumed of them is in the
specification. Simplification of the outlines is not modelled. -/

namespace Verif.Skin

open Verif.Box (AABB)
open Verif.Volumes (Point Region)

/-- The operations on areas. -/
structure Ops where
  /-- `Shape::offset` with the default joins. -/
  offset : Int → Region → Region
  /-- `Shape::offset` with mitered joins and a high limit (src/skin.cpp:295-302). -/
  miter : Int → Region → Region
  /-- `Shape::removeSmallAreas(MIN_AREA_SIZE)`. -/
  small : Region → Region
  /-- `Shape::removeSmallAreas(min_infill_area)`. -/
  smallInfill : Region → Region
  /-- `PolygonUtils::getThinAreas(shape, top_bottom_skin_merge_distance)`. -/
  thin : Region → Region

/-- `SliceLayerPart` before the skin is made. -/
structure Part where
  outline : Region
  box : AABB
  inner : Region

/-- The settings of `SkinInfillAreaComputation` (src/skin.cpp:42-56) and those it reads later. `minInfill` is whether
`min_infill_area` is positive. -/
structure Config where
  bottom : Nat
  initialBottom : Nat
  top : Nat
  lineWidth : Int
  gaps : Bool
  infill : Bool
  minInfill : Bool
  minWidth : Int
  topPreshrink : Int
  bottomPreshrink : Int
  topExpand : Int
  bottomExpand : Int

/-- `EPSILON` (include/utils/Coord_t.h:20). -/
def EPSILON : Int := 5

/-- `getOutlineOnLayer` (src/skin.cpp:63-80) for a part with the given bounding box. It is never called for a negative
layer. -/
def outlineOn (layers : List (List Part)) (box : AABB) (l : Nat) : Region :=
  {p | ∃ q ∈ layers.getD l [], box.hit q.box = true ∧ p ∈ q.outline}

/-- Intersect an area with those of more layers (src/skin.cpp:196-199, 221-224). -/
def meet (f : Nat → Region) (r : Region) (ls : List Nat) : Region := ls.foldl (fun r l => r ∩ f l) r

/-- `calculateBottomSkin` (src/skin.cpp:182-207). `f` is `getOutlineOnLayer` for the part. -/
def bottomSkin (ops : Ops) (c : Config) (f : Nat → Region) (l : Nat) (down : Region) : Region :=
  if c.bottom = 0 ∧ c.initialBottom = 0 then down
  else if l < c.initialBottom then down
  else
    let start := l - c.bottom
    let solid := if c.gaps then f start else meet f (f start) (List.range' (start + 1) (l - (start + 1)))
    down \ (if c.minInfill then ops.smallInfill solid else solid)

/-- `calculateTopSkin` (src/skin.cpp:209-234); `n` is the number of layers of the mesh. -/
def topSkin (ops : Ops) (c : Config) (f : Nat → Region) (n l : Nat) (up : Region) : Region :=
  if (l : Int) > (n : Int) - c.top ∨ c.top = 0 then up
  else
    let solid := if c.gaps then f (l + c.top) else meet f (f (l + c.top)) (List.range' (l + 1) (c.top - 1))
    up \ (if c.minInfill then ops.smallInfill solid else solid)

/-- The expansion of one of the skins (src/skin.cpp:247-273). -/
def expand (ops : Ops) (minWidth dist : Int) (r : Region) : Region :=
  if dist = 0 then r
  else if minWidth > 0 then r ∪ ops.offset (minWidth + dist) (ops.offset (-minWidth) r)
  else ops.offset dist r

/-- The rest of `applySkinExpansion` for the bottom skin (src/skin.cpp:275, 293-299, 306-309). -/
def shrinkBottom (ops : Ops) (minWidth dist preshrink : Int) (original r : Region) : Region :=
  let again := preshrink > 0 ∨ minWidth = 0 ∧ dist ≠ 0
  let r' := if again then ops.miter (preshrink.tdiv 2) (ops.miter ((-preshrink).tdiv 2) r) ∩ r else r
  if dist > 0 ∨ again then r' ∩ original else r'

/-- The rest of `applySkinExpansion` for the top skin (src/skin.cpp:276, 300-304, 310-313). -/
def shrinkTop (ops : Ops) (minWidth dist preshrink : Int) (original r : Region) : Region :=
  let again := preshrink > 0 ∨ minWidth = 0 ∧ dist ≠ 0
  let r' := if again then ops.miter (preshrink.tdiv 2) (ops.miter ((-preshrink).tdiv 2) r) else r
  if dist > 0 ∨ again then r' ∩ original else r'

/-- `applySkinFillSmallInfillGaps` (src/skin.cpp:316-330): the gaps that are filled. -/
def gapFill (ops : Ops) (lineWidth : Int) (skin infill : Region) : Region :=
  let opening := lineWidth * 2
  let opened := ops.offset (-opening - EPSILON) (ops.offset opening skin)
  ops.offset EPSILON ((opened \ skin) ∩ infill)

/-- The top and bottom skin together (src/skin.cpp:134-151), before small areas are removed. -/
def rawSkin (ops : Ops) (c : Config) (f : Nat → Region) (n l : Nat) (inner : Region) : Region :=
  let width := c.minWidth.tdiv 2
  let up := if c.top > 0 then inner else ∅
  let down := if c.bottom > 0 ∨ l < c.initialBottom then inner else ∅
  let down := bottomSkin ops c f l down
  let up := topSkin ops c f n l up
  let down := shrinkBottom ops width c.bottomExpand c.bottomPreshrink inner (expand ops width c.bottomExpand down)
  let up := shrinkTop ops width c.topExpand c.topPreshrink inner (expand ops width c.topExpand up)
  up ∪ down

/-- `generateSkinAndInfillAreas(part)` (src/skin.cpp:131-174): the skin and the infill area of a part. -/
def areas (ops : Ops) (c : Config) (f : Nat → Region) (n l : Nat) (inner : Region) : Region × Region :=
  let skin := ops.small (rawSkin ops c f n l inner)
  let infill := inner \ skin
  let gaps := gapFill ops c.lineWidth skin infill
  let infill' := infill \ gaps
  (skin ∪ gaps, if c.infill then ops.small infill' else infill')

/-- The skin and the infill area of a part of a mesh, as `generateSkinAndInfillAreas` calls it. -/
def partAreas (ops : Ops) (c : Config) (layers : List (List Part)) (l : Nat) (q : Part) : Region × Region :=
  areas ops c (outlineOn layers q.box) layers.length l q.inner

/-! ## Roofing and flooring -/

/-- The settings of `generateSkinRoofingFlooringFill` (src/skin.cpp:451-460): the number of roofing and flooring layers
(at most those of the skin), and whether they are printed differently from the rest of the skin. -/
structure FillConfig where
  roofing : Nat
  roofingDiffers : Bool
  flooring : Nat
  flooringDiffers : Bool
  gaps : Bool
  overlap : Int
  expansion : Int
  merge : Int
  plate : Region

def FillConfig.hasRoofing (c : FillConfig) : Bool := decide (c.roofing > 0) && c.roofingDiffers
def FillConfig.hasFlooring (c : FillConfig) : Bool := decide (c.flooring > 0) && c.flooringDiffers

/-- `generateFilledAreaAbove` (src/skin.cpp:525-553). -/
def filledAbove (c : FillConfig) (f : Nat → Region) (l : Nat) : Region :=
  let above := if c.gaps then f (l + c.roofing) else meet f (f (l + c.roofing)) (List.range' (l + 1) (c.roofing - 1))
  if l > 0 then above ∪ (f l \ f (l - 1)) else above

/-- `generateFilledAreaBelow` (src/skin.cpp:561-581), with the build plate where it returns nothing
(src/skin.cpp:463). -/
def filledBelow (c : FillConfig) (f : Nat → Region) (l : Nat) : Region :=
  if l < c.flooring then c.plate
  else
    let lowest := l - c.flooring
    if c.gaps then f lowest else meet f (f lowest) (List.range' (lowest + 1) (l - (lowest + 1)))

open Classical in
/-- `PolygonUtils::mergeThinOverlap` (src/utils/polygonUtils.cpp:1522-1553) with `allow_thin_areas_grow`: the source and
the destination. -/
noncomputable def mergeThin (ops : Ops) (dist : Int) (source dest : Region) : Region × Region :=
  if source = ∅ ∨ dest = ∅ then (source, dest)
  else
    let allow := ops.thin dest
    if allow = ∅ then (source, dest)
    else
      let grow := ops.offset EPSILON (ops.offset dist source ∩ allow)
      if grow = ∅ then (source, dest) else (source ∪ grow, dest \ grow)

/-- What a part of the skin is divided into. -/
structure Fill where
  skin : Region
  roofing : Region
  flooring : Region

/-- The division of a part of the skin (src/skin.cpp:462-483), before thin areas are merged. -/
def divide (ops : Ops) (c : FillConfig) (f : Nat → Region) (l : Nat) (outline : Region) : Fill :=
  let above := if c.hasRoofing then filledAbove c f l else c.plate
  let below := if c.hasFlooring then filledBelow c f l else c.plate
  let inside := outline ∩ below
  let roofing :=
    if c.hasRoofing then
      (if c.expansion > 0 then ops.offset c.expansion (inside \ above) ∩ inside else inside \ above)
    else ∅
  let flooring := if c.hasFlooring then (outline ∩ above) \ below else ∅
  ⟨(outline \ roofing) ∩ below, roofing, flooring⟩

/-- `generateSkinRoofingFlooringFill` (src/skin.cpp:449-501) for a part of the skin. -/
noncomputable def fill (ops : Ops) (c : FillConfig) (f : Nat → Region) (l : Nat) (outline : Region) : Fill :=
  let r := divide ops c f l outline
  let r :=
    if c.merge > 0 then
      let m := mergeThin ops c.merge r.skin r.roofing
      let m' := mergeThin ops c.merge m.1 r.flooring
      ⟨m'.1, m.2, m'.2⟩
    else r
  let roofing := ops.offset c.overlap r.roofing
  ⟨(ops.offset c.overlap r.skin \ r.roofing) \ r.flooring, roofing, ops.offset c.overlap r.flooring \ roofing⟩

/-- `generateTopAndBottomMostSurfaces` (src/skin.cpp:503-517): the surfaces without anything above and below. The
outline for the second one is that of the layer above, too (src/skin.cpp:510). -/
def outerSurfaces (f : Nat → Region) (l : Nat) (outline : Region) : Region × Region :=
  (outline \ f (l + 1), if l > 0 then outline \ f (l + 1) else outline)

/-! ## Infill support -/

/-- The infill of a part: `infill_area`, and the one given by `getOwnInfillArea()`. -/
structure InfillPart where
  area : Region
  own : Region
  box : AABB

/-- The body of the loop of `generateInfillSupport` over the parts of a layer (src/skin.cpp:595-617), for the layer
above. `dist` is `max_dist_from_lower_layer`. An empty area is skipped; its own infill area is not changed then. -/
noncomputable def supportPart (ops : Ops) (dist : Int) (above : List InfillPart) (q : InfillPart) : InfillPart :=
  open Classical in
  if q.area = ∅ then q
  else
    let inside : Region := {p | ∃ a ∈ above, p ∈ a.area}
    let infill : Region := {p | ∃ a ∈ above, p ∈ a.own}
    let unsupported := ops.offset (-dist) q.area
    let overhang := ops.offset (dist + 50) (unsupported \ inside) \ inside
    { q with own := (infill ∪ overhang) ∩ q.own }

/-- `generateInfillSupport` (src/skin.cpp:583-620): from the topmost layer down. The list starts with the lowest
layer. -/
noncomputable def infillSupport (ops : Ops) (dist : Int) : List (List InfillPart) → List (List InfillPart)
  | [] => []
  | [l] => [l]
  | l :: above :: rest =>
    match infillSupport ops dist (above :: rest) with
    | [] => [l]
    | a :: as => l.map (supportPart ops dist a) :: a :: as

/-! ## Gradual infill -/

/-- The settings of `generateGradualInfill` (src/skin.cpp:622-647) and `processSingleLayerInfill`. -/
structure Gradual where
  stepHeight : Nat
  layerHeight : Nat
  steps : Nat
  initialBottom : Nat
  top : Nat
  gaps : Bool
  connected : Bool
  /-- The pattern is one of the cross patterns. -/
  cross : Bool
  /-- `infill_line_distance`. -/
  lineDistance : Nat

/-- `gradual_infill_step_layer_count` (src/skin.cpp:631-632), with `round_divide` (include/utils/math.h:94-97). -/
def Gradual.count (c : Gradual) : Nat := (c.stepHeight + c.layerHeight / 2) / c.layerHeight

/-- `layer_skip_count` (src/skin.cpp:625-637). -/
def Gradual.skip (c : Gradual) : Rat :=
  let skip : Rat := if c.gaps then 8 else 1
  c.count / max 1 (⌈(c.count : Rat) / skip⌉ : Rat)

/-- The infill that is in the own infill areas of a layer (src/skin.cpp:687-695), for a part with the given box. -/
def infillOn (layers : List (List InfillPart)) (box : AABB) (l : Nat) : Region :=
  {p | ∃ q ∈ layers.getD l [], q.box.hit box = true ∧ p ∈ q.own}

/-- The loop over the layers above (src/skin.cpp:676-697), with a bound on the number of iterations: `diverge` if it
does not end within them. `f` is `infillOn` for the part, `n` the number of layers. -/
def scan (f : Nat → Region) (n : Nat) (skip last : Rat) : Nat → Rat → Region → Outcome Region
  | 0, _, _ => .diverge
  | fuel + 1, l, r =>
    if l ≤ last then
      if l ≥ n then .ok ∅
      else scan f n skip last fuel (l + skip) (r ∩ f ⌊l⌋.toNat)
    else .ok r

open Classical in
/-- The loop over the steps (src/skin.cpp:674-714) from step `s` on, of which `left` are left: the areas of the
densities. -/
noncomputable def steps (c : Gradual) (f : Nat → Region) (n l fuel : Nat) (infill : Region) :
    Nat → Nat → Region → Region → Outcome (List Region)
  | 0, _, _, dense => .ok [infill \ dense]
  | left + 1, s, less, dense =>
    match scan f n c.skip (l + (s + 1) * c.count : Nat) fuel (l + s * c.count + ⌊c.skip⌋.toNat : Nat) less with
    | .ok less =>
      if less = ∅ then .ok [infill \ dense]
      else
        let more := infill \ less
        match steps c f n l fuel infill left (s + 1) less (if c.connected then dense ∪ more else dense) with
        | .ok rest => .ok ((more \ dense) :: rest)
        | .ub => .ub
        | .diverge => .diverge
    | .ub => .ub
    | .diverge => .diverge

open Classical in
/-- The areas of the densities of a part (src/skin.cpp:652-716). `infill` is what is left of its own infill area inside
the extra infill walls. -/
noncomputable def densities (c : Gradual) (f : Nat → Region) (n l fuel : Nat) (infill : Region) : Outcome (List Region) :=
  if infill = ∅ ∨ l < c.initialBottom ∨ (l : Int) > (n : Int) - 1 - c.top then .ok [∅]
  else steps c f n l fuel infill c.steps 0 infill ∅

/-- The distance between the lines of a density (src/FffGcodeWriter.cpp:2214-2250); `last` is the number of the last
one. -/
def lineDistance (c : Gradual) (last d : Nat) : Nat :=
  let here := c.lineDistance * 2 ^ (d + 1)
  if d = last ∨ c.cross = true then here / 2 else here

/-- What `processSingleLayerInfill` prints of the areas (src/FffGcodeWriter.cpp:2202-2385) if nothing of it is below
skin: areas and distances between the lines in them. -/
def printed (c : Gradual) (areas : List Region) : List (Region × Nat) :=
  areas.zipIdx.map fun x => (x.1, lineDistance c (areas.length - 1) x.2)

/-! ## Combined infill layers -/

/-- A part with the areas of one density for each thickness: `infill_area_per_combine_per_density` with one density, and
`infill_area`. -/
structure CombinePart where
  box : AABB
  area : Region
  combine : List Region

/-- The loop over the parts of the lower layer (src/skin.cpp:770-802) for a part of the upper layer, with one density:
what is left of the area that is made thicker, what was made thicker, and the lower parts. `opening` is
`offset(-200).offset(200)`. -/
def thicken (opening : Region → Region) (box : AABB) : List CombinePart → Region → Region × List Region × List CombinePart
  | [], r => (r, [], [])
  | q :: rest, r =>
    if box.hit q.box = true then
      let both := opening (r ∩ q.area)
      let x := thicken opening box rest (r \ both)
      (x.1, both :: x.2.1, { q with combine := q.combine.set 0 (q.combine.getD 0 ∅ \ both) } :: x.2.2)
    else
      let x := thicken opening box rest r
      (x.1, x.2.1, q :: x.2.2)

/-- The area that several areas cover together (`result.push_back(intersection)`). -/
def together (rs : List Region) : Region := {p | ∃ r ∈ rs, p ∈ r}

/-- The loop over the parts of the upper layer (src/skin.cpp:765-806) for the thickness of `k + 1` layers. -/
def thickenAll (opening : Region → Region) (k : Nat) :
    List CombinePart → List CombinePart → List CombinePart × List CombinePart
  | [], lower => ([], lower)
  | q :: rest, lower =>
    let x := thicken opening q.box lower (q.combine.getD (k - 1) ∅)
    let y := thickenAll opening k rest x.2.2
    ({ q with combine := q.combine.set (k - 1) x.1 ++ [together x.2.1] } :: y.1, y.2)

/-- The loop over the thicknesses for an upper layer (src/skin.cpp:751-807). -/
def combineLayer (opening : Region → Region) (amount first l : Nat) :
    Nat → List (List CombinePart) → List (List CombinePart)
  | k, layers =>
    if k < amount ∧ k ≤ l ∧ first ≤ l - k then
      let x := thickenAll opening k (layers.getD l []) (layers.getD (l - k) [])
      combineLayer opening amount first l (k + 1) ((layers.set l x.1).set (l - k) x.2)
    else layers
termination_by k => amount - k

/-- The settings of `combineInfillLayers`. -/
structure Combine where
  thickness : Nat
  layerHeight : Nat
  initialBottom : Nat
  top : Nat
  lineDistance : Nat

/-- The number of layers to combine (src/skin.cpp:729-734). -/
def Combine.amount (c : Combine) : Nat :=
  max 1 ((c.thickness + max c.layerHeight 1 / 2) / max c.layerHeight 1)

/-- The loop over the upper layers (src/skin.cpp:749-807). -/
def combineFrom (opening : Region → Region) (amount first last : Nat) (l : Nat) (layers : List (List CombinePart)) :
    List (List CombinePart) :=
  if l ≤ last ∧ 0 < amount then
    combineFrom opening amount first last (l + amount) (combineLayer opening amount first l 1 layers)
  else layers
termination_by last + 1 - l

/-- `combineInfillLayers` (src/skin.cpp:721-808) for parts with one density. -/
def combine (opening : Region → Region) (c : Combine) (layers : List (List CombinePart)) : List (List CombinePart) :=
  if layers.length = 0 ∨ layers.length - 1 < c.top ∨ c.lineDistance = 0 then layers
  else if c.amount ≤ 1 then layers
  else
    let first := c.initialBottom + c.amount - 1
    let first := first - first % c.amount
    let last := layers.length - 1 - c.top
    let last := last - last % c.amount
    combineFrom opening c.amount first last first layers

end Verif.Skin
