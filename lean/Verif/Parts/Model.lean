import Verif.Parts.Spec

/-! # Model of src/geometry/Shape.cpp:706-739 (splitting an area into parts) and src/layerPart.cpp:30-110 -/

namespace Verif.Parts

open Spec

variable {α P : Type}

mutual

/-- `Shape::splitIntoPartsProcessPolyTreeNode`, Shape.cpp:725-739: the loop over the children of a node. -/
def process : List (Node α) → List (List α)
  | [] => []
  | child :: rest => processChild child ++ process rest

/-- One round of the loop, Shape.cpp:729-737: the parts of the holes are added before the part itself. -/
def processChild : Node α → List (List α)
  | .node contour holes => processHoles holes ++ [contour :: holes.map Node.contour]

/-- The recursive calls, Shape.cpp:732-736. -/
def processHoles : List (Node α) → List (List α)
  | [] => []
  | hole :: rest => processHole hole ++ processHoles rest

/-- One recursive call, Shape.cpp:735. -/
def processHole : Node α → List (List α)
  | .node _ children => process children

end

/-- `Shape::splitIntoParts`, Shape.cpp:706-723. Clipper is a parameter, given whether its rule is `pftNonZero`; otherwise it is
the default, `pftEvenOdd`. -/
def splitIntoParts (clip : Bool → List (Poly P) → List (Node (Poly P))) (polys : List (Poly P)) (unionAll : Bool) :
    List (List (Poly P)) :=
  process (clip unionAll polys)

/-- `Polyline::reverse`, include/geometry/Polyline.h:152-155. -/
def _root_.Verif.Parts.Spec.Poly.reverse (q : Poly P) : Poly P :=
  { orientation := !q.orientation, winding := fun p => -q.winding p, empty := q.empty }

/-- The loop that removes holes, layerPart.cpp:37-43, for one outline. -/
def flip (q : Poly P) : Poly P := if q.orientation then q.reverse else q

/-- A round of the loop that stores the parts, layerPart.cpp:68-81; `pop_back` is not reached, as the outline is the part. -/
def store (parts : List (List α)) (part : List α) : List (List α) :=
  if part.isEmpty then parts ++ [[]] else parts ++ [part]

/-- `createLayerWithParts`, layerPart.cpp:30-82: the parts of a layer, given the settings `meshfix_union_all_remove_holes`,
`meshfix_union_all` and whether `magic_mesh_surface_mode` is `surface`. Open polylines, their stitching, and bounding boxes are left
out; `polys` are the outlines after stitching. -/
def createLayerWithParts (clip : Bool → List (Poly P) → List (Node (Poly P))) (removeHoles unionLayers surfaceOnly : Bool)
    (polys : List (Poly P)) : List (List (Poly P)) :=
  let polys := if removeHoles then polys.map flip else polys
  let result :=
    if surfaceOnly && !unionLayers then (polys.filter fun q => !q.empty).map fun q => [q]
    else splitIntoParts clip polys (unionLayers || removeHoles)
  result.foldl store []

/-- A layer as far as `createLayerParts` looks at it: how many parts and open polylines it has. -/
structure Layer where
  parts : ℕ
  openPolylines : ℕ

/-- The loop for the highest layer with something, layerPart.cpp:99-107, from below layer `n`, given whether the surface mode is
other than `normal`. If there is none then `layer_nr_max_filled_layer` keeps its first value, 0
(src/sliceDataStorage.cpp:100). -/
def highest (surfaceMode : Bool) (layers : ℕ → Layer) : ℕ → ℕ
  | 0 => 0
  | n + 1 =>
    if decide ((layers n).parts > 0) || (surfaceMode && decide ((layers n).openPolylines > 0)) then n
    else highest surfaceMode layers n

end Verif.Parts
