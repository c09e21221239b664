import Verif.Support.Spec
import Mathlib.Algebra.Order.Group.Unbundled.Abs
import Mathlib.Algebra.Order.Group.Unbundled.Int

/-! # Molds and conical overhang

Models `Mold::process` (src/Mold.cpp) and `ConicalOverhang::apply` (src/ConicalOverhang.cpp). As in Verif/Support an area is
the set of its points, and offsets are parameters. All meshes have the same number of layers, as the slicer makes them
(src/FffPolygonGenerator.cpp:219-222). -/

namespace Verif.Mold

open Verif.Volumes (Point Region)
open Verif.Support (Ops)

/-! ## Molds -/

/-- A mesh: `polys` are its polygons on each layer, `lines` is the area of its open polylines with their width
(src/Mold.cpp:65-85). `inset` is how much the mold gets narrower with each layer towards the bottom, negative if it gets
wider (src/Mold.cpp:80), `upright` is whether the angle is 90° or more, `roof` the number of layers of the roof. -/
structure Mesh where
  enabled : Bool
  polys : Nat → Region
  lines : Nat → Region
  width : Int
  inset : Int
  upright : Bool
  roof : Nat

/-- `model_outlines` (src/Mold.cpp:85). -/
def Mesh.outline (m : Mesh) (l : Nat) : Region := m.polys l ∪ m.lines l

/-- The outside of the mold on a layer, given that on the layer above (src/Mold.cpp:89-107). The layer of the roof has not
been changed yet. -/
def Mesh.shell (ops : Ops) (m : Mesh) (above : Region) (l : Nat) : Region :=
  let r := if m.upright then ops.round m.width (m.outline l)
    else ops.offset (-m.inset) above ∪ ops.round m.width (m.outline l)
  if 0 < m.roof ∧ 0 < l then r ∪ ops.round m.width (m.polys (l - m.roof)) else r

/-- The loop from the top layer down (src/Mold.cpp:54-109), for one mesh: `mold_outline_above` after so many layers of
`n`. -/
def Mesh.loop (ops : Ops) (m : Mesh) (n : Nat) : Nat → Region
  | 0 => ∅
  | k + 1 => m.shell ops (Mesh.loop ops m n k) (n - 1 - k)

/-- `all_original_mold_outlines` (src/Mold.cpp:87, 110). -/
def originals (meshes : List Mesh) (l : Nat) : Region := {p | ∃ m ∈ meshes, m.enabled = true ∧ p ∈ m.outline l}

/-- The polygons of a mesh after `Mold::process` (src/Mold.cpp:22-126), on one of `n` layers. -/
def process (ops : Ops) (meshes : List Mesh) (n : Nat) (m : Mesh) (l : Nat) : Region :=
  if m.enabled then m.loop ops n (n - l) \ originals meshes l else m.polys l

/-! ## Conical overhang -/

open Classical in
/-- A hole that the layer above covers as a whole is cut out of that (src/ConicalOverhang.cpp:46-72). -/
noncomputable def cutHole (above hole : Region) : Region :=
  if (hole ∩ above).Nonempty ∧ symmDiff hole (hole ∩ above) = ∅ then above \ hole else above

/-- The body of the loop of `ConicalOverhang::apply` (src/ConicalOverhang.cpp:28-77). `dist` is how far a layer may stick
out, `holes` are the holes of the layer that are smaller than `conical_overhang_hole_size`, and `tidy` is smoothing and
simplifying. -/
noncomputable def step (ops : Ops) (tidy : Region → Region) (dist : Int) (holes : List Region) (layer above : Region) : Region :=
  if |dist| < 5 then tidy (layer ∪ (above \ ops.offset (-20) layer))
  else layer ∪ ops.offset (-dist) (holes.foldl cutHole above)

/-- The loop: the layer that many layers below the top one of `n`. -/
noncomputable def conicalLoop (ops : Ops) (tidy : Region → Region) (dist : Int) (holes : Nat → List Region) (layers : Nat → Region)
    (n : Nat) : Nat → Region
  | 0 => layers (n - 1)
  | k + 1 => step ops tidy dist (holes (n - 2 - k)) (layers (n - 2 - k)) (conicalLoop ops tidy dist holes layers n k)

/-- The layers after `ConicalOverhang::apply`. -/
noncomputable def conical (ops : Ops) (tidy : Region → Region) (dist : Int) (holes : Nat → List Region) (layers : Nat → Region)
    (n l : Nat) : Region := conicalLoop ops tidy dist holes layers n (n - 1 - l)

end Verif.Mold
