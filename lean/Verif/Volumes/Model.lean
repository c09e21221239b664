import Verif.Box.Model
import Mathlib.Data.Set.Lattice
import Mathlib.Data.List.Sort
import Mathlib.Data.Rat.Defs

/-! # Overlapping models, cutting meshes and infill meshes

Models src/multiVolumes.cpp and `FffPolygonGenerator::processInfillMesh`. An area (`Shape`) is the set of points it
covers, and `unionPolygons`, `intersection` and `difference` are those of sets: the rounding of the corners of the
results by Clipper is not modelled, nor is how an area is made up of polygons. -/

namespace Verif.Volumes

open Verif.Box (AABB AABB3D)

/-- A point of a layer, in micrometres. -/
abbrev Point := Rat × Rat

/-- The area of a `Shape`. -/
abbrev Region := Set Point

/-- `Mesh` as far as volumes are concerned: the settings, and the bounding box. `mode` is whether
`magic_mesh_surface_mode` is `SURFACE`, `force` is `force_support_overhang_mesh` (false if it is not set). -/
structure Mesh where
  order : Int
  cutting : Bool
  hasExtruder : Bool
  antiOverhang : Bool
  force : Bool
  infill : Bool
  support : Bool
  surface : Bool
  box : AABB3D

/-- `Mesh::isPrinted` (src/mesh.cpp:118-122). -/
def Mesh.printed (m : Mesh) : Bool := !m.cutting && !m.antiOverhang && !m.force

/-- `Mesh::isModelMesh` (src/mesh.cpp:124-127). -/
def Mesh.model (m : Mesh) : Bool := m.printed && !m.infill

/-- What was sliced: the area of every mesh on every layer (`Slicer::layers[].polygons_`). All meshes have the same
number of layers (src/FffPolygonGenerator.cpp:206-225). -/
abbrev Slices := Nat → Nat → Region

/-- Assign the area of a mesh on a layer. -/
noncomputable def put (s : Slices) (v l : Nat) (r : Region) : Slices := fun v' l' => if v' = v ∧ l' = l then r else s v' l'

/-! ## `carveMultipleVolumes` -/

/-- The condition for the volumes to take part (src/multiVolumes.cpp:36-37, 44-45, negated). -/
def Mesh.carved (m : Mesh) : Bool := !(!m.model || m.support || m.surface)

/-- `ranked_volumes` (src/multiVolumes.cpp:25-32): the numbers of the volumes, sorted stably by `infill_mesh_order`. -/
def ranked (ms : Nat → Mesh) (n : Nat) : List Nat :=
  (List.range n).insertionSort fun a b => (ms a).order ≤ (ms b).order

/-- The pairs of positions that the two loops go through (src/multiVolumes.cpp:33, 41), in their order. -/
def pairs (n : Nat) : List (Nat × Nat) := (List.range' 1 (n - 1)).flatMap fun i => (List.range i).map fun j => (i, j)

/-- The body of the loop over the layers (src/multiVolumes.cpp:53-65). -/
noncomputable def carveLayer (ms : Nat → Mesh) (alternate : Bool) (a b l : Nat) (s : Slices) : Slices :=
  if alternate = true ∧ l % 2 = 0 ∧ (ms a).order = (ms b).order then put s b l (s b l \ s a l)
  else put s a l (s a l \ s b l)

/-- The body of the two loops for the volumes `a` and `b` (src/multiVolumes.cpp:35-66). -/
noncomputable def carvePair (ms : Nat → Mesh) (alternate : Bool) (layers a b : Nat) (s : Slices) : Slices :=
  if (ms a).carved = true ∧ (ms b).carved = true ∧ (ms a).box.hit (ms b).box = true then
    (List.range layers).foldl (fun s l => carveLayer ms alternate a b l s) s
  else s

/-- `carveMultipleVolumes` (src/multiVolumes.cpp:21-68) for `n` volumes. The two accesses to `ranked_volumes` are in
range, see `ranked_length`. -/
noncomputable def carve (ms : Nat → Mesh) (alternate : Bool) (n layers : Nat) (s : Slices) : Slices :=
  (pairs n).foldl (fun s ij => carvePair ms alternate layers ((ranked ms n)[ij.1]?.getD 0) ((ranked ms n)[ij.2]?.getD 0) s) s

/-! ## `MultiVolumes::carveCuttingMeshes`

For meshes whose `magic_mesh_surface_mode` is `NORMAL`. -/

/-- The union of all printable meshes on a layer (src/multiVolumes.cpp:120-145). It is only computed if there is a
mesh that changes the extruder, and only used by those. -/
def printable (ms : Nat → Mesh) (n : Nat) (s : Slices) (l : Nat) : Region :=
  {p | ∃ v < n, (ms v).printed = true ∧ p ∈ s v l}

/-- The loop over the meshes that are cut, on one layer (src/multiVolumes.cpp:210-231): the areas and what was cut out
of them so far. `cut` is the area of the cutting mesh. -/
noncomputable def cutLoop (ms : Nat → Mesh) (l : Nat) (cut : Region) : List Nat → Slices × Region → Slices × Region
  | [], r => r
  | v :: rest, (s, out) =>
    if (ms v).printed = false ∨ (ms v).support = true then cutLoop ms l cut rest (s, out)
    else cutLoop ms l cut rest (put s v l (s v l \ cut), out ∪ (cut ∩ s v l))

/-- One layer of a cutting mesh (src/multiVolumes.cpp:158-238). -/
noncomputable def cutLayer (ms : Nat → Mesh) (n : Nat) (all : Nat → Region) (k l : Nat) (s : Slices) : Slices :=
  let cut := if (ms k).hasExtruder then s k l ∩ all l else s k l
  let r := cutLoop ms l cut (List.range n) (s, ∅)
  put r.1 k l r.2

/-- The meshes after the mesh `k` has cut (src/multiVolumes.cpp:240-244): if it changes the extruder, it is no longer a
cutting mesh. -/
def release (ms : Nat → Mesh) (k : Nat) : Nat → Mesh :=
  fun v => if v = k ∧ (ms k).hasExtruder = true then { ms v with cutting := false } else ms v

/-- The loop over the cutting meshes (src/multiVolumes.cpp:147-245). -/
noncomputable def cutFrom (n layers : Nat) (all : Nat → Region) :
    List Nat → (Nat → Mesh) × Slices → (Nat → Mesh) × Slices
  | [], r => r
  | k :: rest, (ms, s) =>
    if (ms k).cutting = false then cutFrom n layers all rest (ms, s)
    else cutFrom n layers all rest
      (release ms k, (List.range layers).foldl (fun s l => cutLayer ms n all k l s) s)

/-- `MultiVolumes::carveCuttingMeshes` (src/multiVolumes.cpp:110-246). -/
noncomputable def cut (ms : Nat → Mesh) (n layers : Nat) (s : Slices) : (Nat → Mesh) × Slices :=
  cutFrom n layers (printable ms n s) (List.range n) (ms, s)

/-! ## `FffPolygonGenerator::processInfillMesh`

For meshes whose `magic_mesh_surface_mode` is `NORMAL`. -/

/-- A part of a layer (`SliceLayerPart`): its outline with the bounding box, and the result of `getOwnInfillArea()`. -/
structure Part where
  outline : Region
  box : AABB
  own : Region

/-- The loop over the parts of the infill mesh for one part of another mesh
(src/FffPolygonGenerator.cpp:614-639): the new outlines (also the empty ones, which the code skips) and the infill area that is left. A new outline with several
parts is split, which does not change its area. -/
noncomputable def claim (box : AABB) : List Part → Region → List Region × Region
  | [], own => ([], own)
  | p :: rest, own =>
    if p.box.hit box = false then claim box rest own
    else
      let r := claim box rest (own \ p.outline)
      (p.outline ∩ own :: r.1, r.2)

/-- The loop over the parts of another mesh (src/FffPolygonGenerator.cpp:610-652). -/
noncomputable def claimParts (ps : List Part) : List Part → List Region × List Part
  | [] => ([], [])
  | q :: rest =>
    let r := claim q.box ps q.own
    let r' := claimParts ps rest
    (r.1 ++ r'.1, { q with own := r.2 } :: r'.2)

/-- The loop over the meshes with lower order, on one layer (src/FffPolygonGenerator.cpp:596-653): the new outlines of
the infill mesh, and the other meshes. -/
noncomputable def claimMeshes (ps : List Part) : List (List Part) → List Region × List (List Part)
  | [] => ([], [])
  | m :: rest =>
    let r := claimParts ps m
    let r' := claimMeshes ps rest
    (r.1 ++ r'.1, r.2 :: r'.2)

/-- The loop of `slices2polygons` over the meshes (src/FffPolygonGenerator.cpp:375-390, 461-472), on one layer: an
infill mesh claims its outline from the meshes before it. `walls` makes the parts of a layer from their outlines:
the walls and the skin are generated and the infill area is what is left (modelled in Verif/Skin). -/
noncomputable def process (walls : Nat → List Region → List Part) :
    List (Nat × Bool × List Part) → List (List Part) → List (List Part)
  | [], done => done
  | (i, infill, ps) :: rest, done =>
    if infill then
      let r := claimMeshes ps done
      process walls rest (r.2 ++ [walls i r.1])
    else process walls rest (done ++ [walls i (ps.map Part.outline)])

end Verif.Volumes
