import Verif.Load.Model

/-! # Placing the meshes

Models `MeshGroup::finalize`, `MeshGroup::scaleFromBottom`, `MeshGroup::min`, `MeshGroup::max` (src/MeshGroup.cpp),
`Mesh::translate` (include/mesh.h), `Mesh::transform` (src/mesh.cpp), `Matrix4x3D::scale` and the `Matrix4x3D::apply` for
integer points (src/utils/Matrix4x3D.cpp). Coordinates are unbounded integers and calculations in double precision exact. -/

namespace Verif.Load

open Verif.Slicer (P3)

/-- What of a mesh matters for its place: its vertices, its bounding box and its settings. -/
structure Part where
  points : List P3
  lo : P3
  hi : P3
  /-- `mesh_position_x`, `mesh_position_y`, `mesh_position_z` -/
  position : P3
  /-- `center_object` -/
  center : Bool
  /-- `isModelMesh()` -/
  isModel : Bool

/-- The settings of the group. -/
structure Plate where
  /-- `machine_center_is_zero` -/
  centerIsZero : Bool
  /-- `machine_width` -/
  width : Int
  /-- `machine_depth` -/
  depth : Int
  /-- `material_shrinkage_percentage_xy` and `material_shrinkage_percentage_z`, as ratios -/
  xy : Rat
  z : Rat

/-- The sum of two points. -/
def plus (p q : P3) : P3 := ⟨p.x + q.x, p.y + q.y, p.z + q.z⟩

/-- `MeshGroup::min` (src/MeshGroup.cpp:52-71). -/
def groupMin (parts : List Part) : P3 :=
  if parts = [] then ⟨0, 0, 0⟩
  else (parts.filter fun m => m.isModel).foldl
    (fun r m => ⟨min r.x m.lo.x, min r.y m.lo.y, min r.z m.lo.z⟩) ⟨2 ^ 63 - 1, 2 ^ 63 - 1, 2 ^ 63 - 1⟩

/-- `MeshGroup::max` (src/MeshGroup.cpp:73-92): it begins with the smallest 32-bit integer. -/
def groupMax (parts : List Part) : P3 :=
  if parts = [] then ⟨0, 0, 0⟩
  else (parts.filter fun m => m.isModel).foldl
    (fun r m => ⟨max r.x m.hi.x, max r.y m.hi.y, max r.z m.hi.z⟩) ⟨-2 ^ 31, -2 ^ 31, -2 ^ 31⟩

/-- The group's offset (src/MeshGroup.cpp:107-112). -/
def plateOffset (s : Plate) : P3 := if s.centerIsZero then ⟨0, 0, 0⟩ else ⟨s.width.tdiv 2, s.depth.tdiv 2, 0⟩

/-- The mesh's offset (src/MeshGroup.cpp:117-124). -/
def partOffset (m : Part) : P3 :=
  if m.center then
    plus m.position ⟨-m.lo.x - (m.hi.x - m.lo.x).tdiv 2, -m.lo.y - (m.hi.y - m.lo.y).tdiv 2, -m.lo.z⟩
  else m.position

/-- `Mesh::translate` (include/mesh.h:174-183). -/
def Part.translate (m : Part) (o : P3) : Part :=
  if o = ⟨0, 0, 0⟩ then m
  else { m with points := m.points.map fun p => plus p o, lo := plus m.lo o, hi := plus m.hi o }

/-- `Matrix4x3D::scale` (src/utils/Matrix4x3D.cpp:18-31). -/
def scaleMatrix (x y z : Rat) (o : P3) : Matrix :=
  ⟨⟨x, 0, 0, (x - 1) * -o.x⟩, ⟨0, y, 0, (y - 1) * -o.y⟩, ⟨0, 0, z, (z - 1) * -o.z⟩⟩

/-- `Matrix4x3D::apply(const Point3LL&)` (src/utils/Matrix4x3D.cpp:57-63): converting to integers cuts off. -/
def Matrix.applyInt (m : Matrix) (p : P3) : P3 :=
  ⟨trunc (m.x.apply p.x p.y p.z), trunc (m.y.apply p.x p.y p.z), trunc (m.z.apply p.x p.y p.z)⟩

/-- `Mesh::transform` (src/mesh.cpp:107-115). -/
def Part.transform (m : Part) (t : Matrix) : Part :=
  { m with points := m.points.map t.applyInt, lo := t.applyInt m.lo, hi := t.applyInt m.hi }

/-- The origin of the scaling (src/MeshGroup.cpp:138-139). -/
def scaleOrigin (parts : List Part) : P3 :=
  ⟨((groupMax parts).x + (groupMin parts).x).tdiv 2, ((groupMax parts).y + (groupMin parts).y).tdiv 2, 0⟩

/-- `MeshGroup::scaleFromBottom` (src/MeshGroup.cpp:136-146). -/
def scaleFromBottom (xy z : Rat) (parts : List Part) : List Part :=
  parts.map fun m => m.transform (scaleMatrix xy xy z (scaleOrigin parts))

/-- `MeshGroup::finalize` (src/MeshGroup.cpp:104-134). -/
def finalize (s : Plate) (parts : List Part) : List Part :=
  scaleFromBottom s.xy s.z (parts.map fun m => m.translate (plus (partOffset m) (plateOffset s)))

end Verif.Load
