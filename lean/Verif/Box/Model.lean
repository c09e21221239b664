/-
Model of the bounding boxes: src/utils/AABB.cpp and src/utils/AABB3D.cpp.

Coordinates are 64-bit in the code. They are unbounded integers here, so overflow in `expand`,
`translate` and `area` is not modelled; the limits used as markers for "no point yet" are.
-/

namespace Verif.Box

/-- `Point2LL`. -/
structure Pt where
  x : Int
  y : Int
deriving DecidableEq, Repr

/-- `POINT_MAX` (include/geometry/Point2LL.h:41): the largest 64-bit integer. -/
def POINT_MAX : Int := 2 ^ 63 - 1

/-- `POINT_MIN` (include/geometry/Point2LL.h:40): the smallest 64-bit integer. -/
def POINT_MIN : Int := -2 ^ 63

/-- `class AABB` (include/utils/AABB.h). -/
structure AABB where
  min : Pt
  max : Pt
deriving DecidableEq, Repr

/-- `AABB::AABB()` (src/utils/AABB.cpp:18-22). -/
def AABB.empty : AABB := ⟨⟨POINT_MAX, POINT_MAX⟩, ⟨POINT_MIN, POINT_MIN⟩⟩

/-- `AABB::include(point)` (src/utils/AABB.cpp:166-172). -/
def AABB.include (b : AABB) (p : Pt) : AABB :=
  ⟨⟨Min.min b.min.x p.x, Min.min b.min.y p.y⟩, ⟨Max.max b.max.x p.x, Max.max b.max.y p.y⟩⟩

/-- `AABB::include(polygon)` (src/utils/AABB.cpp:174-180). -/
def AABB.includeAll (b : AABB) (ps : List Pt) : AABB := ps.foldl AABB.include b

/-- `AABB::include(other)` (src/utils/AABB.cpp:182-189). -/
def AABB.includeBox (b o : AABB) : AABB :=
  ⟨⟨Min.min b.min.x o.min.x, Min.min b.min.y o.min.y⟩, ⟨Max.max b.max.x o.max.x, Max.max b.max.y o.max.y⟩⟩

/-- `AABB::calculate(poly)` (src/utils/AABB.cpp:116-124); the old contents are thrown away. -/
def AABB.calculate (_old : AABB) (ps : List Pt) : AABB := AABB.empty.includeAll ps

/-- `AABB::calculate(shape)` and `calculate(lines)` (src/utils/AABB.cpp:90-114). -/
def AABB.calculateShape (_old : AABB) (shape : List (List Pt)) : AABB :=
  shape.foldl AABB.includeAll AABB.empty

/-- `AABB::contains(point)` (src/utils/AABB.cpp:126-129). -/
def AABB.contains (b : AABB) (p : Pt) : Bool :=
  decide (p.x ≥ b.min.x) && decide (p.x ≤ b.max.x) && decide (p.y ≥ b.min.y) && decide (p.y ≤ b.max.y)

/-- `AABB::area` (src/utils/AABB.cpp:144-151). -/
def AABB.area (b : AABB) : Int :=
  if b.max.x < b.min.x ∨ b.max.y < b.min.y then -1
  else (b.max.x - b.min.x) * (b.max.y - b.min.y)

/-- `AABB::contains(other)` (src/utils/AABB.cpp:131-142). -/
def AABB.containsBox (b o : AABB) : Bool :=
  if b.area < 0 then false
  else if o.area < 0 then true
  else decide (o.min.x ≥ b.min.x) && decide (o.max.x ≤ b.max.x) && decide (o.min.y ≥ b.min.y) &&
    decide (o.max.y ≤ b.max.y)

/-- `AABB::hit` (src/utils/AABB.cpp:153-164). -/
def AABB.hit (b o : AABB) : Bool :=
  if b.max.x < o.min.x then false
  else if b.min.x > o.max.x then false
  else if b.max.y < o.min.y then false
  else if b.min.y > o.max.y then false
  else true

/-- `AABB::expand` (src/utils/AABB.cpp:191-201). -/
def AABB.expand (b : AABB) (dist : Int) : AABB :=
  if b.min = ⟨POINT_MAX, POINT_MAX⟩ ∨ b.max = ⟨POINT_MIN, POINT_MIN⟩ then b
  else ⟨⟨b.min.x - dist, b.min.y - dist⟩, ⟨b.max.x + dist, b.max.y + dist⟩⟩

/-! ### Three dimensions -/

/-- `Point3LL`. -/
structure Pt3 where
  x : Int
  y : Int
  z : Int
deriving DecidableEq, Repr

/-- `struct AABB3D` (include/utils/AABB3D.h). -/
structure AABB3D where
  min : Pt3
  max : Pt3
deriving DecidableEq, Repr

/-- `std::numeric_limits<int32_t>::max()`. -/
def INT32_MAX : Int := 2 ^ 31 - 1

/-- `std::numeric_limits<int32_t>::min()`. -/
def INT32_MIN : Int := -2 ^ 31

/-- `AABB3D::AABB3D()` (src/utils/AABB3D.cpp:13-17): with the limits of 32-bit integers, although the
coordinates have 64 bits. -/
def AABB3D.empty : AABB3D :=
  ⟨⟨INT32_MAX, INT32_MAX, INT32_MAX⟩, ⟨INT32_MIN, INT32_MIN, INT32_MIN⟩⟩

/-- `AABB3D::include(p)` (src/utils/AABB3D.cpp:45-54). -/
def AABB3D.include (b : AABB3D) (p : Pt3) : AABB3D :=
  ⟨⟨Min.min b.min.x p.x, Min.min b.min.y p.y, Min.min b.min.z p.z⟩,
    ⟨Max.max b.max.x p.x, Max.max b.max.y p.y, Max.max b.max.z p.z⟩⟩

/-- `AABB3D::include(aabb)` (src/utils/AABB3D.cpp:56-66). -/
def AABB3D.includeBox (b o : AABB3D) : AABB3D :=
  ⟨⟨Min.min b.min.x o.min.x, Min.min b.min.y o.min.y, Min.min b.min.z o.min.z⟩,
    ⟨Max.max b.max.x o.max.x, Max.max b.max.y o.max.y, Max.max b.max.z o.max.z⟩⟩

/-- `AABB3D::includeZ` (src/utils/AABB3D.cpp:68-73). -/
def AABB3D.includeZ (b : AABB3D) (z : Int) : AABB3D :=
  ⟨⟨b.min.x, b.min.y, Min.min b.min.z z⟩, ⟨b.max.x, b.max.y, Max.max b.max.z z⟩⟩

/-- `AABB3D::hit` (src/utils/AABB3D.cpp:36-43). -/
def AABB3D.hit (b o : AABB3D) : Bool :=
  if b.max.x < o.min.x ∨ b.min.x > o.max.x ∨ b.max.y < o.min.y ∨ b.min.y > o.max.y ∨
    b.max.z < o.min.z ∨ b.min.z > o.max.z then false
  else true

/-- `AABB3D::translate` (src/utils/AABB3D.cpp:75-80). -/
def AABB3D.translate (b : AABB3D) (d : Pt3) : AABB3D :=
  ⟨⟨b.min.x + d.x, b.min.y + d.y, b.min.z + d.z⟩, ⟨b.max.x + d.x, b.max.y + d.y, b.max.z + d.z⟩⟩

/-- `AABB3D::expand` (src/utils/AABB3D.cpp:89-98). -/
def AABB3D.expand (b : AABB3D) (d : Int) : AABB3D :=
  let b' : AABB3D := ⟨⟨b.min.x - d, b.min.y - d, b.min.z - d⟩, ⟨b.max.x + d, b.max.y + d, b.max.z + d⟩⟩
  if b'.min.x > b'.max.x ∨ b'.min.y > b'.max.y ∨ b'.min.z > b'.max.z then AABB3D.empty else b'

/-- `AABB3D::expandXY` (src/utils/AABB3D.cpp:100-109). -/
def AABB3D.expandXY (b : AABB3D) (d : Int) : AABB3D :=
  let b' : AABB3D := ⟨⟨b.min.x - d, b.min.y - d, b.min.z⟩, ⟨b.max.x + d, b.max.y + d, b.max.z⟩⟩
  if b'.min.x > b'.max.x ∨ b'.min.y > b'.max.y then AABB3D.empty else b'

/-- `AABB3D::flatten` (src/utils/AABB3D.cpp:30-33). -/
def AABB3D.flatten (b : AABB3D) : AABB := ⟨⟨b.min.x, b.min.y⟩, ⟨b.max.x, b.max.y⟩⟩

/-- The bounding box of a mesh after adding the given vertices: `findIndexOfVertex` includes every new
vertex (src/mesh.cpp:141-143). -/
def AABB3D.ofPoints (ps : List Pt3) : AABB3D := ps.foldl AABB3D.include AABB3D.empty

end Verif.Box
