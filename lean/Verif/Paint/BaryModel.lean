import Mathlib.Data.Rat.Defs
import Mathlib.Algebra.Order.Ring.Rat

/-! # Model of barycentric coordinates: src/slicer.cpp:1179-1230 and src/utils/MeshUtils.cpp:26-63

Floating point numbers are rational. The one of the slicer computes with doubles, apart from the differences and dot
products of points, whose overflow is not modelled; the one of the splitter by materials computes with 64-bit integers,
whose overflow is undefined behaviour: the outer `none`. -/

namespace Verif.Paint

/-- `Point3LL`. -/
structure P3 where
  x : ℤ
  y : ℤ
  z : ℤ
  deriving DecidableEq

/-- `Point3LL::operator-`. -/
def P3.sub (p q : P3) : P3 := ⟨p.x - q.x, p.y - q.y, p.z - q.z⟩

/-- `Point3LL::dot`, Point3LL.h:155-158. -/
def P3.dot (p q : P3) : ℤ := p.x * q.x + p.y * q.y + p.z * q.z

/-- `Point3D`: the coordinates u, v, w. -/
structure Bary where
  u : ℚ
  v : ℚ
  w : ℚ
  deriving DecidableEq

/-- `Slicer::getBarycentricCoordinates`, slicer.cpp:1194-1223. -/
def baryOfSlicer (p p0 p1 p2 : P3) : Option Bary :=
  let v0 := p1.sub p0
  let v1 := p2.sub p0
  let v2 := p.sub p0
  let d00 : ℚ := v0.dot v0
  let d01 : ℚ := v0.dot v1
  let d11 : ℚ := v1.dot v1
  let d20 : ℚ := v2.dot v0
  let d21 : ℚ := v2.dot v1
  let denom := d00 * d11 - d01 * d01
  if |denom| < 1 / 1000000 then none else
  let v := (d11 * d20 - d01 * d21) / denom
  let w := (d00 * d21 - d01 * d20) / denom
  some ⟨1 - v - w, v, w⟩

/-- A 64-bit signed integer; `none` if it overflows. -/
def int64 (z : ℤ) : Option ℤ := if -2 ^ 63 ≤ z ∧ z < 2 ^ 63 then some z else none

/-- The difference of two products in 64-bit arithmetic. -/
def mulSub (a b c d : ℤ) : Option ℤ :=
  (int64 (a * b)).bind fun ab => (int64 (c * d)).bind fun cd => int64 (ab - cd)

/-- `MeshUtils::getBarycentricCoordinates`, MeshUtils.cpp:26-56. -/
def baryOfSplitter (p p0 p1 p2 : P3) : Option (Option Bary) :=
  let v0 := p1.sub p0
  let v1 := p2.sub p0
  let v2 := p.sub p0
  let d00 := v0.dot v0
  let d01 := v0.dot v1
  let d11 := v1.dot v1
  let d20 := v2.dot v0
  let d21 := v2.dot v1
  (mulSub d00 d11 d01 d01).bind fun denom =>
    if denom = 0 then some none else
    (mulSub d11 d20 d01 d21).bind fun n => (mulSub d00 d21 d01 d20).bind fun m =>
      let v : ℚ := (n : ℚ) / denom
      let w : ℚ := (m : ℚ) / denom
      some (some ⟨1 - v - w, v, w⟩)

/-- `Slicer::interpolateUV`, slicer.cpp:1225-1230, and `MeshUtils::getUVCoordinates`, MeshUtils.cpp:58-63. -/
def interpolateUV (b : Bary) (uv0 uv1 uv2 : ℚ × ℚ) : ℚ × ℚ :=
  (b.u * uv0.1 + b.v * uv1.1 + b.w * uv2.1, b.u * uv0.2 + b.v * uv1.2 + b.w * uv2.2)

end Verif.Paint
