import Verif.Load.PlaceModel

/-! # Where the meshes go -/

namespace Verif.Load

open Verif.Slicer (P3)

/-- The numbers lie between `lo` and `hi`, and both are among them. -/
def Span (xs : List Int) (lo hi : Int) : Prop := (∀ x ∈ xs, lo ≤ x ∧ x ≤ hi) ∧ lo ∈ xs ∧ hi ∈ xs

/-- `lo` and `hi` are the corners of the smallest box around the points. -/
def IsBox (ps : List P3) (lo hi : P3) : Prop :=
  Span (ps.map P3.x) lo.x hi.x ∧ Span (ps.map P3.y) lo.y hi.y ∧ Span (ps.map P3.z) lo.z hi.z

/-- Half of `n`, in whole micrometres. -/
def Half (h n : Int) : Prop := |2 * h - n| ≤ 1

/-- The origin of the build plate's coordinates, in the machine's. -/
def Origin (s : Plate) (o : P3) : Prop :=
  if s.centerIsZero then o = ⟨0, 0, 0⟩ else Half o.x s.width ∧ Half o.y s.depth ∧ o.z = 0

/-- What a mesh is moved by: its position on the build plate; if it is to be centred, then so that the centre of its
bounding box gets there, and its bottom. -/
def Moved (o : P3) (m : Part) (d : P3) : Prop :=
  if m.center then
    Half (m.position.x + o.x - d.x) (m.lo.x + m.hi.x) ∧ Half (m.position.y + o.y - d.y) (m.lo.y + m.hi.y) ∧
      d.z + m.lo.z = m.position.z + o.z
  else d = plus m.position o

/-- The integer is less than 1 away from the number. -/
def Close (n : Int) (x : Rat) : Prop := |(n : Rat) - x| < 1

/-- `q` is `p`, scaled from the point `c` on the build plate. -/
def Scaled (s : Plate) (c p q : P3) : Prop :=
  Close q.x (c.x + s.xy * (p.x - c.x)) ∧ Close q.y (c.y + s.xy * (p.y - c.y)) ∧ Close q.z (s.z * p.z)

/-- The coordinates have at most 32 bits. -/
def Small (p : P3) : Prop :=
  (-2 ^ 31 ≤ p.x ∧ p.x < 2 ^ 31) ∧ (-2 ^ 31 ≤ p.y ∧ p.y < 2 ^ 31) ∧ (-2 ^ 31 ≤ p.z ∧ p.z < 2 ^ 31)

/-- The points of the models (what is neither a modifier nor infill), moved. -/
def modelPoints (parts : List Part) (ds : List P3) : List P3 :=
  ((parts.zip ds).filter fun x => x.1.isModel).flatMap fun x => x.1.points.map fun p => plus p x.2

/-- `c` is the centre of the smallest box around the points, seen from above. -/
def Middle (ps : List P3) (c : P3) : Prop :=
  ∃ lo hi, IsBox ps lo hi ∧ Half c.x (lo.x + hi.x) ∧ Half c.y (lo.y + hi.y)

end Verif.Load
