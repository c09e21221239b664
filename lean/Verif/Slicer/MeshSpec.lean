import Verif.Slicer.LoopSpec

/-! # Specification of slicing a mesh (C32, C49) -/

namespace Verif.Slicer

/-- The directed edges of a face. -/
def Face.edges (fc : Face) : List (Nat × Nat) := [(fc.v0, fc.v1), (fc.v1, fc.v2), (fc.v2, fc.v0)]

/-- The directed edges of a mesh. -/
def Mesh.edges (m : Mesh) : List (Nat × Nat) := m.faces.flatMap Face.edges

/-- A closed, consistently oriented mesh: every edge is used as often in one direction as in the other. -/
def Mesh.Closed (m : Mesh) : Prop := ∀ a b, m.edges.count (a, b) = m.edges.count (b, a)

/-- The height of a vertex for the purpose of slicing at `z`: on planes that are not above the bed, vertices exactly on the
plane count as one unit below it, unless the tolerance is inclusive. -/
def height (m : Mesh) (tol : Tolerance) (z : Int) (v : Nat) : Int :=
  if tol ≠ .INCLUSIVE ∧ (m.vert v).p.z = z ∧ (m.vert v).p.z < 1 then z - 1 else (m.vert v).p.z

/-- A vertex is above the plane. -/
def Above (m : Mesh) (tol : Tolerance) (z : Int) (v : Nat) : Prop := z < height m tol z v

instance (m : Mesh) (tol : Tolerance) (z : Int) (v : Nat) : Decidable (Above m tol z v) := by unfold Above; infer_instance

/-- Where the plane meets a mesh: at a vertex on the plane, or within the edge between a vertex above and one below. -/
inductive Cut
  | vertex (v : Nat)
  | edge (hi lo : Nat)
  deriving DecidableEq, Repr

/-- Where an edge from a vertex `hi` above the plane to a vertex `lo` not above it meets the plane. -/
def cutOf (m : Mesh) (tol : Tolerance) (z : Int) (hi lo : Nat) : Cut :=
  if height m tol z lo = z then .vertex lo else .edge hi lo

/-- Going round a face counter-clockwise: where the way goes down through the plane. -/
def Face.down (m : Mesh) (tol : Tolerance) (z : Int) (fc : Face) : Option Cut :=
  (fc.edges.find? fun e => Above m tol z e.1 ∧ ¬ Above m tol z e.2).map fun e => cutOf m tol z e.1 e.2

/-- Going round a face counter-clockwise: where the way goes up through the plane. -/
def Face.up (m : Mesh) (tol : Tolerance) (z : Int) (fc : Face) : Option Cut :=
  (fc.edges.find? fun e => ¬ Above m tol z e.1 ∧ Above m tol z e.2).map fun e => cutOf m tol z e.2 e.1

/-- Where a segment starts and ends. -/
def startCut (m : Mesh) (tol : Tolerance) (z : Int) (s : Segment) : Option Cut := (m.faces[s.face]?).bind (Face.down m tol z)

def stopCut (m : Mesh) (tol : Tolerance) (z : Int) (s : Segment) : Option Cut := (m.faces[s.face]?).bind (Face.up m tol z)

/-- The face passes through the plane: some corner is above, and either some corner is below or an edge is in the plane. -/
def Face.Crosses (m : Mesh) (tol : Tolerance) (z : Int) (fc : Face) : Prop :=
  (∃ v, fc.has v = true ∧ z < height m tol z v) ∧
  ((∃ v, fc.has v = true ∧ height m tol z v < z) ∨ ∃ e ∈ fc.edges, height m tol z e.1 = z ∧ height m tol z e.2 = z)

/-- Watertight: every directed edge belongs to at most one face, and if it does, so does the opposite edge. -/
def Mesh.Watertight (m : Mesh) : Prop := ∀ a b, m.edges.count (a, b) = m.edges.count (b, a) ∧ m.edges.count (a, b) ≤ 1

/-- No segment that ends at a vertex on the plane is shorter than 0.013 mm. -/
def NoShort (m : Mesh) (tol : Tolerance) (z : Int) : Prop :=
  ∀ s ∈ buildSegments m tol z, (∃ v, stopCut m tol z s = some (.vertex v)) → 13 * 13 < dist2 s.start s.stop

/-! ## Lists of triangles -/

/-- The directed edges of a triangle. -/
def triEdges (t : P3 × P3 × P3) : List (P3 × P3) := [(t.1, t.2.1), (t.2.1, t.2.2), (t.2.2, t.1)]

/-- The corners of a triangle. -/
def triCorners (t : P3 × P3 × P3) : List P3 := [t.1, t.2.1, t.2.2]

def dist3 (p q : P3) : Int := (p.x - q.x) * (p.x - q.x) + (p.y - q.y) * (p.y - q.y) + (p.z - q.z) * (p.z - q.z)

/-- A list of triangles bounds a solid: proper triangles, each directed edge in at most one of them and then its opposite as
well, and different corners more than 0.03 mm apart. -/
structure Solid (ts : List (P3 × P3 × P3)) : Prop where
  proper : ∀ t ∈ ts, t.1 ≠ t.2.1 ∧ t.2.1 ≠ t.2.2 ∧ t.1 ≠ t.2.2
  closed : ∀ p q, (ts.flatMap triEdges).count (p, q) = (ts.flatMap triEdges).count (q, p)
  once : ∀ p q, (ts.flatMap triEdges).count (p, q) ≤ 1
  apart : ∀ p ∈ ts.flatMap triCorners, ∀ q ∈ ts.flatMap triCorners, p ≠ q → 30 * 30 < dist3 p q

end Verif.Slicer
