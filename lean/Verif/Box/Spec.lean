import Verif.Box.Model

/-! # Specification of the bounding boxes (C39) -/

namespace Verif.Box

/-- The point has 64-bit coordinates. -/
def Pt.Fits (p : Pt) : Prop :=
  (POINT_MIN ≤ p.x ∧ p.x ≤ POINT_MAX) ∧ (POINT_MIN ≤ p.y ∧ p.y ≤ POINT_MAX)

/-- The point lies in the box, borders included. -/
def AABB.Has (b : AABB) (p : Pt) : Prop :=
  (b.min.x ≤ p.x ∧ p.x ≤ b.max.x) ∧ (b.min.y ≤ p.y ∧ p.y ≤ b.max.y)

/-- Some point lies in the box. -/
def AABB.NonEmpty (b : AABB) : Prop := ∃ p, b.Has p

/-- The point lies within the coordinate-wise extremes of the given points. -/
def WithinExtremes (ps : List Pt) (p : Pt) : Prop :=
  (∃ a ∈ ps, a.x ≤ p.x) ∧ (∃ a ∈ ps, p.x ≤ a.x) ∧ (∃ a ∈ ps, a.y ≤ p.y) ∧ (∃ a ∈ ps, p.y ≤ a.y)

/-- Two points are at most `d` apart in both directions. -/
def Near (d : Int) (p q : Pt) : Prop :=
  (-d ≤ p.x - q.x ∧ p.x - q.x ≤ d) ∧ (-d ≤ p.y - q.y ∧ p.y - q.y ≤ d)

/-- The point's coordinates fit in 32 bits. -/
def Pt3.Fits32 (p : Pt3) : Prop :=
  (INT32_MIN ≤ p.x ∧ p.x ≤ INT32_MAX) ∧ (INT32_MIN ≤ p.y ∧ p.y ≤ INT32_MAX) ∧
    (INT32_MIN ≤ p.z ∧ p.z ≤ INT32_MAX)

/-- The point lies in the box, borders included. -/
def AABB3D.Has (b : AABB3D) (p : Pt3) : Prop :=
  (b.min.x ≤ p.x ∧ p.x ≤ b.max.x) ∧ (b.min.y ≤ p.y ∧ p.y ≤ b.max.y) ∧ (b.min.z ≤ p.z ∧ p.z ≤ b.max.z)

/-- Some point lies in the box. -/
def AABB3D.NonEmpty (b : AABB3D) : Prop := ∃ p, b.Has p

/-- The point lies within the coordinate-wise extremes of the given points. -/
def WithinExtremes3 (ps : List Pt3) (p : Pt3) : Prop :=
  (∃ a ∈ ps, a.x ≤ p.x) ∧ (∃ a ∈ ps, p.x ≤ a.x) ∧ (∃ a ∈ ps, a.y ≤ p.y) ∧ (∃ a ∈ ps, p.y ≤ a.y) ∧
    (∃ a ∈ ps, a.z ≤ p.z) ∧ (∃ a ∈ ps, p.z ≤ a.z)

/-- Two points are at most `d` apart in X and Y and at most `dz` in Z. -/
def Near3 (d dz : Int) (p q : Pt3) : Prop :=
  (-d ≤ p.x - q.x ∧ p.x - q.x ≤ d) ∧ (-d ≤ p.y - q.y ∧ p.y - q.y ≤ d) ∧
    (-dz ≤ p.z - q.z ∧ p.z - q.z ≤ dz)

end Verif.Box
