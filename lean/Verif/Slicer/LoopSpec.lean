import Verif.Slicer.Model

/-! # Specification of the first phase of making polygons (C34) -/

namespace Verif.Slicer

/-- The squared distance of two points. -/
def dist2 (p q : P2) : Int := (p.x - q.x) * (p.x - q.x) + (p.y - q.y) * (p.y - q.y)

/-- The faces into which a segment leaves its face: the neighbour at the edge where it ends, or, if it ends at a vertex, all
faces at that vertex. -/
def exits (L : Layer) (s : Segment) : List Nat :=
  match s.endVertex with
  | none => s.endOther.toList
  | some v => L.conn v

/-- Segment `j` continues segment `i`: it is the segment of a face into which `i` leaves and starts at most 0.01 mm from the
end of `i`. -/
def Linked (L : Layer) (i j : Nat) : Prop :=
  ∃ s t, L.segs[i]? = some s ∧ L.segs[j]? = some t ∧ (∃ f ∈ exits L s, L.table f = some j) ∧ dist2 s.stop t.start ≤ 10 * 10

/-- The points of a chain of segments: the start of the first and the ends of all. -/
def chainPoints (L : Layer) (c : List Nat) : List P2 :=
  (c.head?.map fun i => (L.segs.getD i default).start).toList ++ c.map fun i => (L.segs.getD i default).stop

end Verif.Slicer
