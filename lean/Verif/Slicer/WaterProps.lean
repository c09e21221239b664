import Verif.Slicer.TrailLemmas
import Verif.Slicer.SolidLemmas

/-! # C49: the outlines of a watertight model are closed -/

namespace Verif.Slicer

/-- Building a mesh from the triangles of a solid melds exactly the equal corners: the mesh is watertight. -/
theorem C49_melding (hash : P3 → Nat) (pick : List Nat → Option Nat) (ts : List (P3 × P3 × P3)) (h : Solid ts) :
    (buildMesh hash pick ts).Watertight ∧
    (buildMesh hash pick ts).faces.map (fun fc => (((buildMesh hash pick ts).vert fc.v0).p, ((buildMesh hash pick ts).vert fc.v1).p,
      ((buildMesh hash pick ts).vert fc.v2).p)) = ts := by
  refine ⟨solid_watertight hash pick ts h, ?_⟩
  have hp := (build_pos hash ts h).faces
  rw [← hp]
  unfold buildMesh
  rw [hp]
  generalize ts.foldl (addFace hash) ⟨⟨[], []⟩, []⟩ = b at hp
  conv_rhs => rw [← hp]
  apply List.ext_getElem
  · simp [finish]
  · intro i h1 h2
    rw [List.getElem_map, List.getElem_map]
    unfold finish
    simp only [List.getElem_mapIdx]
    rfl

/-- **C49** for a mesh that is watertight once it is built: if no segment that ends at a vertex on the plane is shorter than
0.013 mm, the first phase makes closed polygons only (which together have each segment once, by C34). -/
theorem C49_watertight_partial (hash : P3 → Nat) (pick : List Nat → Option Nat) (ts : List (P3 × P3 × P3)) (tol : Tolerance) (z : Int)
    (hw : (buildMesh hash pick ts).Watertight) (hs : NoShort (buildMesh hash pick ts) tol z) (fuel : Nat)
    (hf : (buildSegments (buildMesh hash pick ts) tol z).length ≤ fuel) :
    ∃ r, makeLoops (meshLayer (buildMesh hash pick ts) tol z) fuel = .ok r ∧ r.opens = [] := by
  unfold makeLoops
  obtain ⟨r, h1, h2⟩ := loops_close (buildMesh_ok hash pick ts) hw hs fuel hf
    (List.range (meshLayer (buildMesh hash pick ts) tol z).segs.length) ⟨fun _ => false, [], []⟩
    (fun i hi => List.mem_range.1 hi) (fun n => by simp [starts, ends])
  exact ⟨r, h1, h2⟩

/-- **C49**: the outlines of a solid are closed polygons in every layer, provided no segment that ends at a vertex on the plane
is shorter than 0.013 mm. Without this the claim is false: `C49_short_segment`. -/
theorem C49_outlines_closed_partial (hash : P3 → Nat) (pick : List Nat → Option Nat) (ts : List (P3 × P3 × P3)) (h : Solid ts)
    (tol : Tolerance) (z : Int) (hs : NoShort (buildMesh hash pick ts) tol z) (fuel : Nat)
    (hf : (buildSegments (buildMesh hash pick ts) tol z).length ≤ fuel) :
    ∃ r, makeLoops (meshLayer (buildMesh hash pick ts) tol z) fuel = .ok r ∧ r.opens = [] :=
  C49_watertight_partial hash pick ts tol z (C49_melding hash pick ts h).1 hs fuel hf

/-- A tetrahedron. -/
def tetra (a b c d : P3) : List (P3 × P3 × P3) := [(a, b, d), (b, a, c), (a, d, c), (d, b, c)]

theorem solid_of_all (ts : List (P3 × P3 × P3)) (h1 : ∀ t ∈ ts, t.1 ≠ t.2.1 ∧ t.2.1 ≠ t.2.2 ∧ t.1 ≠ t.2.2)
    (h2 : ∀ e ∈ ts.flatMap triEdges, (ts.flatMap triEdges).count (e.1, e.2) = (ts.flatMap triEdges).count (e.2, e.1) ∧
      (ts.flatMap triEdges).count e ≤ 1)
    (h3 : ∀ p ∈ ts.flatMap triCorners, ∀ q ∈ ts.flatMap triCorners, p ≠ q → 30 * 30 < dist3 p q) : Solid ts := by
  refine ⟨h1, ?_, ?_, h3⟩
  · intro p q
    by_cases hp : (p, q) ∈ ts.flatMap triEdges
    · exact (h2 _ hp).1
    · by_cases hq : (q, p) ∈ ts.flatMap triEdges
      · exact (h2 _ hq).1.symm
      · rw [List.count_eq_zero_of_not_mem hp, List.count_eq_zero_of_not_mem hq]
  · intro p q
    by_cases hp : (p, q) ∈ ts.flatMap triEdges
    · exact (h2 _ hp).2
    · rw [List.count_eq_zero_of_not_mem hp]; omega

/-- A tetrahedron with a corner on the plane at 1000. -/
def exSolid : List (P3 × P3 × P3) := tetra ⟨500, 0, 2000⟩ ⟨500, 0, 0⟩ ⟨500, 1000, 0⟩ ⟨1000, 0, 1000⟩

set_option maxRecDepth 4000 in
example : Solid exSolid ∧ NoShort (buildMesh (fun _ => 0) List.head? exSolid) .MIDDLE 1000 ∧
    (makeLoops (meshLayer (buildMesh (fun _ => 0) List.head? exSolid) .MIDDLE 1000) 3 |>.bind fun r => .ok r.polygons) =
      .ok [[⟨500, 0⟩, ⟨999, 0⟩, ⟨500, 499⟩, ⟨500, 0⟩]] := by
  refine ⟨solid_of_all _ (by decide +kernel) (by decide +kernel) (by decide +kernel), ?_, by decide +kernel⟩
  have : ∀ s ∈ buildSegments (buildMesh (fun _ => 0) List.head? exSolid) .MIDDLE 1000, 13 * 13 < dist2 s.start s.stop := by
    decide +kernel
  exact fun s hs _ => this s hs

/-- The same, but the corner on the plane is only 0.005 mm from the opposite edge. -/
def exThin : List (P3 × P3 × P3) := tetra ⟨500, 0, 2000⟩ ⟨500, 0, 0⟩ ⟨500, 1000, 0⟩ ⟨505, 0, 1000⟩

/-- With a short segment that ends at a vertex, a solid can give open outlines: the segment is taken for a polygon of its own. -/
theorem C49_short_segment : Solid exThin ∧
    (makeLoops (meshLayer (buildMesh (fun _ => 0) List.head? exThin) .MIDDLE 1000) 3 |>.bind fun r => .ok (r.polygons, r.opens)) =
      .ok ([[⟨500, 0⟩, ⟨504, 0⟩]], [[⟨500, 499⟩, ⟨500, 0⟩], [⟨504, 0⟩, ⟨500, 499⟩]]) := by
  refine ⟨solid_of_all _ (by decide +kernel) (by decide +kernel) (by decide +kernel), by decide +kernel⟩

end Verif.Slicer
