import Verif.Slicer.BalanceLemmas
import Verif.Slicer.HeightProps

/-! # C32: the segments of a closed mesh form closed contours -/

namespace Verif.Slicer

/-- The exact intersection of the edge between two vertices with the plane. -/
def exactAt (m : Mesh) (tol : Tolerance) (z : Int) (hi lo : Nat) : ℚ × ℚ :=
  (exactCut z (height m tol z hi) (height m tol z lo) (m.vert hi).p.x (m.vert lo).p.x,
   exactCut z (height m tol z hi) (height m tol z lo) (m.vert hi).p.y (m.vert lo).p.y)

/-- A point is less than one unit and a quarter off in each coordinate. -/
def Near (p : P2) (q : ℚ × ℚ) : Prop := |(p.x : ℚ) - q.1| < 5 / 4 ∧ |(p.y : ℚ) - q.2| < 5 / 4

theorem exactCut_swap {x x0 x1 : Int} (y0 y1 : Int) (h : x0 ≠ x1) : exactCut x x0 x1 y0 y1 = exactCut x x1 x0 y1 y0 := by
  unfold exactCut
  have h1 : (x1 : ℚ) - x0 ≠ 0 := by
    intro e; apply h; have : (x1 : ℚ) = x0 := by linarith
    exact_mod_cast this.symm
  have h2 : (x0 : ℚ) - x1 ≠ 0 := by
    intro e; apply h1; linarith
  field_simp
  ring

theorem compensate_xy (tol : Tolerance) (z : Int) (p : P3) : (compensate tol z p).x = p.x ∧ (compensate tol z p).y = p.y := by
  unfold compensate; split <;> exact ⟨rfl, rfl⟩

theorem near_of_cut (m : Mesh) (tol : Tolerance) (z : Int) (hi lo : Nat) (h1 : Above m tol z hi) (h2 : ¬ Above m tol z lo) (p : P2)
    (hp : p = cutPoint z (compensate tol z (m.vert hi).p) (compensate tol z (m.vert lo).p) ∨
      p = cutPoint z (compensate tol z (m.vert lo).p) (compensate tol z (m.vert hi).p)) :
    Near p (exactAt m tol z hi lo) := by
  unfold Above at h1 h2
  have hne : height m tol z hi ≠ height m tol z lo := by omega
  unfold Near exactAt
  rcases hp with rfl | rfl
  · unfold cutPoint
    simp only [compensate_z, (compensate_xy tol z _).1, (compensate_xy tol z _).2]
    exact ⟨C33_accuracy_partial _ _ _ _ _ hne (by omega) (by omega), C33_accuracy_partial _ _ _ _ _ hne (by omega) (by omega)⟩
  · unfold cutPoint
    simp only [compensate_z, (compensate_xy tol z _).1, (compensate_xy tol z _).2]
    rw [exactCut_swap _ _ hne, exactCut_swap _ _ hne]
    exact ⟨C33_accuracy_partial _ _ _ _ _ hne.symm (by omega) (by omega),
      C33_accuracy_partial _ _ _ _ _ hne.symm (by omega) (by omega)⟩

/-- **C32**: the segments of a closed mesh form closed contours: at each place where the plane meets the mesh (an edge, or a
vertex on the plane) as many segments start as end. -/
theorem C32_balance (m : Mesh) (tol : Tolerance) (z : Int) (h : m.Closed) (n : Cut) :
    (buildSegments m tol z).countP (fun s => startCut m tol z s = some n) =
    (buildSegments m tol z).countP (fun s => stopCut m tol z s = some n) := by
  have h1 := segmentsFrom_balance m tol z n m.faces [] rfl
  have h2 := downs_eq_ups_of_closed m tol z n h
  unfold Mesh.edges at h2
  rw [h2] at h1
  unfold buildSegments
  exact (Nat.add_left_cancel h1).symm

/-- **C32**: what the segments are: exactly the faces that pass through the plane have one segment (and one only); it starts
at the edge on which the way round the face goes down through the plane and ends at the edge on which it goes up, with the
coordinates of these places (up to the accuracy of C33). -/
theorem C32_segments (m : Mesh) (tol : Tolerance) (z : Int) :
    (∀ f fc, m.faces[f]? = some fc → ((∃ s ∈ buildSegments m tol z, s.face = f) ↔ fc.Crosses m tol z)) ∧
    ((buildSegments m tol z).map Segment.face).Nodup ∧
    ∀ s ∈ buildSegments m tol z, ∃ fc, m.faces[s.face]? = some fc ∧
      (∃ hi lo, (hi, lo) ∈ fc.edges ∧ Above m tol z hi ∧ ¬ Above m tol z lo ∧ startCut m tol z s = some (cutOf m tol z hi lo) ∧
        Near s.start (exactAt m tol z hi lo)) ∧
      (∃ hi lo, (lo, hi) ∈ fc.edges ∧ Above m tol z hi ∧ ¬ Above m tol z lo ∧ stopCut m tol z s = some (cutOf m tol z hi lo) ∧
        Near s.stop (exactAt m tol z hi lo)) := by
  refine ⟨?_, (segmentsFrom_nodup m tol z m.faces 0).1, ?_⟩
  · intro f fc hf
    rw [← buildSegment_isSome m tol z f fc, Option.isSome_iff_exists]
    constructor
    · rintro ⟨s, hs, hsf⟩
      obtain ⟨f', fc', h1, h2⟩ := (mem_buildSegments m tol z s).1 hs
      have := (buildSegment_spec m tol z _ _ _ h2).1
      rw [hsf] at this
      subst this
      rw [h1] at hf
      obtain rfl := Option.some.inj hf
      exact ⟨s, h2⟩
    · rintro ⟨s, hs⟩
      exact ⟨s, (mem_buildSegments m tol z s).2 ⟨f, fc, hf, hs⟩, (buildSegment_spec m tol z _ _ _ hs).1⟩
  · intro s hs
    obtain ⟨f, fc, h1, h2⟩ := (mem_buildSegments m tol z s).1 hs
    obtain ⟨h3, ⟨hi, lo, a1, a2, a3, a4, a5⟩, ⟨hi', lo', c, b1, b2, b3, b4, -, -, b5⟩⟩ := buildSegment_spec m tol z _ _ _ h2
    subst h3
    refine ⟨fc, h1, ⟨hi, lo, a1, a2, a3, ?_, near_of_cut m tol z hi lo a2 a3 _ a5⟩,
      ⟨hi', lo', (List.of_mem_zip b1).1, b2, b3, ?_, near_of_cut m tol z hi' lo' b2 b3 _ b5⟩⟩
    · unfold startCut; rw [h1]; exact a4
    · unfold stopCut; rw [h1]; exact b4

/-- The divisor of `interpolate` is never zero when it is called for a segment: see the two vertices in `C32_segments`. -/
theorem buildSegment_divisor (m : Mesh) (tol : Tolerance) (z : Int) (hi lo : Nat) (h1 : Above m tol z hi) (h2 : ¬ Above m tol z lo) :
    (compensate tol z (m.vert hi).p).z - (compensate tol z (m.vert lo).p).z ≠ 0 := by
  rw [compensate_z, compensate_z]
  unfold Above at h1 h2
  omega

/-- A tetrahedron. -/
def exTetra : Mesh where
  vertices := [⟨⟨0, 0, 100⟩, []⟩, ⟨⟨1000, 0, 0⟩, []⟩, ⟨⟨0, 1000, 100⟩, []⟩, ⟨⟨0, 0, 1000⟩, []⟩]
  faces := [{ v0 := 0, v1 := 2, v2 := 1 }, { v0 := 0, v1 := 1, v2 := 3 }, { v0 := 1, v1 := 2, v2 := 3 }, { v0 := 0, v1 := 3, v2 := 2 }]

theorem closed_of_all (m : Mesh) (h : ∀ e ∈ m.edges, m.edges.count (e.1, e.2) = m.edges.count (e.2, e.1)) : m.Closed := by
  intro a b
  by_cases h1 : (a, b) ∈ m.edges
  · exact h _ h1
  · by_cases h2 : (b, a) ∈ m.edges
    · exact (h _ h2).symm
    · rw [List.count_eq_zero_of_not_mem h1, List.count_eq_zero_of_not_mem h2]

example : exTetra.Closed ∧ (buildSegments exTetra .MIDDLE 50).length = 2 + 1 ∧ (buildSegments exTetra .MIDDLE 100).length = 3 ∧
    (buildSegments exTetra .MIDDLE 500).length = 3 := by
  refine ⟨closed_of_all _ (by decide), by decide, by decide, by decide⟩

end Verif.Slicer
