import Verif.Paint.BaryLemmas

/-! # Texture coordinates in a triangle: C142 -/

namespace Verif.Paint

open BarySpec

/-- **C142.** The slicer: a triangle whose corners are on a line gives no coordinates. Otherwise, the coordinates add up to
one, and give the foot of the perpendicular from the point to the plane of the triangle. -/
theorem C142_slicer (p p0 p1 p2 : P3) :
    (Collinear p0.vec p1.vec p2.vec → baryOfSlicer p p0 p1 p2 = none) ∧
    (¬ Collinear p0.vec p1.vec p2.vec → ∃ b, baryOfSlicer p p0 p1 p2 = some b ∧ b.u + b.v + b.w = 1 ∧
      Perpendicular p.vec (point p0.vec p1.vec p2.vec b.v b.w) p0.vec p1.vec ∧
      Perpendicular p.vec (point p0.vec p1.vec p2.vec b.v b.w) p0.vec p2.vec) := by
  rw [slicer_eq, ← denom_zero]
  refine ⟨fun h => if_pos h, fun h => ⟨_, if_neg h, ?_, bary_foot p p0 p1 p2 h⟩⟩
  unfold P3.bary
  simp only
  ring

/-- **C142.** The splitter by materials gives the same, without overflow, if all points are within 26 mm of the first corner
in each coordinate. -/
theorem C142_splitter_partial (p p0 p1 p2 : P3)
    (h1 : |p1.x - p0.x| ≤ 26000 ∧ |p1.y - p0.y| ≤ 26000 ∧ |p1.z - p0.z| ≤ 26000)
    (h2 : |p2.x - p0.x| ≤ 26000 ∧ |p2.y - p0.y| ≤ 26000 ∧ |p2.z - p0.z| ≤ 26000)
    (h : |p.x - p0.x| ≤ 26000 ∧ |p.y - p0.y| ≤ 26000 ∧ |p.z - p0.z| ≤ 26000) :
    baryOfSplitter p p0 p1 p2 = some (baryOfSlicer p p0 p1 p2) := by
  rw [splitter_eq p p0 p1 p2 h1 h2 h, slicer_eq]

/-- **C142.** For a point of the plane of the triangle, the texture coordinates are between those of the corners as the
point is between the corners; so each corner gets its own coordinates. -/
theorem C142_interpolated (p p0 p1 p2 : P3) (h : ¬ Collinear p0.vec p1.vec p2.vec) (v w : ℚ)
    (hp : p.vec = point p0.vec p1.vec p2.vec v w) (uv0 uv1 uv2 : ℚ × ℚ) :
    ∃ b, baryOfSlicer p p0 p1 p2 = some b ∧
      interpolateUV b uv0 uv1 uv2 = (uv0.1 + v * (uv1.1 - uv0.1) + w * (uv2.1 - uv0.1),
        uv0.2 + v * (uv1.2 - uv0.2) + w * (uv2.2 - uv0.2)) := by
  rw [← denom_zero] at h
  refine ⟨_, by rw [slicer_eq, if_neg h, bary_plane p p0 p1 p2 h v w hp], ?_⟩
  unfold interpolateUV
  simp only [Prod.mk.injEq]
  constructor <;> ring

/-- **C142.** A point of the plane is inside of the triangle exactly if no coordinate is negative, which is what the splitter
asks. -/
theorem C142_inside (p p0 p1 p2 : P3) (h : ¬ Collinear p0.vec p1.vec p2.vec) (v w : ℚ)
    (hp : p.vec = point p0.vec p1.vec p2.vec v w) (b : Bary) (hb : baryOfSlicer p p0 p1 p2 = some b) :
    (0 ≤ b.u ∧ 0 ≤ b.v ∧ 0 ≤ b.w) ↔ (0 ≤ v ∧ 0 ≤ w ∧ v + w ≤ 1) := by
  rw [← denom_zero] at h
  rw [slicer_eq, if_neg h, bary_plane p p0 p1 p2 h v w hp] at hb
  cases hb
  simp only
  constructor
  · rintro ⟨h1, h2, h3⟩; exact ⟨h2, h3, by linarith⟩
  · rintro ⟨h1, h2, h3⟩; exact ⟨by linarith, h1, h2⟩

/-- **C142 is false of the splitter for larger triangles**: with a triangle of 60 by 60 mm the computation overflows, whatever
the point. -/
theorem C142_splitter_overflow_counterexample (p : P3) :
    baryOfSplitter p ⟨0, 0, 0⟩ ⟨60000, 0, 0⟩ ⟨0, 60000, 0⟩ = none := rfl

/-- A case of the hypotheses: the middle of an edge. -/
example : ¬ Collinear (P3.vec ⟨0, 0, 0⟩) (P3.vec ⟨2000, 0, 0⟩) (P3.vec ⟨0, 2000, 1000⟩) ∧
    P3.vec ⟨1000, 0, 0⟩ = point (P3.vec ⟨0, 0, 0⟩) (P3.vec ⟨2000, 0, 0⟩) (P3.vec ⟨0, 2000, 1000⟩) (1 / 2) 0 ∧
    baryOfSlicer ⟨1000, 0, 0⟩ ⟨0, 0, 0⟩ ⟨2000, 0, 0⟩ ⟨0, 2000, 1000⟩ = some ⟨1 / 2, 1 / 2, 0⟩ ∧
    baryOfSplitter ⟨1000, 0, 0⟩ ⟨0, 0, 0⟩ ⟨2000, 0, 0⟩ ⟨0, 2000, 1000⟩ = some (some ⟨1 / 2, 1 / 2, 0⟩) := by
  refine ⟨?_, ?_, ?_, ?_⟩
  · rw [← denom_zero]; decide
  · simp [P3.vec, point]; norm_num
  · decide +kernel
  · decide +kernel

end Verif.Paint
