import Verif.Box.Spec
import Mathlib.Data.List.Perm.Basic
import Mathlib.Tactic.Linarith

namespace Verif.Box

theorem contains_iff (b : AABB) (p : Pt) : b.contains p = true ↔ b.Has p := by
  unfold AABB.contains AABB.Has
  simp only [Bool.and_eq_true, decide_eq_true_eq]
  tauto

theorem nonEmpty_iff (b : AABB) : b.NonEmpty ↔ b.min.x ≤ b.max.x ∧ b.min.y ≤ b.max.y := by
  constructor
  · rintro ⟨p, ⟨h1, h2⟩, h3, h4⟩
    exact ⟨by omega, by omega⟩
  · rintro ⟨h1, h2⟩
    exact ⟨b.min, ⟨le_rfl, h1⟩, le_rfl, h2⟩

theorem area_neg_iff (b : AABB) : b.area < 0 ↔ ¬ b.NonEmpty := by
  rw [nonEmpty_iff]
  unfold AABB.area
  split_ifs with h
  · constructor
    · intro _; omega
    · intro _; decide
  · constructor
    · intro h2
      have : 0 ≤ (b.max.x - b.min.x) * (b.max.y - b.min.y) := mul_nonneg (by omega) (by omega)
      omega
    · intro h2; omega

theorem includeAll_bounds (ps : List Pt) (b : AABB) (p : Pt) :
    (b.includeAll ps).Has p ↔
      ((b.min.x ≤ p.x ∨ ∃ a ∈ ps, a.x ≤ p.x) ∧ (p.x ≤ b.max.x ∨ ∃ a ∈ ps, p.x ≤ a.x)) ∧
      ((b.min.y ≤ p.y ∨ ∃ a ∈ ps, a.y ≤ p.y) ∧ (p.y ≤ b.max.y ∨ ∃ a ∈ ps, p.y ≤ a.y)) := by
  unfold AABB.includeAll
  induction ps generalizing b with
  | nil => simp [AABB.Has]
  | cons q ps ih =>
    rw [List.foldl_cons, ih]
    simp only [AABB.include, min_le_iff, le_max_iff, List.mem_cons, exists_eq_or_imp, or_assoc]

theorem include_comm (b : AABB) (p q : Pt) : (b.include p).include q = (b.include q).include p := by
  unfold AABB.include
  simp only [min_assoc, max_assoc, min_comm p.x, min_comm p.y, max_comm p.x, max_comm p.y]

theorem includeAll_append (b : AABB) (l m : List Pt) : b.includeAll (l ++ m) = (b.includeAll l).includeAll m := by
  unfold AABB.includeAll; rw [List.foldl_append]

theorem calculateShape_eq (old : AABB) (shape : List (List Pt)) :
    old.calculateShape shape = AABB.empty.includeAll shape.flatten := by
  unfold AABB.calculateShape
  generalize AABB.empty = b
  induction shape generalizing b with
  | nil => rfl
  | cons l shape ih => rw [List.foldl_cons, ih, List.flatten_cons, includeAll_append]

theorem include3_comm (b : AABB3D) (p q : Pt3) : (b.include p).include q = (b.include q).include p := by
  unfold AABB3D.include
  simp only [min_assoc, max_assoc, min_comm p.x, min_comm p.y, min_comm p.z, max_comm p.x, max_comm p.y,
    max_comm p.z]

theorem include3_bounds (ps : List Pt3) (b : AABB3D) (p : Pt3) :
    (ps.foldl AABB3D.include b).Has p ↔
      ((b.min.x ≤ p.x ∨ ∃ a ∈ ps, a.x ≤ p.x) ∧ (p.x ≤ b.max.x ∨ ∃ a ∈ ps, p.x ≤ a.x)) ∧
      ((b.min.y ≤ p.y ∨ ∃ a ∈ ps, a.y ≤ p.y) ∧ (p.y ≤ b.max.y ∨ ∃ a ∈ ps, p.y ≤ a.y)) ∧
      ((b.min.z ≤ p.z ∨ ∃ a ∈ ps, a.z ≤ p.z) ∧ (p.z ≤ b.max.z ∨ ∃ a ∈ ps, p.z ≤ a.z)) := by
  induction ps generalizing b with
  | nil => simp [AABB3D.Has]
  | cons q ps ih =>
    rw [List.foldl_cons, ih]
    simp only [AABB3D.include, min_le_iff, le_max_iff, List.mem_cons, exists_eq_or_imp, or_assoc]

theorem nonEmpty3_iff (b : AABB3D) :
    b.NonEmpty ↔ b.min.x ≤ b.max.x ∧ b.min.y ≤ b.max.y ∧ b.min.z ≤ b.max.z := by
  constructor
  · rintro ⟨p, ⟨h1, h2⟩, ⟨h3, h4⟩, h5, h6⟩
    exact ⟨by omega, by omega, by omega⟩
  · rintro ⟨h1, h2, h3⟩
    exact ⟨b.min, ⟨le_rfl, h1⟩, ⟨le_rfl, h2⟩, le_rfl, h3⟩

theorem empty3_has (p : Pt3) : ¬ AABB3D.empty.Has p := by
  rintro ⟨⟨h1, h2⟩, -⟩
  simp only [AABB3D.empty, INT32_MAX, INT32_MIN] at h1 h2
  omega

end Verif.Box
