import Verif.BelowSkin.Props

/-! # Infill below skin: cases that meet the hypotheses -/

namespace Verif.BelowSkin

open Spec

/-- Nothing is small. -/
def plainOps : Ops := ⟨id, id, id, id, id⟩

theorem plain_partition (above under last : Region) (h : ((above \ under) ∩ last).Nonempty) :
    partition plainOps true 5 above under last = ((above \ under) ∩ last, (last \ ((above \ under) ∩ last)) \ ((above \ under) ∩ last)) := by
  classical
  unfold partition
  rw [if_pos ⟨by omega, rfl⟩]
  dsimp only [plainOps, id]
  rw [if_pos (Set.nonempty_iff_ne_empty.1 h)]

/-- The left half is below skin. -/
def left : Region := {p | p.1 < 0}

theorem left_some : (((left \ ∅) ∩ Set.univ) : Region).Nonempty := ⟨(-1, 0), by simp [left]⟩

/-- **C127_one** has cases: a point below skin and another one. -/
example : Supported (jobs plainOps true 5 left ∅ [Set.univ]) (-3, 0) :=
  (C127_one plainOps true 5 left ∅ Set.univ (-3, 0) (by simp) (fun r => ⟨fun _ h => h, fun _ h => h⟩) (fun r h => ⟨h, h⟩) (fun _ h => h)).1 (by
    rw [plain_partition _ _ _ left_some]; simp [left])

example : Filled [Set.univ] (jobs plainOps true 5 left ∅ [Set.univ]) (3, 0) :=
  (C127_one plainOps true 5 left ∅ Set.univ (3, 0) (by simp) (fun r => ⟨fun _ h => h, fun _ h => h⟩) (fun r h => ⟨h, h⟩) (fun _ h => h)).2 (by
    rw [plain_partition _ _ _ left_some]; simp [left])

/-- **C127_plain** has a case with two densities. -/
example : Filled [{p | p.2 < 0}, Set.univ] (jobs plainOps false 5 left ∅ [{p | p.2 < 0}, Set.univ]) (3, -1) :=
  C127_plain plainOps false 5 left ∅ [{p | p.2 < 0}, Set.univ] (3, -1) (by classical unfold partition; rw [if_neg (by simp)]) (fun r _ h => h) (fun r h => h)

/-- **C127_again_counterexample**, **C127_dense_counterexample** and **C127_lost_counterexample** have cases. -/
example : supportAt (jobs plainOps true 5 left ∅ [{p | p.2 < 0}, Set.univ]) (-3, 0) = 2 :=
  C127_again_counterexample plainOps true 5 left ∅ {p | p.2 < 0} Set.univ (Set.nonempty_iff_ne_empty.1 ⟨(0, -1), by simp⟩) (by simp) (-3, 0) (by rw [plain_partition _ _ _ left_some]; simp [left])

example : infillAt (jobs plainOps true 5 left ∅ [{p | p.2 < 0}, Set.univ]) 0 (3, 5) = 1 :=
  C127_dense_counterexample plainOps true 5 left ∅ {p | p.2 < 0} Set.univ (Set.nonempty_iff_ne_empty.1 ⟨(0, -1), by simp⟩)
    (by rw [plain_partition _ _ _ left_some]; exact Set.nonempty_iff_ne_empty.1 left_some) (3, 5) (by
      rw [plain_partition _ _ _ left_some]
      refine ⟨⟨trivial, ?_⟩, ?_⟩ <;> simp [left])

example : ∀ d, infillAt (jobs plainOps true 5 left ∅ [{p | p.2 < 0}, {p | 0 ≤ p.2}]) d (3, -5) = 0 :=
  have h : (((left \ ∅) ∩ {p : P2 | 0 ≤ p.2}) : Region).Nonempty := ⟨(-1, 0), by simp [left]⟩
  (C127_lost_counterexample plainOps true 5 left ∅ {p | p.2 < 0} {p | 0 ≤ p.2} (by rw [plain_partition _ _ _ h]; exact Set.nonempty_iff_ne_empty.1 h) (3, -5)
    (fun r => ⟨fun _ h => h, fun _ h => h⟩) (by simp) (by rw [plain_partition _ _ _ h]; simp [left])).2

end Verif.BelowSkin
