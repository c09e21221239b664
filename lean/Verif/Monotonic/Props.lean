import Verif.Monotonic.PassLemmas

/-! # C95: the monotonic order -/

namespace Verif.Monotonic

/-- **C95 (part).** Every path is printed exactly once, and it is known at which end each line begins, if the ends of different
lines do not touch. Missing: lines that touch each other. Some of them are printed twice (see the counterexample). -/
theorem C95_once_partial {c : Config} {paths : List Path} (hf : Fair c) (ha : Apart paths) :
    ((optimize c paths).map (·.1)).Perm (List.range paths.length) ∧ ∀ x ∈ optimize c paths, x.2 ≠ .unknown := by
  have hap := linesOf_apart (c := c) ha
  have hn := linesOf_nodup c paths
  unfold optimize
  dsimp only
  have hoth : (((List.range (paths.map detectLoop).length).filter fun i => !((paths.map detectLoop).getD i ⟨[], false⟩).isLine).map
      fun i => (i, Start.first)).map (·.1) = othersOf paths := by
    rw [List.map_map]
    exact List.map_id _
  have hok : Known (((List.range (paths.map detectLoop).length).filter fun i => !((paths.map detectLoop).getD i ⟨[], false⟩).isLine).map
      fun i => (i, Start.first)) := by
    intro x hx
    rw [List.mem_map] at hx
    obtain ⟨i, -, rfl⟩ := hx
    simp
  by_cases hi : c.interlaced = true
  · rw [if_pos hi]
    obtain ⟨rows, h1, -, h3⟩ := passes_all (c := c) (path := pathsOf paths) (linesOf c paths)
    have h3' : passes c (fun i => (paths.map detectLoop).getD i ⟨[], false⟩) (sortBy ((List.range (paths.map detectLoop).length).filter
        fun i => ((paths.map detectLoop).getD i ⟨[], false⟩).isLine) fun i j => decide
        (lo c.v ((paths.map detectLoop).getD i ⟨[], false⟩) ≤ lo c.v ((paths.map detectLoop).getD j ⟨[], false⟩))) none =
        ((everyOther true rows).flatten, (everyOther false rows).flatten) := h3
    rw [h3']
    dsimp only
    have hsub : ∀ b, (everyOther b rows).flatten.Sublist (linesOf c paths) := fun b => by rw [h1]; exact everyOther_flatten b rows
    have hp : ∀ b, ((makeOrdered c (pathsOf paths) (c.dist * 2) (everyOther b rows).flatten).map (·.1)).Perm (everyOther b rows).flatten :=
      fun b => ordered_perm hf (hap.subset (hsub b).subset) (hn.sublist (hsub b))
    refine ⟨?_, ?_⟩
    · rw [List.map_append, List.map_append, hoth]
      refine List.Perm.trans ?_ (lines_others_perm c paths)
      rw [← List.append_assoc]
      apply List.Perm.append_right
      refine ((hp false).append (hp true)).trans ?_
      rw [h1]
      exact List.perm_append_comm.trans (everyOther_perm rows)
    · intro x hx
      rw [List.mem_append, List.mem_append] at hx
      rcases hx with hx | hx | hx
      · exact ordered_known _ _ _ _ x hx
      · exact ordered_known _ _ _ _ x hx
      · exact hok x hx
  · rw [if_neg hi]
    refine ⟨?_, ?_⟩
    · rw [List.map_append, hoth]
      exact ((ordered_perm hf hap hn).append_right _).trans (lines_others_perm c paths)
    · intro x hx
      rw [List.mem_append] at hx
      rcases hx with hx | hx
      · exact ordered_known _ _ _ _ x hx
      · exact hok x hx

/-- **C95 (part).** Lines next to each other are printed in the direction of printing: one that begins at least 10 micrometres
before the other one is printed earlier. Missing: lines that touch each other; in two passes it is so for the lines of the
same pass. -/
theorem C95_monotonic_partial {c : Config} {paths : List Path} (hf : Fair c) (ha : Apart paths) (hd : 0 ≤ c.dist) (hone : c.interlaced = false)
    {i j : Nat} {a b : Path} (hi : paths[i]? = some a) (hj : paths[j]? = some b) (hla : Line a) (hlb : Line b) (hadj : Adjacent c c.dist a b)
    (hlo : lo c.v a + 10 ≤ lo c.v b) : Before ((optimize c paths).map (·.1)) i j := by
  have hap := linesOf_apart (c := c) ha
  have hn := linesOf_nodup c paths
  have hs := linesOf_sorted c paths
  have h := ordered_before hf hap hn hs hd (linesOf_mem.mpr ⟨a, hi, hla⟩) (linesOf_mem.mpr ⟨b, hj, hlb⟩)
    (by rw [pathsOf_some hi, pathsOf_some hj]; exact adjacent_detect.mpr hadj) (by rw [pathsOf_some hi, pathsOf_some hj, lo_detect, lo_detect]; exact hlo)
  unfold optimize
  dsimp only
  rw [if_neg (by simp [hone]), List.map_append]
  have := h.append [] ((((List.range (paths.map detectLoop).length).filter fun i => !((paths.map detectLoop).getD i ⟨[], false⟩).isLine).map
      fun i => (i, Start.first)).map (·.1))
  rw [List.nil_append] at this
  exact this

/-- **C95 (part).** With two passes, every other row is printed first, then the rows between them; in each pass lines that are up to
twice the distance apart are printed in the direction of printing. -/
theorem C95_passes_partial {c : Config} {paths : List Path} (hf : Fair c) (ha : Apart paths) (hd : 0 ≤ c.dist) (htwo : c.interlaced = true) :
    ∃ (rows : List (List Nat)) (pass2 pass1 others : List Nat), Rows c (fun i => paths.getD i ⟨[], false⟩) rows ∧
      (optimize c paths).map (·.1) = pass2 ++ (pass1 ++ others) ∧
      pass1.Perm (everyOther true rows).flatten ∧ pass2.Perm (everyOther false rows).flatten ∧
      (∀ i, i ∈ rows.flatten ↔ ∃ a, paths[i]? = some a ∧ Line a) ∧
      (∀ i j a b, paths[i]? = some a → paths[j]? = some b → Adjacent c (c.dist * 2 : ℚ) a b → lo c.v a + 10 ≤ lo c.v b →
        (i ∈ pass1 ∧ j ∈ pass1 → Before pass1 i j) ∧ (i ∈ pass2 ∧ j ∈ pass2 → Before pass2 i j)) := by
  have hap := linesOf_apart (c := c) ha
  have hn := linesOf_nodup c paths
  have hs := linesOf_sorted c paths
  obtain ⟨rows, h1, h2, h3⟩ := passes_all (c := c) (path := pathsOf paths) (linesOf c paths)
  have hsub : ∀ b, (everyOther b rows).flatten.Sublist (linesOf c paths) := fun b => by rw [h1]; exact everyOther_flatten b rows
  have hp : ∀ b, ((makeOrdered c (pathsOf paths) (c.dist * 2) (everyOther b rows).flatten).map (·.1)).Perm (everyOther b rows).flatten :=
    fun b => ordered_perm hf (hap.subset (hsub b).subset) (hn.sublist (hsub b))
  have hfront : ∀ i, (pathsOf paths i).front = (paths.getD i ⟨[], false⟩).front := by
    intro i
    cases h : paths[i]? with
    | none => simp [pathsOf, List.getD, h]
    | some a => rw [pathsOf_some h, (detectLoop_ends a).1]; simp [List.getD, h]
  refine ⟨rows, (makeOrdered c (pathsOf paths) (c.dist * 2) (everyOther false rows).flatten).map (·.1),
    (makeOrdered c (pathsOf paths) (c.dist * 2) (everyOther true rows).flatten).map (·.1), othersOf paths, ?_, ?_, hp true, hp false, ?_, ?_⟩
  · unfold Rows at h2 ⊢
    simp only [hfront] at h2
    exact h2
  · unfold optimize
    dsimp only
    rw [if_pos htwo]
    have h3' : passes c (fun i => (paths.map detectLoop).getD i ⟨[], false⟩) (sortBy ((List.range (paths.map detectLoop).length).filter
        fun i => ((paths.map detectLoop).getD i ⟨[], false⟩).isLine) fun i j => decide
        (lo c.v ((paths.map detectLoop).getD i ⟨[], false⟩) ≤ lo c.v ((paths.map detectLoop).getD j ⟨[], false⟩))) none =
        ((everyOther true rows).flatten, (everyOther false rows).flatten) := h3
    rw [h3', List.map_append, List.map_append, List.map_map]
    congr 2
    exact List.map_id _
  · intro i
    rw [← h1]
    exact linesOf_mem
  · intro i j a b hi hj hadj hlo
    have hb : ∀ p, i ∈ (makeOrdered c (pathsOf paths) (c.dist * 2) (everyOther p rows).flatten).map (·.1) →
        j ∈ (makeOrdered c (pathsOf paths) (c.dist * 2) (everyOther p rows).flatten).map (·.1) →
        Before ((makeOrdered c (pathsOf paths) (c.dist * 2) (everyOther p rows).flatten).map (·.1)) i j := by
      intro p h1' h2'
      refine ordered_before hf (hap.subset (hsub p).subset) (hn.sublist (hsub p)) (hs.sublist (hsub p)) (by omega) ((hp p).mem_iff.mp h1')
        ((hp p).mem_iff.mp h2') ?_ ?_
      · rw [pathsOf_some hi, pathsOf_some hj]
        push_cast
        exact adjacent_detect.mpr hadj
      · rw [pathsOf_some hi, pathsOf_some hj, lo_detect, lo_detect]
        exact hlo
    exact ⟨fun h => hb true h.1 h.2, fun h => hb false h.1 h.2⟩

end Verif.Monotonic
