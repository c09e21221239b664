import Verif.SkinLine.Props

/-! # Walls at top and bottom surfaces: cases -/

namespace Verif.SkinLine

open Spec

/-- A line with two parts in the surface, one from its begin. -/
example : add 200 300 1000 true [(0, 250), (750, 500)]
    = [⟨250, 225, true, true⟩, ⟨500, 250, false, false⟩, ⟨750, 275, true, false⟩, ⟨1000, 300, false, false⟩] := by decide +kernel

/-- It meets the conditions. -/
example : Parts 1000 [(0, 250), (750, 500)] := by
  refine ⟨by simp; norm_num, ?_, by simp⟩
  simp only [List.pairwise_cons, List.mem_cons, List.not_mem_nil, or_false, forall_eq, false_imp_iff, implies_true, List.Pairwise.nil, and_true]
  intro t ⟨h1, h2⟩
  unfold Within at h1 h2
  rcases h1 with h1 | h1 <;> rcases h2 with h2 | h2 <;> linarith [h1.1, h1.2, h2.1, h2.2]

example : Clear [(0, 250), (750, 500)] (250 : ℚ) 500 := by
  intro g hg
  simp only [List.mem_cons, List.not_mem_nil, or_false] at hg
  rcases hg with hg | hg <;> rw [hg] <;> norm_num

/-- Not in the surface at all, and wholly in it. -/
example : add 0 0 1000 false [] = [⟨1000, 0, false, false⟩] := by decide +kernel

example : add 0 0 1000 false [(1000, 0)] = [⟨1000, 0, true, false⟩] := by decide +kernel

/-- A short piece. -/
example : add 0 0 1000 false [(500, 503)] = [⟨500, 0, false, false⟩, ⟨1000, 0, false, false⟩] := by decide +kernel

end Verif.SkinLine
