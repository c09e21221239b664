import Verif.BelowSkin.Model
import Mathlib.Tactic.SplitIfs

/-! # Infill below skin: lemmas -/

namespace Verif.BelowSkin

open Spec

open Classical in
/-- How many densities have an area. -/
noncomputable def used (areas : List Region) (n : Nat) : Nat := (List.range n).countP fun d => decide (areas.getD d ∅ ≠ ∅)

open Classical in
/-- Where the infill of a density is printed. -/
noncomputable def where_ (o : Ops) (areas : List Region) (below rest : Region) (d : Nat) : Region := if below ≠ ∅ then o.cleanAgain rest else o.cleanAgain (areas.getD d ∅)

theorem supportAt_append (a b : List Job) (p : P2) : supportAt (a ++ b) p = supportAt a p + supportAt b p := by
  classical
  unfold supportAt; rw [List.countP_append]

theorem infillAt_append (a b : List Job) (d : Nat) (p : P2) : infillAt (a ++ b) d p = infillAt a d p + infillAt b d p := by
  classical
  unfold infillAt; rw [List.countP_append]

open Classical in
theorem density_support (o : Ops) (areas : List Region) (below rest : Region) (d : Nat) (p : P2) :
    supportAt (density o areas below rest d) p = if areas.getD d ∅ ≠ ∅ ∧ p ∈ below then 1 else 0 := by
  unfold density supportAt
  by_cases h1 : areas.getD d ∅ = ∅
  · rw [if_pos h1, if_neg (by tauto)]; rfl
  · rw [if_neg h1]
    by_cases h2 : below ≠ ∅
    · rw [if_pos h2]
      by_cases hp : p ∈ below
      · rw [if_pos ⟨h1, hp⟩]; simp [hp]
      · rw [if_neg (by tauto)]; simp [hp]
    · rw [if_neg h2, if_neg]
      · simp
      · rintro ⟨_, hp⟩
        rw [not_not] at h2
        rw [h2] at hp
        exact hp

open Classical in
theorem density_infill (o : Ops) (areas : List Region) (below rest : Region) (e d : Nat) (p : P2) :
    infillAt (density o areas below rest e) d p = if areas.getD e ∅ ≠ ∅ ∧ e = d ∧ p ∈ where_ o areas below rest e then 1 else 0 := by
  unfold density infillAt where_
  by_cases h1 : areas.getD e ∅ = ∅
  · rw [if_pos h1, if_neg (by tauto)]; rfl
  · rw [if_neg h1]
    by_cases h2 : below ≠ ∅
    · rw [if_pos h2, if_pos h2]
      by_cases hp : e = d ∧ p ∈ o.cleanAgain rest
      · rw [if_pos ⟨h1, hp⟩]; simp [hp]
      · rw [if_neg (by tauto)]; simp [hp]
    · rw [if_neg h2, if_neg h2]
      by_cases hp : e = d ∧ p ∈ o.cleanAgain (areas.getD e ∅)
      · rw [if_pos ⟨h1, hp⟩]; simp only [List.countP_singleton]; rw [if_pos (by simpa using hp)]
      · rw [if_neg (by tauto)]; simp only [List.countP_singleton]; rw [if_neg (by simpa using hp)]

open Classical in
theorem loop_support (o : Ops) (areas : List Region) (below rest : Region) (p : P2) (n : Nat) :
    supportAt (loop o areas below rest n) p = if p ∈ below then used areas n else 0 := by
  induction n with
  | zero => simp [loop, supportAt, used]
  | succ n ih =>
    rw [loop, supportAt_append, density_support, ih]
    unfold used
    rw [List.range_succ, List.countP_append, List.countP_singleton]
    by_cases hp : p ∈ below
    · rw [if_pos hp, if_pos hp]
      by_cases h : areas.getD n ∅ ≠ ∅
      · rw [if_pos ⟨h, hp⟩, if_pos (by simpa using h)]; omega
      · rw [if_neg (by tauto), if_neg (by simpa using h)]; omega
    · rw [if_neg hp, if_neg hp, if_neg (by tauto)]

open Classical in
theorem loop_infill (o : Ops) (areas : List Region) (below rest : Region) (d : Nat) (p : P2) (n : Nat) :
    infillAt (loop o areas below rest n) d p = if d < n ∧ areas.getD d ∅ ≠ ∅ ∧ p ∈ where_ o areas below rest d then 1 else 0 := by
  induction n with
  | zero => simp [loop, infillAt]
  | succ n ih =>
    rw [loop, infillAt_append, density_infill, ih]
    by_cases hd : n = d
    · subst hd
      rw [if_neg (show ¬ (n < n ∧ _) by omega)]
      by_cases h : areas.getD n ∅ ≠ ∅ ∧ p ∈ where_ o areas below rest n
      · rw [if_pos ⟨h.1, rfl, h.2⟩, if_pos ⟨by omega, h⟩]
      · rw [if_neg (by tauto), if_neg (by tauto)]
    · rw [if_neg (show ¬ (areas.getD n ∅ ≠ ∅ ∧ n = d ∧ p ∈ where_ o areas below rest n) by tauto)]
      by_cases h : d < n ∧ areas.getD d ∅ ≠ ∅ ∧ p ∈ where_ o areas below rest d
      · rw [if_pos h, if_pos ⟨by omega, h.2⟩]
      · rw [if_neg h, if_neg]
        rintro ⟨a, b⟩
        exact h ⟨by omega, b⟩

end Verif.BelowSkin
