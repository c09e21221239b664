import Verif.BelowSkin.Lemmas

/-! # C127: infill below skin -/

namespace Verif.BelowSkin

open Spec

/-- **C127 (no skin above).** If no infill is below skin, each point gets the infill of the densities that it is in, each once. Points of areas that are removed for being small are left out. -/
theorem C127_plain (o : Ops) (on : Bool) (layer : Nat) (above under : Region) (areas : List Region) (p : P2)
    (hnone : (partition o on layer above under (areas.getLastD ∅)).1 = ∅) (hsub : ∀ r, o.cleanAgain r ⊆ r) (hkeep : ∀ r, p ∈ r → p ∈ o.cleanAgain r) :
    Filled areas (jobs o on layer above under areas) p := by
  classical
  unfold jobs Filled
  dsimp only
  refine ⟨?_, ?_⟩
  · rw [loop_support, hnone, if_neg (by simp)]
  · intro d
    rw [loop_infill, hnone]
    have hw : ∀ rest, where_ o areas ∅ rest d = o.cleanAgain (areas.getD d ∅) := fun rest => by unfold where_; rw [if_neg (by simp)]
    rw [hw]
    constructor
    · intro hp
      rw [if_pos]
      refine ⟨?_, Set.nonempty_iff_ne_empty.1 ⟨p, hp⟩, hkeep _ hp⟩
      by_contra hd
      rw [List.getD_eq_getElem?_getD, List.getElem?_eq_none (by omega)] at hp
      exact hp
    · intro hp
      rw [if_neg]
      rintro ⟨_, _, h⟩
      exact hp (hsub _ h)

/-- **C127 (one density).** Without gradual infill, each point below skin gets the lines that support it, once, and no infill; each other point the infill, once. -/
theorem C127_one (o : Ops) (on : Bool) (layer : Nat) (above under area : Region) (p : P2) (hne : area ≠ ∅)
    (hsub : ∀ r, o.cleanAgain r ⊆ r ∧ o.clean r ⊆ r) (hkeep : ∀ r, p ∈ r → p ∈ o.cleanAgain r ∧ p ∈ o.clean r) (hfill : o.fill (o.opening ((above \ under) ∩ area)) ⊆ o.bridge (o.fill (o.opening ((above \ under) ∩ area)))) :
    (p ∈ (partition o on layer above under area).1 → Supported (jobs o on layer above under [area]) p) ∧
    (p ∉ (partition o on layer above under area).1 → Filled [area] (jobs o on layer above under [area]) p) := by
  classical
  have hused : used [area] 1 = 1 := by unfold used; simp [List.range_succ, hne]
  by_cases hnone : (partition o on layer above under area).1 = ∅
  · refine ⟨fun h => by rw [hnone] at h; exact absurd h (by simp), fun _ => ?_⟩
    exact C127_plain o on layer above under [area] p hnone (fun r => (hsub r).1) (fun r h => (hkeep r h).1)
  · have hpart : ∃ b, (partition o on layer above under area) = (o.bridge b, o.clean (area \ b) \ o.bridge b) ∧ b ⊆ o.bridge b := by
      unfold partition at hnone ⊢
      split_ifs at hnone ⊢ with h1
      · dsimp only at hnone ⊢
        by_cases hb : o.fill (o.opening ((above \ under) ∩ area)) ≠ ∅
        · rw [if_pos hb]; exact ⟨_, rfl, hfill⟩
        · rw [if_neg hb] at hnone; exact absurd rfl hnone
      · exact absurd rfl hnone
    obtain ⟨b, hb, hbb⟩ := hpart
    have hj : jobs o on layer above under [area] = loop o [area] (o.bridge b) (o.clean (area \ b) \ o.bridge b) 1 := by
      unfold jobs
      rw [show ([area] : List Region).getLastD ∅ = area from rfl, hb]
      rfl
    rw [hb] at hnone ⊢
    have hw : ∀ d, where_ o [area] (o.bridge b) (o.clean (area \ b) \ o.bridge b) d = o.cleanAgain (o.clean (area \ b) \ o.bridge b) := fun d => by unfold where_; rw [if_pos hnone]
    constructor
    · intro hp
      rw [hj]
      refine ⟨by rw [loop_support, if_pos hp, hused], fun d => ?_⟩
      rw [loop_infill, hw, if_neg]
      rintro ⟨_, _, h⟩
      exact ((hsub _).1 h).2 hp
    · intro hp
      rw [hj]
      refine ⟨by rw [loop_support, if_neg hp], fun d => ?_⟩
      rw [loop_infill, hw]
      constructor
      · intro h
        cases d with
        | zero =>
          rw [if_pos]
          have ha : p ∈ area := by simpa using h
          have h1 : p ∈ o.clean (area \ b) := (hkeep (area \ b) ⟨ha, fun hx => hp (hbb hx)⟩).2
          have h2 : p ∈ o.clean (area \ b) \ o.bridge b := ⟨h1, hp⟩
          exact ⟨by omega, by simpa using hne, (hkeep _ h2).1⟩
        | succ d => simp at h
      · intro h
        rw [if_neg]
        rintro ⟨h1, _, h3⟩
        have : d = 0 := by omega
        subst this
        exact h (by simpa using ((hsub _).2 ((hsub _).1 h3).1).1)

/-- **C127 does not hold with gradual infill (support).** The lines that support the skin are printed again for each density. -/
theorem C127_again_counterexample (o : Ops) (on : Bool) (layer : Nat) (above under a b : Region) (ha : a ≠ ∅) (hb : b ≠ ∅) (p : P2) (hp : p ∈ (partition o on layer above under b).1) :
    supportAt (jobs o on layer above under [a, b]) p = 2 := by
  classical
  unfold jobs
  dsimp only
  rw [show ([a, b] : List Region).getLastD ∅ = b from rfl, loop_support, if_pos hp]
  unfold used
  simp [List.range_succ, ha, hb]

/-- **C127 does not hold with gradual infill (density).** If there is skin above somewhere, the denser infill is printed everywhere else, also where it is not wanted. -/
theorem C127_dense_counterexample (o : Ops) (on : Bool) (layer : Nat) (above under a b : Region) (ha : a ≠ ∅) (hs : (partition o on layer above under b).1 ≠ ∅) (p : P2)
    (hp : p ∈ o.cleanAgain (partition o on layer above under b).2) : infillAt (jobs o on layer above under [a, b]) 0 p = 1 := by
  classical
  unfold jobs
  dsimp only
  rw [show ([a, b] : List Region).getLastD ∅ = b from rfl, loop_infill, if_pos]
  refine ⟨by simp, by simpa using ha, ?_⟩
  unfold where_
  rw [if_pos hs]
  exact hp

/-- **C127 does not hold with gradual infill of connected lines.** Then the denser area is not part of the last one, and it gets nothing at all as soon as there is skin above elsewhere. -/
theorem C127_lost_counterexample (o : Ops) (on : Bool) (layer : Nat) (above under a b : Region) (hs : (partition o on layer above under b).1 ≠ ∅) (p : P2)
    (hsub : ∀ r, o.cleanAgain r ⊆ r ∧ o.clean r ⊆ r) (hb : p ∉ b) (hp : p ∉ (partition o on layer above under b).1) :
    supportAt (jobs o on layer above under [a, b]) p = 0 ∧ ∀ d, infillAt (jobs o on layer above under [a, b]) d p = 0 := by
  classical
  unfold jobs
  dsimp only
  rw [show ([a, b] : List Region).getLastD ∅ = b from rfl]
  refine ⟨by rw [loop_support, if_neg hp], fun d => ?_⟩
  rw [loop_infill, if_neg]
  rintro ⟨_, _, h⟩
  unfold where_ at h
  rw [if_pos hs] at h
  have h2 := (hsub _).1 h
  unfold partition at h2
  split_ifs at h2 with h1
  · dsimp only at h2
    split_ifs at h2 with h3
    · exact hb ((hsub _).2 h2.1).1
    · exact hb ((hsub _).2 h2).1
  · exact h2

end Verif.BelowSkin
