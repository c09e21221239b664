import Verif.Tree.Spec

/-! # Lemmas about the radii for which areas are calculated -/

namespace Verif.Tree

/-! ## The loop -/

theorem le_foldl_max (l : List Int) (a : Int) : a ≤ l.foldl max a ∧ ∀ x ∈ l, x ≤ l.foldl max a := by
  induction l generalizing a with
  | nil => simp
  | cons y l ih =>
    have h := ih (max a y)
    refine ⟨le_trans (le_max_left _ _) h.1, fun x hx => ?_⟩
    rcases List.mem_cons.1 hx with rfl | hx
    · exact le_trans (le_max_right _ _) h.1
    · exact h.2 x hx

theorem loop_ge (ig : List Int) (r : Int) (n : Nat) (e : Int) : e ≤ ceilLoop ig r n e := by
  induction n generalizing e with
  | zero => exact le_refl _
  | succ n ih =>
    unfold ceilLoop
    split
    · exact le_trans (le_trans (by omega) (le_max_right _ _)) (ih _)
    · exact le_refl _

/-- The number of rounds suffices. -/
def Enough (ig : List Int) (r : Int) (n : Nat) (e : Int) : Prop := r < e + n ∧ ∀ x ∈ ig, x < e + n

theorem enough_rounds (ig : List Int) (r : Int) : Enough ig r (rounds ig r) 1500 := by
  have h := le_foldl_max ig r
  unfold rounds
  refine ⟨by omega, fun x hx => ?_⟩
  have := h.2 x hx
  omega

theorem enough_next {ig : List Int} {r : Int} {n : Nat} {e : Int} (h : Enough ig r (n + 1) e) :
    Enough ig r n (max (e * 3 / 2) (e + 500)) := by
  have h1 := le_max_right (e * 3 / 2) (e + 500)
  refine ⟨by have := h.1; push_cast at this; omega, fun x hx => ?_⟩
  have := h.2 x hx
  push_cast at this
  omega

theorem enough_zero {ig : List Int} {r e : Int} (h : Enough ig r 0 e) : ¬ (e < r ∨ e ∈ ig) := by
  rintro (h' | h')
  · have := h.1; simp at this; omega
  · have := h.2 e h'; simp at this

theorem loop_ok {ig : List Int} {r : Int} {n : Nat} {e : Int} (h : Enough ig r n e) :
    r ≤ ceilLoop ig r n e ∧ ceilLoop ig r n e ∉ ig := by
  induction n generalizing e with
  | zero =>
    have := enough_zero h
    push Not at this
    exact this
  | succ n ih =>
    unfold ceilLoop
    split
    · exact ih (enough_next h)
    · rename_i hc
      push Not at hc
      exact hc

theorem loop_mono {ig : List Int} {r s : Int} (hrs : r ≤ s) {n k : Nat} {e : Int} (h : Enough ig s k e) :
    ceilLoop ig r n e ≤ ceilLoop ig s k e := by
  induction n generalizing e k with
  | zero => exact loop_ge _ _ _ _
  | succ n ih =>
    rw [ceilLoop]
    split
    · rename_i hc
      cases k with
      | zero =>
        refine absurd ?_ (enough_zero h)
        exact hc.imp_left fun h => lt_of_lt_of_le h hrs
      | succ k =>
        rw [ceilLoop, if_pos (hc.imp_left fun h => lt_of_lt_of_le h hrs)]
        exact ih (enough_next h)
    · exact loop_ge ig s k e

theorem loop_idem {ig : List Int} {r f : Int} {n k : Nat} {e : Int} (h : Enough ig r n e) (hf : ceilLoop ig r n e = f)
    (hk : Enough ig f k e) : ceilLoop ig f k e = f := by
  induction n generalizing e k with
  | zero =>
    subst hf
    unfold ceilLoop at hk ⊢
    cases k with
    | zero => rfl
    | succ k =>
      have := enough_zero h
      push Not at this
      exact if_neg (by push Not; exact ⟨le_refl _, this.2⟩)
  | succ n ih =>
    unfold ceilLoop at hf
    split at hf
    · have h1 := loop_ge ig r n (max (e * 3 / 2) (e + 500))
      have h2 := le_max_right (e * 3 / 2) (e + 500)
      cases k with
      | zero => exact absurd (Or.inl (by omega)) (enough_zero hk)
      | succ k =>
        unfold ceilLoop
        rw [if_pos (Or.inl (by omega))]
        exact ih (enough_next h) hf (enough_next hk)
    · rename_i hc
      push Not at hc
      subst hf
      cases k with
      | zero => rfl
      | succ k =>
        unfold ceilLoop
        exact if_neg (by push Not; exact ⟨le_refl _, hc.2⟩)

/-! ## Rounding up -/

/-- What `ceilRadius` does if nothing overflows. -/
theorem ceil_cases {c : Config} {r q : Int} (h0 : 0 < c.radius0) (h : ceilRadius c r = some q) :
    r = 0 ∧ q = 0 ∨ r ≠ 0 ∧ r ≤ c.radius0 ∧ q = c.radius0 ∨
    c.radius0 < r ∧ c.radius0 ≤ 1500 ∧ r ≤ c.radius0 + (1500 - c.radius0) / 2 ∧ c.radius0 + (1500 - c.radius0) / 2 ∉ c.ignorable ∧
      q = c.radius0 + (1500 - c.radius0) / 2 ∨
    c.radius0 < r ∧ c.radius0 ≤ 1500 ∧ ¬ (r ≤ c.radius0 + (1500 - c.radius0) / 2 ∧ c.radius0 + (1500 - c.radius0) / 2 ∉ c.ignorable) ∧
      q = ceilLoop c.ignorable r (rounds c.ignorable r) 1500 := by
  unfold ceilRadius at h
  split at h
  · left; simp only [Option.some.injEq] at h; exact ⟨‹_›, h.symm⟩
  rename_i hr
  split at h
  · right; left; simp only [Option.some.injEq] at h; exact ⟨hr, ‹_›, h.symm⟩
  rename_i hr0
  dsimp only at h
  split at h
  · cases h
  rename_i hov
  have hle : c.radius0 ≤ 1500 := by
    by_contra hc
    omega
  have hst : (1500 - c.radius0) % 2 ^ 64 = 1500 - c.radius0 := Int.emod_eq_of_lt (by omega) (by omega)
  rw [hst] at h
  right; right
  split at h
  · left; simp only [Option.some.injEq] at h
    rename_i hc
    exact ⟨by omega, hle, hc.1, hc.2, h.symm⟩
  · right; simp only [Option.some.injEq] at h
    exact ⟨by omega, hle, ‹_›, h.symm⟩

theorem ceil_some {c : Config} (r : Int) (h0 : 0 < c.radius0) (h : c.radius0 ≤ 1500) : ∃ q, ceilRadius c r = some q := by
  unfold ceilRadius
  split
  · exact ⟨_, rfl⟩
  split
  · exact ⟨_, rfl⟩
  dsimp only
  have hst : (1500 - c.radius0) % 2 ^ 64 = 1500 - c.radius0 := Int.emod_eq_of_lt (by omega) (by omega)
  rw [hst, if_neg (by omega)]
  split <;> exact ⟨_, rfl⟩

theorem ceil_ge {c : Config} {r q : Int} (h0 : 0 < c.radius0) (h : ceilRadius c r = some q) : r ≤ q := by
  rcases ceil_cases h0 h with ⟨h1, h2⟩ | ⟨h1, h2, h3⟩ | ⟨_, _, h2, _, h3⟩ | ⟨_, _, _, h3⟩
  · omega
  · omega
  · omega
  · rw [h3]; exact (loop_ok (enough_rounds _ _)).1

theorem ceil_nonneg {c : Config} {r q : Int} (h0 : 0 < c.radius0) (h : ceilRadius c r = some q) : 0 ≤ q := by
  rcases ceil_cases h0 h with ⟨h1, h2⟩ | ⟨h1, h2, h3⟩ | ⟨_, _, h2, _, h3⟩ | ⟨_, _, _, h3⟩
  · omega
  · omega
  · omega
  · have := loop_ge c.ignorable r (rounds c.ignorable r) 1500
    omega

theorem ceil_idem {c : Config} {r q : Int} (h0 : 0 < c.radius0) (h : ceilRadius c r = some q) : ceilRadius c q = some q := by
  rcases ceil_cases h0 h with ⟨h1, h2⟩ | ⟨h1, h2, h3⟩ | ⟨h1, hle, h2, hn, h3⟩ | ⟨h1, hle, hn, h3⟩
  · subst h2; rfl
  · subst h3
    unfold ceilRadius
    rw [if_neg (by omega), if_pos (le_refl _)]
  · have hst : (1500 - c.radius0) % 2 ^ 64 = 1500 - c.radius0 := Int.emod_eq_of_lt (by omega) (by omega)
    unfold ceilRadius
    dsimp only
    rw [hst, if_neg (by omega), if_neg (by omega), if_neg (by omega), if_pos ⟨by omega, hn⟩, h3]
  · have hst : (1500 - c.radius0) % 2 ^ 64 = 1500 - c.radius0 := Int.emod_eq_of_lt (by omega) (by omega)
    have hg := loop_ge c.ignorable r (rounds c.ignorable r) 1500
    have hr := (loop_ok (enough_rounds c.ignorable r)).1
    unfold ceilRadius
    dsimp only
    rw [hst, if_neg (by omega), if_neg (by omega), if_neg (by omega)]
    split
    · rename_i hc
      congr 1
      omega
    · congr 1
      exact loop_idem (enough_rounds _ _) h3.symm (enough_rounds _ _)

theorem ceil_mono {c : Config} {r s q t : Int} (h0 : 0 < c.radius0) (hr : 0 < r) (hrs : r ≤ s) (h : ceilRadius c r = some q)
    (ht : ceilRadius c s = some t) : q ≤ t := by
  have hs := ceil_ge h0 ht
  rcases ceil_cases h0 h with ⟨h1, h2⟩ | ⟨h1, h2, h3⟩ | ⟨h1, hle, h2, hn, h3⟩ | ⟨h1, hle, hn, h3⟩ <;>
  rcases ceil_cases h0 ht with ⟨g1, g2⟩ | ⟨g1, g2, g3⟩ | ⟨g1, gle, g2, gn, g3⟩ | ⟨g1, gle, gn, g3⟩
  any_goals omega
  · have := loop_ge c.ignorable s (rounds c.ignorable s) 1500
    omega
  · exact absurd ⟨by omega, gn⟩ hn
  · rw [h3, g3]
    exact loop_mono hrs (enough_rounds _ _)

end Verif.Tree
