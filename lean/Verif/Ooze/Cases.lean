import Verif.Ooze.Props

/-! # Cases that meet the hypotheses of the theorems on travels with retraction -/

namespace Verif.Ooze

theorem line_laws : Laws line where
  nonneg a b := by
    show 0 ≤ if a ≤ b then b - a else a - b
    split <;> linarith
  symm a b := by
    show (if a ≤ b then b - a else a - b) = if b ≤ a then a - b else b - a
    split <;> split <;> linarith
  zero a b := by
    show a + (b - a) * 0 = a
    ring

theorem some_valid : Valid ⟨4, 40, 1 / 2⟩ := ⟨by norm_num, by norm_num, by norm_num, by norm_num⟩

/-- Half of the retraction before the travel, half of it during its first 5 mm, and the same for priming. -/
example : write line 100 ⟨4, 40, 1 / 2⟩ ⟨4, 40, 1 / 2⟩ false false 0 0 [3, 7, 20] =
    some [.move 3 (some 3.2), .move 5 (some 4), .move 7 none, .move 15 none, .move 20 (some 2)] := by decide +kernel

/-- The hypotheses of `C101_exact_partial`. -/
theorem split3 {l r : List ℚ} {a b c : ℚ} (h : [a, b, c] = l ++ r) : (l, r) ∈ [([], [a, b, c]), ([a], [b, c]), ([a, b], [c]), ([a, b, c], [])] := by
  rcases l with _ | ⟨x, _ | ⟨y, _ | ⟨z, _ | ⟨w, l⟩⟩⟩⟩ <;> simp at h <;> simp [h]

theorem some_clear : ClearStart line 100 0 [3, 7, 20] (1 / 20) ∧ ClearEnd line 100 0 [3, 7, 20] (1 / 20) := by
  constructor
  · intro l r h
    have := split3 h
    simp only [List.mem_cons, List.not_mem_nil, or_false, Prod.mk.injEq] at this
    rcases this with ⟨rfl, rfl⟩ | ⟨rfl, rfl⟩ | ⟨rfl, rfl⟩ | ⟨rfl, rfl⟩ <;> decide +kernel
  · intro l r h
    have := split3 h
    simp only [List.mem_cons, List.not_mem_nil, or_false, Prod.mk.injEq] at this
    rcases this with ⟨rfl, rfl⟩ | ⟨rfl, rfl⟩ | ⟨rfl, rfl⟩ | ⟨rfl, rfl⟩ <;> decide +kernel

example : ∃ out a b c u v s t, write line 100 ⟨4, 40, 1 / 2⟩ ⟨4, 40, 1 / 2⟩ false false 0 0 [3, 7, 20] = some out ∧
    Written line 100 0 0 [3, 7, 20] (1 / 20) (1 / 20) 2 4 2 out a b c u v s t := by
  have e : amounts (elapsed line 100 0 [3, 7, 20]) 0 ⟨4, 40, 1 / 2⟩ ⟨4, 40, 1 / 2⟩ false = (⟨2, 2, 4, 2, 40⟩, ⟨2, 2, 4, 2, 40⟩) := by
    have h1 : (amounts (elapsed line 100 0 [3, 7, 20]) 0 ⟨4, 40, 1 / 2⟩ ⟨4, 40, 1 / 2⟩ false).1 = ⟨2, 2, 4, 2, 40⟩ := by
      have : elapsed line 100 0 [3, 7, 20] = 1 / 5 := by decide +kernel
      rw [this]
      norm_num [amounts, Half.duration, Half.during, Half.hop, Half.still]
    have h2 : (amounts (elapsed line 100 0 [3, 7, 20]) 0 ⟨4, 40, 1 / 2⟩ ⟨4, 40, 1 / 2⟩ false).2 = ⟨2, 2, 4, 2, 40⟩ := by
      have : elapsed line 100 0 [3, 7, 20] = 1 / 5 := by decide +kernel
      rw [this]
      norm_num [amounts, Half.duration, Half.during, Half.hop, Half.still]
    exact Prod.ext h1 h2
  have d : (⟨2, 2, 4, 2, 40⟩ : Amounts).duration = 1 / 20 := by norm_num [Amounts.duration]
  have h := C101_exact_partial line 100 line_laws (by norm_num) ⟨4, 40, 1 / 2⟩ ⟨4, 40, 1 / 2⟩ some_valid some_valid false 0 (le_refl _) 0 [3, 7, 20] (by simp)
  rw [e] at h
  dsimp only at h
  rw [d] at h
  have := h some_clear.1 some_clear.2 (by norm_num)
  norm_num at this ⊢
  exact this

/-- C102: a travel of 0.06 seconds that would have to take 0.1; retraction and priming are shortened. -/
example : let a := amounts (6 / 100) 0 ⟨4, 40, 1 / 2⟩ ⟨4, 40, 1 / 2⟩ true
    a.1.travel = 16 / 5 ∧ a.1.still = 2 ∧ a.1.duration = 3 / 100 ∧ a.2.travel = 16 / 5 := by decide +kernel

example : let a := amounts (6 / 100) 0 ⟨4, 40, 1 / 4⟩ ⟨4, 20, 1 / 2⟩ true
    a.1.still = 62 / 25 ∧ a.1.travel = 74 / 25 ∧ a.2.travel = a.1.travel := by decide +kernel

/-- A z-hop takes some of the retraction; what is left is stretched over the whole travel. -/
example : let a := amounts 1 (1 / 50) ⟨4, 40, 1 / 2⟩ ⟨4, 40, 0⟩ true
    a.1.still = 2 ∧ a.1.zHop = 14 / 5 ∧ a.1.travel = 4 ∧ a.1.duration = 1 := by decide +kernel

end Verif.Ooze
