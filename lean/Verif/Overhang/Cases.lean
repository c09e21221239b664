import Verif.Overhang.Props
import Mathlib.Tactic.IntervalCases

/-! # Slowing down over overhangs: cases -/

namespace Verif.Overhang

open Spec

/-- A line through two regions and what is beyond. -/
def three : List Reg := [⟨fun t => decide (t < 1 / 4), [1 / 4], 1⟩, ⟨fun t => decide (t < 1 / 2), [1 / 2], 3 / 4⟩, ⟨fun _ => false, [], 1 / 4⟩]

example : add (some ⟨0, 0, 200⟩) ⟨1000, 0, 200⟩ 1 three
    = some [⟨1 / 4, ⟨250, 0, 200⟩, 1⟩, ⟨1 / 2, ⟨500, 0, 200⟩, 3 / 4⟩, ⟨1, ⟨1000, 0, 200⟩, 1 / 4⟩] := by decide +kernel

theorem faithful_half (c s : ℚ) (h0 : 0 < c) (h1 : c < 1) : Faithful ⟨fun t => decide (t < c), [c], s⟩ := by
  refine ⟨by simpa using ⟨h0, h1⟩, ?_, ?_⟩
  · intro a t _ hat _ hc
    have := hc c (by simp)
    by_cases h : t < c
    · have : a < c := by linarith
      simp [h, this]
    · have : ¬ a < c := fun h' => this ⟨le_of_lt h', not_lt.1 h⟩
      simp [h, this]
  · intro d hd a t _ had hdt _ _
    have : d = c := by simpa using hd
    subst this
    simp [had, not_lt.2 (le_of_lt hdt)]

/-- The regions are as they should be. -/
theorem three_regions : Regions three := by
  refine ⟨by simp [three], ?_, ?_, ?_⟩
  · intro i r hi hr
    have hi' : i < 2 := by have h3 : three.length = 3 := rfl; omega
    interval_cases i
    · have : r = ⟨fun t => decide (t < 1 / 4), [1 / 4], 1⟩ := by simpa [three] using hr.symm
      rw [this]; exact faithful_half _ _ (by norm_num) (by norm_num)
    · have : r = ⟨fun t => decide (t < 1 / 2), [1 / 2], 3 / 4⟩ := by simpa [three] using hr.symm
      rw [this]; exact faithful_half _ _ (by norm_num) (by norm_num)
  · intro i r s hi hr hs t _ _ ht
    have hi' : i < 1 := by have h3 : three.length = 3 := rfl; omega
    interval_cases i
    have h1 : r = ⟨fun t => decide (t < 1 / 4), [1 / 4], 1⟩ := by simpa [three] using hr.symm
    have h2 : s = ⟨fun t => decide (t < 1 / 2), [1 / 2], 3 / 4⟩ := by simpa [three] using hs.symm
    rw [h1] at ht
    rw [h2]
    have : t < 1 / 4 := by simpa using ht
    simp only [decide_eq_true_eq]
    linarith
  · intro i r s hi hr hs c hc
    have hi' : i < 1 := by have h3 : three.length = 3 := rfl; omega
    interval_cases i
    have h1 : r = ⟨fun t => decide (t < 1 / 4), [1 / 4], 1⟩ := by simpa [three] using hr.symm
    have h2 : s = ⟨fun t => decide (t < 1 / 2), [1 / 2], 3 / 4⟩ := by simpa [three] using hs.symm
    rw [h1] at hc
    rw [h2]
    have hc' : c = 1 / 4 := by simpa using hc
    rw [hc']
    norm_num

example : Clear three (1 / 4) (1 / 2) := by
  intro i r hi hr c hc
  have hi' : i < 2 := by have h3 : three.length = 3 := rfl; omega
  interval_cases i
  · have h1 : r = ⟨fun t => decide (t < 1 / 4), [1 / 4], 1⟩ := by simpa [three] using hr.symm
    rw [h1] at hc
    have hc' : c = 1 / 4 := by simpa using hc
    rw [hc']; norm_num
  · have h1 : r = ⟨fun t => decide (t < 1 / 2), [1 / 2], 3 / 4⟩ := by simpa [three] using hr.symm
    rw [h1] at hc
    have hc' : c = 1 / 2 := by simpa using hc
    rw [hc']; norm_num

example : dist2 (along ⟨0, 0, 200⟩ ⟨1000, 0, 200⟩ (1 / 2)) (along ⟨0, 0, 200⟩ ⟨1000, 0, 200⟩ (1 / 4)) ≥ 25 := by decide +kernel

/-- A short piece is left out. -/
example : add (some ⟨0, 0, 0⟩) ⟨1000, 0, 0⟩ 1 [⟨fun t => decide (t < 1 / 4), [1 / 4], 1⟩, ⟨fun t => decide (t < 253 / 1000), [253 / 1000], 3 / 4⟩, ⟨fun _ => false, [], 1 / 4⟩]
    = some [⟨1 / 4, ⟨250, 0, 0⟩, 1⟩, ⟨1, ⟨1000, 0, 0⟩, 1 / 4⟩] := by decide +kernel

/-- The regions for some angles: equal speeds are merged. -/
example : regionAngles 30 [3 / 4, 1 / 2, 1 / 2] = [(30, 1), (50, 3 / 4), (90, 1 / 2)] := by decide +kernel

/-- A point that is supported from 60 degrees on. -/
example : ∃ supported : ℚ → Prop, (∀ a b, a ≤ b → b < 90 → supported a → supported b) ∧ (∀ a, 90 ≤ a → ¬ supported a) ∧ supported 60 ∧ ¬ supported 50 :=
  ⟨fun a => 60 ≤ a ∧ a < 90, fun a b h1 h2 h3 => ⟨by linarith [h3.1], h2⟩, fun a h1 h2 => absurd h2.2 (not_lt.2 h1), by norm_num, by norm_num⟩

/-- Two overhangs. -/
example : measured [(100, true), (200, true), (50, false), (250, true), (10, false)] = 300 := by decide

example : measured [(100, true), (50, false), (250, true)] = 100 := by decide

end Verif.Overhang
