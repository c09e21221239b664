import Verif.SkinLine.Lemmas

/-! # Walls at top and bottom surfaces: the properties -/

namespace Verif.SkinLine

open Spec

/-- Each place of the line is printed with the settings of the surface exactly if it is in the surface, unless it is in a piece of at most 5 micrometres between two borders. -/
theorem C130_settings (z0 z1 : Int) (len : ℚ) (travel : Bool) (segs : List (ℚ × ℚ)) (hl : 0 < len) (h : Parts len segs) (t s e : ℚ)
    (hs : 0 ≤ s) (hst : s < t) (hte : t < e) (he : e ≤ len) (hclear : Clear segs s e) (hlong : e - s > 5) :
    ∃ b, skinAt (add z0 z1 len travel segs) t = some b ∧ (b = true ↔ ∃ g ∈ segs, Within g t) := by
  obtain ⟨h1, h2, h3, h4⟩ := stops_spec hl h
  have hc : ∀ x ∈ stops len (points segs), ¬ (s < x ∧ x < e) := by
    intro x hx hxx
    rcases (h3 x hx).2.2 with hx' | hx'
    · rw [hx'] at hxx; linarith [hxx.2]
    · obtain ⟨g, hg, hxg⟩ := List.mem_flatMap.1 hx'
      simp only [List.mem_cons, List.not_mem_nil, or_false] at hxg
      rcases hxg with hxg | hxg
      · rw [hxg] at hxx; exact (hclear g hg).1 hxx
      · rw [hxg] at hxx; exact (hclear g hg).2 hxx
  refine ⟨_, run_skinAt z0 z1 len _ t s e hst hte he hlong h1 hc h2 0 _ travel hs, ?_⟩
  rw [h4 t (by linarith) (by linarith)]
  apply odd_within segs t h.apart
  intro hm
  obtain ⟨g, hg, hxg⟩ := List.mem_flatMap.1 hm
  simp only [List.mem_cons, List.not_mem_nil, or_false] at hxg
  rcases hxg with hxg | hxg
  · exact (hclear g hg).1 (by rw [← hxg]; exact ⟨hst, hte⟩)
  · exact (hclear g hg).2 (by rw [← hxg]; exact ⟨hst, hte⟩)

/-- The moves follow the line from its begin to its end, each one further than the one before, at the height of the line (up to half a micrometre); the last one ends exactly at the end of it. Only the first one may be preceded by a change of height. -/
theorem C130_route (z0 z1 : Int) (len : ℚ) (travel : Bool) (segs : List (ℚ × ℚ)) (hl : 0 < len) (h : Parts len segs) :
    (add z0 z1 len travel segs).Pairwise (fun m n => m.place < n.place)
    ∧ (∀ m ∈ add z0 z1 len travel segs, 0 < m.place ∧ m.place ≤ len ∧ |(m.z : ℚ) - (z0 + (z1 - z0) * (m.place / len))| ≤ 1 / 2)
    ∧ (∃ m, (add z0 z1 len travel segs).getLast? = some m ∧ m.place = len ∧ m.z = z1)
    ∧ (∀ m ∈ (add z0 z1 len travel segs).tail, m.travelToZ = false)
    ∧ ∀ m, (add z0 z1 len travel segs).head? = some m → m.travelToZ = travel := by
  obtain ⟨h1, h2, h3, h4⟩ := stops_spec hl h
  unfold add
  refine ⟨run_sorted z0 z1 len _ h1 _ _ _, ?_, ?_, (run_travel z0 z1 len _ _ _ _).1, (run_travel z0 z1 len _ _ _ _).2⟩
  · intro m hm
    obtain ⟨g1, g2⟩ := run_mem z0 z1 len _ _ _ _ m hm
    refine ⟨(h3 _ g1).1, (h3 _ g1).2.1, ?_⟩
    rw [g2]
    unfold height
    by_cases hz : z1 - z0 ≠ 0
    · rw [if_pos hz]
      have a1 := Int.floor_le (((z1 - z0 : Int) : ℚ) * (m.place / len) + 1 / 2)
      have a2 := Int.lt_floor_add_one (((z1 - z0 : Int) : ℚ) * (m.place / len) + 1 / 2)
      push_cast at a1 a2 ⊢
      rw [abs_le]
      constructor <;> linarith
    · rw [if_neg hz]
      have : z1 = z0 := by omega
      rw [this]
      norm_num
  · obtain ⟨l, m, g1, g2⟩ := run_last z0 z1 len _ h1 (fun x hx => (h3 x hx).2.1) h2 0 (startsInside (points segs)) travel
    refine ⟨m, by rw [g1]; simp, g2, ?_⟩
    have g3 := (run_mem z0 z1 len _ _ _ _ m (by rw [g1]; simp)).2
    rw [g3, g2]
    unfold height
    by_cases hz : z1 - z0 ≠ 0
    · rw [if_pos hz, div_self (ne_of_gt hl), mul_one]
      have : ⌊((z1 - z0 : Int) : ℚ) + 1 / 2⌋ = z1 - z0 := by
        rw [Int.floor_eq_iff]
        constructor <;> linarith
      rw [this]
      omega
    · rw [if_neg hz]
      omega

/-- If two parts touch each other, the settings are exchanged after it. -/
theorem C130_touch_counterexample : ¬ ∀ (len : ℚ) (segs : List (ℚ × ℚ)) (t : ℚ), (∀ g ∈ segs, 0 ≤ g.1 ∧ g.1 < g.2 ∧ g.2 ≤ len) → (∀ g ∈ segs, t + 10 < g.1 ∨ g.2 < t - 10 ∨ (g.1 < t - 10 ∧ t + 10 < g.2)) → 0 < t → t < len →
    ∃ b, skinAt (add 0 0 len false segs) t = some b ∧ (b = true ↔ ∃ g ∈ segs, Within g t) := by
  intro h
  obtain ⟨b, h1, h2⟩ := h 1000 [(100, 200), (200, 300)] 250 (by simp; norm_num) (by simp; norm_num) (by norm_num) (by norm_num)
  have h3 : skinAt (add 0 0 1000 false [(100, 200), (200, 300)]) 250 = some false := by decide +kernel
  rw [h3] at h1
  cases h1
  exact absurd (h2.2 ⟨(200, 300), by simp, Or.inl (by norm_num)⟩) (by simp)

end Verif.SkinLine
