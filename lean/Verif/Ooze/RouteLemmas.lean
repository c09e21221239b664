import Verif.Ooze.AmountProps

namespace Verif.Ooze
section
variable {X : Type} {G : Geo X} {speed : ℚ}

theorem elapsed_nil (a : X) : elapsed G speed a [] = 0 := rfl

theorem elapsed_cons (a b : X) (l : List X) : elapsed G speed a (b :: l) = G.len a b / speed + elapsed G speed b l := by
  simp [elapsed]

theorem endOf_cons (a b : X) (l : List X) : endOf a (b :: l) = endOf b l := by
  unfold endOf
  rw [List.getLastD_cons]

theorem endOf_append (a : X) (l m : List X) : endOf a (l ++ m) = endOf (endOf a l) m := by
  induction l generalizing a with
  | nil => rfl
  | cons b l ih => rw [List.cons_append, endOf_cons, endOf_cons, ih]

theorem elapsed_append (a : X) (l m : List X) : elapsed G speed a (l ++ m) = elapsed G speed a l + elapsed G speed (endOf a l) m := by
  induction l generalizing a with
  | nil => simp [elapsed_nil, endOf]
  | cons b l ih => rw [List.cons_append, elapsed_cons, elapsed_cons, endOf_cons, ih]; ring

theorem total_eq (a : X) (l : List X) : total G speed a l = elapsed G speed a l := by
  induction l generalizing a with
  | nil => rfl
  | cons b l ih => rw [elapsed_cons, total, ih]; rfl

theorem elapsed_nonneg (hG : Laws G) (hs : 0 < speed) (a : X) (l : List X) : 0 ≤ elapsed G speed a l := by
  induction l generalizing a with
  | nil => exact le_refl _
  | cons b l ih =>
    rw [elapsed_cons]
    exact add_nonneg (div_nonneg (hG.nonneg a b) hs.le) (ih b)

theorem elapsed_reverse (hG : Laws G) (a b : X) (l : List X) : elapsed G speed a (l ++ [b]) = elapsed G speed b (l.reverse ++ [a]) := by
  induction l generalizing a with
  | nil =>
    rw [List.reverse_nil, List.nil_append, List.nil_append, elapsed_cons, elapsed_cons, hG.symm a b]
    rfl
  | cons c l ih =>
    rw [List.cons_append, elapsed_cons, ih, List.reverse_cons, elapsed_append (l := l.reverse ++ [c])]
    have : endOf b (l.reverse ++ [c]) = c := by simp [endOf]
    rw [this, elapsed_cons, elapsed_nil, hG.symm a c]
    ring

/-- The times at which points are reached. -/
def times (G : Geo X) (speed : ℚ) : ℚ → X → List X → List ℚ
  | _, _, [] => []
  | e, p, q :: l => (e + G.len p q / speed) :: times G speed (e + G.len p q / speed) q l

theorem times_length (e : ℚ) (a : X) (l : List X) : (times G speed e a l).length = l.length := by
  induction l generalizing e a with
  | nil => rfl
  | cons b l ih => simp [times, ih]

theorem times_append (e : ℚ) (a : X) (l m : List X) :
    times G speed e a (l ++ m) = times G speed e a l ++ times G speed (e + elapsed G speed a l) (endOf a l) m := by
  induction l generalizing e a with
  | nil => simp [times, elapsed_nil, endOf]
  | cons b l ih => rw [List.cons_append, times, times, ih, elapsed_cons, endOf_cons, List.cons_append, add_assoc]

theorem sampled_eq (f : ℚ → ℚ) (e : ℚ) (a : X) (l : List X) :
    sampled G speed f e a l = List.zipWith (fun x t => .move x (some t)) l ((times G speed e a l).map f) := by
  induction l generalizing e a with
  | nil => rfl
  | cons b l ih => rw [sampled, times, ih, List.map_cons, List.zipWith_cons_cons]

/-- Where and when the loop splits the travel. -/
theorem splitLoop_spec (hG : Laws G) (hs : 0 < speed) (d z top : ℚ) (e : ℚ) (a : X) (l : List X) (hl : l ≠ [])
    (he : e ≤ d) (hd : d ≤ e + elapsed G speed a l) :
    ∃ m v n s, l = m ++ v :: n ∧
      splitLoop G speed d z top e a l = (G.lerp (endOf a m) v s, (times G speed e a m).map fun τ => z + (top - z) * (τ / d)) ∧
      (m = [] ∨ e + elapsed G speed a m < d - 1 / 1000) ∧ 0 ≤ s ∧ e + elapsed G speed a m ≤ d ∧
      d ≤ e + elapsed G speed a m + G.len (endOf a m) v / speed + 1 / 1000 ∧
      ((1 / 1000 < G.len (endOf a m) v / speed ∧ s * (G.len (endOf a m) v / speed) = d - (e + elapsed G speed a m)) ∨
        (G.len (endOf a m) v / speed ≤ 1 / 1000 ∧ s = 0)) := by
  induction l generalizing e a with
  | nil => exact absurd rfl hl
  | cons b l ih =>
    unfold splitLoop
    dsimp only
    rw [elapsed_cons] at hd
    have ht : 0 ≤ G.len a b / speed := div_nonneg (hG.nonneg a b) hs.le
    by_cases hc : d - 1 / 1000 ≤ e + time G speed a b ∨ l = []
    · rw [if_pos hc]
      have hlast : d ≤ e + G.len a b / speed + 1 / 1000 := by
        rcases hc with hc | hc
        · unfold time at hc
          linarith
        · rw [hc, elapsed_nil] at hd
          linarith
      by_cases h1 : 1 / 1000 < time G speed a b
      · rw [if_pos h1, max_eq_right (by linarith)]
        unfold time at h1 ⊢
        refine ⟨[], b, l, _, rfl, rfl, .inl rfl, ?_, ?_, ?_, .inl ⟨h1, ?_⟩⟩
        · exact div_nonneg (by linarith) ht
        · rw [elapsed_nil]; linarith
        · rw [elapsed_nil]
          show d ≤ e + 0 + G.len a b / speed + 1 / 1000
          linarith
        · rw [elapsed_nil, add_zero]
          show (d - e) / (G.len a b / speed) * (G.len a b / speed) = d - e
          rw [div_mul_cancel₀]
          intro h0
          rw [h0] at h1
          norm_num at h1
      · rw [if_neg h1]
        unfold time at h1
        refine ⟨[], b, l, 0, rfl, ?_, .inl rfl, le_refl _, ?_, ?_, .inr ⟨not_lt.1 h1, rfl⟩⟩
        · rw [hG.zero]
          rfl
        · rw [elapsed_nil]; linarith
        · rw [elapsed_nil]
          show d ≤ e + 0 + G.len a b / speed + 1 / 1000
          linarith
    · rw [if_neg hc]
      push Not at hc
      obtain ⟨hc1, hc2⟩ := hc
      unfold time at hc1 ⊢
      obtain ⟨m, v, n, s, h1, h2, h3, h4, h5, h6, h7⟩ := ih (e + G.len a b / speed) b hc2 (by linarith) (by linarith)
      refine ⟨b :: m, v, n, s, by rw [h1]; rfl, ?_, .inr ?_, h4, ?_, ?_, ?_⟩
      · rw [h2, endOf_cons, times, List.map_cons]
      · rw [elapsed_cons]
        rcases h3 with h3 | h3
        · rw [h3, elapsed_nil]; linarith
        · linarith
      · rw [elapsed_cons]; linarith
      · rw [elapsed_cons, endOf_cons]; linarith
      · rw [elapsed_cons, endOf_cons]
        rcases h7 with ⟨h7, h8⟩ | h7
        · exact .inl ⟨h7, by linarith⟩
        · exact .inr h7

/-- The times of points from the end. -/
theorem times_reverse (hG : Laws G) (e t : ℚ) (u last : X) (m : List X) (h : t = e + elapsed G speed u (m.reverse ++ [last])) :
    times G speed e u (m.reverse ++ [last]) = ((times G speed 0 last m).map (t - ·)).reverse ++ [t] := by
  induction m using List.reverseRecOn generalizing e u with
  | nil =>
    rw [List.reverse_nil, List.nil_append, elapsed_cons, elapsed_nil] at h
    rw [h]
    simp [times]
  | append_singleton m q ih =>
    rw [List.reverse_append, List.reverse_singleton, List.singleton_append, List.cons_append] at h ⊢
    rw [elapsed_cons] at h
    rw [times, ih (e + G.len u q / speed) q (by rw [h]; ring), times_append, List.map_append, List.reverse_append]
    have e1 : times G speed (0 + elapsed G speed last m) (endOf last m) [q] = [elapsed G speed last (m ++ [q])] := by
      rw [elapsed_append, elapsed_cons, elapsed_nil]
      simp [times]
    rw [e1]
    have e2 : t - elapsed G speed last (m ++ [q]) = e + G.len u q / speed := by
      rw [elapsed_reverse hG, h]
      ring
    simp [e2]

end
end Verif.Ooze
