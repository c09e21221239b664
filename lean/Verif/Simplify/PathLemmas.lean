import Verif.Simplify.Spec
import Mathlib.Data.List.Nodup
import Mathlib.Tactic.IntervalCases
import Mathlib.Tactic.Ring
import Mathlib.Tactic.Zify

/-! # What a step keeps -/

namespace Verif.Simplify
open Relation
section
variable {V : Type} {P : Params V} {closed : Bool}

theorem replace_labels (path : Path V) (i : Nat) (v : V) : (replace path i v).map (·.1) = path.map (·.1) := by
  unfold replace
  rw [List.map_map]
  apply List.map_congr_left
  intro w _
  simp only [Function.comp]
  split
  · rename_i h; exact h.symm
  · rfl

theorem split_labels (l r : Path V) (v : Nat × V) : ((l ++ r).map (·.1)).Sublist ((l ++ v :: r).map (·.1)) := by
  apply List.Sublist.map
  exact (List.sublist_cons_self v r).append_left l

theorem step_labels {p q : Path V} (h : Step P closed p q) : (q.map (·.1)).Sublist (p.map (·.1)) ∧ q.length + 1 = p.length := by
  cases h with
  | drop h => rw [h.eq]; exact ⟨split_labels _ _ _, by simp; omega⟩
  | back h => rw [h.eq, replace_labels]; exact ⟨split_labels _ _ _, by unfold replace; simp; omega⟩
  | forth h => rw [h.eq, replace_labels]; exact ⟨split_labels _ _ _, by unfold replace; simp; omega⟩

theorem steps_labels {p q : Path V} (h : ReflTransGen (Step P closed) p q) : (q.map (·.1)).Sublist (p.map (·.1)) := by
  induction h with
  | refl => exact List.Sublist.refl _
  | tail _ h ih => exact (step_labels h).1.trans ih

theorem replace_head {a : Nat × V} {l : Path V} {i : Nat} {v : V} (h : a.1 ≠ i) : (replace (a :: l) i v).head? = some a := by
  simp [replace, h]

theorem replace_last {a : Nat × V} {l : Path V} {i : Nat} {v : V} (h : a.1 ≠ i) : (replace (l ++ [a]) i v).getLast? = some a := by
  simp [replace, h]

theorem exists_concat {α : Type} {l : List α} (h : l ≠ []) : ∃ m b, l = m ++ [b] := by
  rcases List.eq_nil_or_concat l with rfl | ⟨m, b, rfl⟩
  · exact absurd rfl h
  · exact ⟨m, b, List.concat_eq_append ..⟩

theorem step_ends {p q : Path V} (hn : (p.map (·.1)).Nodup) (h : Step P false p q) : q.head? = p.head? ∧ q.getLast? = p.getLast? := by
  cases h with
  | @drop l v r h hu hs =>
    obtain ⟨hl, hr⟩ := h.inner rfl
    obtain ⟨a, l', rfl⟩ := List.exists_cons_of_ne_nil hl
    obtain ⟨r', b, rfl⟩ := exists_concat hr
    rw [h.eq, ← List.append_assoc, ← List.cons_append, ← List.append_assoc, List.getLast?_concat, List.getLast?_concat]
    exact ⟨rfl, rfl⟩
  | @back l v r x h hu hb ha hend hx hd =>
    obtain ⟨hl, hr⟩ := h.inner rfl
    obtain ⟨a, l', rfl⟩ := List.exists_cons_of_ne_nil hl
    obtain ⟨m, c, e⟩ := exists_concat (hend rfl)
    rw [List.tail_cons] at e
    subst e
    obtain ⟨r', b, rfl⟩ := exists_concat hr
    have hc : prevOf (a :: (m ++ [c])) v (r' ++ [b]) = c := by
      unfold prevOf
      rw [← List.cons_append, ← List.append_assoc, List.getLastD_eq_getLast?, List.getLast?_concat, Option.getD_some]
    rw [h.eq] at hn ⊢
    simp only [List.map_cons, List.map_append, List.map_nil, List.cons_append, List.append_assoc, List.nil_append] at hn
    rw [hc]
    have h1 : a.1 ≠ c.1 := by
      intro e
      exact (List.nodup_cons.mp hn).1 (by simp [e])
    have h2 : b.1 ≠ c.1 := by
      have hn2 := (List.nodup_cons.mp hn).2
      rw [List.nodup_append] at hn2
      intro e
      exact (List.nodup_cons.mp hn2.2.1).1 (by simp [e])
    refine ⟨by rw [List.cons_append, replace_head h1]; rfl, ?_⟩
    rw [show a :: (m ++ [c]) ++ (r' ++ [b]) = (a :: (m ++ [c]) ++ r') ++ [b] by simp, replace_last h2,
      show a :: (m ++ [c]) ++ v :: (r' ++ [b]) = (a :: (m ++ [c]) ++ v :: r') ++ [b] by simp, List.getLast?_concat]
  | @forth l v r x h hu hb ha hend hx hd =>
    obtain ⟨hl, hr⟩ := h.inner rfl
    obtain ⟨a, l', rfl⟩ := List.exists_cons_of_ne_nil hl
    obtain ⟨c, r', rfl⟩ := List.exists_cons_of_ne_nil hr
    obtain ⟨m, b, e⟩ := exists_concat (hend rfl)
    rw [List.tail_cons] at e
    subst e
    have hc : nextOf (a :: l') v (c :: (m ++ [b])) = c := rfl
    rw [h.eq] at hn ⊢
    simp only [List.map_cons, List.map_append, List.map_nil, List.cons_append, List.append_assoc, List.nil_append] at hn
    rw [hc]
    have h1 : a.1 ≠ c.1 := by
      intro e
      exact (List.nodup_cons.mp hn).1 (by simp [e])
    have h2 : b.1 ≠ c.1 := by
      have hn2 := (List.nodup_cons.mp hn).2
      rw [List.nodup_append] at hn2
      intro e
      exact (List.nodup_cons.mp (List.nodup_cons.mp hn2.2.1).2).1 (by simp [e])
    refine ⟨by rw [List.cons_append, replace_head h1]; rfl, ?_⟩
    rw [show a :: l' ++ c :: (m ++ [b]) = (a :: l' ++ c :: m) ++ [b] by simp, replace_last h2,
      show a :: l' ++ v :: c :: (m ++ [b]) = (a :: l' ++ v :: c :: m) ++ [b] by simp, List.getLast?_concat]

theorem steps_ends {p q : Path V} (hn : (p.map (·.1)).Nodup) (h : ReflTransGen (Step P false) p q) : q.head? = p.head? ∧ q.getLast? = p.getLast? := by
  induction h with
  | refl => exact ⟨rfl, rfl⟩
  | tail h1 h2 ih =>
    have := step_ends ((steps_labels h1).nodup hn) h2
    exact ⟨this.1.trans ih.1, this.2.trans ih.2⟩

theorem numbered_labels (l : List V) : (numbered l).map (·.1) = List.range l.length := by
  unfold numbered
  rw [List.map_fst_zip]
  simp

theorem numbered_values (l : List V) : (numbered l).map (·.2) = l := by
  unfold numbered
  rw [List.map_snd_zip]
  simp

end

/-! ## Short segments -/

theorem roundSqrt_upper (n : Nat) : n ≤ roundSqrt n * roundSqrt n + roundSqrt n := by
  unfold roundSqrt
  have h1 := Nat.sqrt_le_add n
  split
  · rename_i h
    set s := Nat.sqrt n
    nlinarith
  · omega

theorem roundSqrt_small (n : Nat) (h : n < 25) : roundSqrt n ≤ 5 := by
  interval_cases n <;> decide +kernel

theorem size2_nonneg (p q : Pt) : 0 ≤ size2 p q := by
  unfold size2
  exact add_nonneg (mul_self_nonneg _) (mul_self_nonneg _)

theorem size_upper (p q : Pt) : size2 p q ≤ size p q * size p q + size p q := by
  have := roundSqrt_upper (size2 p q).toNat
  have h0 := size2_nonneg p q
  unfold size
  zify at this
  rwa [Int.toNat_of_nonneg h0] at this

theorem size2_ne_six (p q : Pt) : size2 p q ≠ 6 := by
  unfold size2
  intro h
  set x := p.1 - q.1
  set y := p.2 - q.2
  have hx : x ≤ 2 := by nlinarith [mul_self_nonneg y]
  have hx' : -2 ≤ x := by nlinarith [mul_self_nonneg y]
  have hy : y ≤ 2 := by nlinarith [mul_self_nonneg x]
  have hy' : -2 ≤ y := by nlinarith [mul_self_nonneg x]
  clear_value x y
  interval_cases x <;> interval_cases y <;> omega

theorem eq_of_size {a b : Pt} (he : size2 a b = 0) : a = b := by
  unfold size2 at he
  have e1 := mul_self_nonneg (a.1 - b.1)
  have e2 := mul_self_nonneg (a.2 - b.2)
  have e3 : (a.1 - b.1) * (a.1 - b.1) = 0 := by linarith
  have e4 : (a.2 - b.2) * (a.2 - b.2) = 0 := by linarith
  rw [mul_self_eq_zero] at e3 e4
  exact Prod.ext (by omega) (by omega)

theorem dist_swap (v a b : Pt) : dist v b a = dist v a b := by
  have hc : size2 a b = size2 b a := by unfold size2; ring
  have hs : size a b = size b a := by unfold size; rw [hc]
  unfold dist
  rw [hs]
  split
  · rename_i h0
    have := size_upper b a
    have h := size2_nonneg b a
    rw [h0] at this
    rw [eq_of_size (by omega : size2 b a = 0)]
  · rw [show (v.1 - a.1) * (v.2 - b.2) + (b.1 - v.1) * (v.2 - a.2) = -((v.1 - b.1) * (v.2 - a.2) + (a.1 - v.1) * (v.2 - b.2)) by ring, abs_neg]

/-- A vertex next to a segment of less than 5 micron is close to the line through its neighbours, or nearly so and all three are close
together. -/
theorem short_close (b v a : Pt) (h : size2 v a < 25) :
    dist2 v b a ≤ 25 ∨ (dist2 v b a ≤ 36 ∧ size2 v b ≤ 36) := by
  have hs := size_upper a b
  have h6 := size2_ne_six a b
  have hpos := size2_nonneg a b
  unfold dist2 dist
  have hsn : 0 ≤ size a b := by unfold size; positivity
  split
  · rename_i h0
    rw [h0] at hs
    have he : size2 a b = 0 := by omega
    have hb := eq_of_size he
    subst hb
    have : size v a ≤ 5 := by
      unfold size
      have := roundSqrt_small (size2 v a).toNat (by omega)
      omega
    have h0 : 0 ≤ size v a := by unfold size; positivity
    left
    nlinarith
  · rename_i h0
    set s := size a b with hsd
    set c := |(v.1 - a.1) * (v.2 - b.2) + (b.1 - v.1) * (v.2 - a.2)| with hc
    have hc0 : 0 ≤ c := abs_nonneg _
    have hcs : c * c = ((v.1 - a.1) * (v.2 - b.2) + (b.1 - v.1) * (v.2 - a.2)) * ((v.1 - a.1) * (v.2 - b.2) + (b.1 - v.1) * (v.2 - a.2)) :=
      abs_mul_abs_self _
    -- Lagrange's identity
    set d := (v.1 - a.1) * (a.1 - b.1) + (v.2 - a.2) * (a.2 - b.2) with hd
    have hlag : c * c + d * d = size2 v a * size2 a b := by
      rw [hcs, hd]
      unfold size2
      ring
    have hvb : size2 v b = size2 v a + size2 a b + 2 * d := by
      rw [hd]
      unfold size2
      ring
    have hva := size2_nonneg v a
    clear_value c d s
    generalize size2 v a = A at *
    generalize size2 a b = B at *
    generalize size2 v b = C at *
    have hcc : c * c ≤ 24 * B := by nlinarith [mul_self_nonneg d]
    have hq0 : 0 ≤ c / s := Int.ediv_nonneg hc0 hsn
    have five : c / s ≤ 5 → c / s * (c / s) ≤ 25 := fun h => by nlinarith
    have hs1 : 1 ≤ s := by omega
    by_cases hs3 : 3 ≤ s
    · left
      apply five
      have : c < 6 * s := by
        by_contra hcon
        have : 36 * (s * s) ≤ c * c := by nlinarith
        nlinarith
      have := Int.ediv_lt_of_lt_mul (by omega : 0 < s) this
      omega
    · have hs12 : s = 1 ∨ s = 2 := by omega
      rcases hs12 with rfl | rfl
      · rw [Int.ediv_one]
        have hB : B ≤ 2 := by omega
        have hc6 : c ≤ 6 := by nlinarith
        by_cases hc5 : c ≤ 5
        · left; nlinarith
        · right
          have : c = 6 := by omega
          subst this
          refine ⟨by norm_num, ?_⟩
          have hd2 : d * d ≤ 12 := by nlinarith
          have : d ≤ 3 := by nlinarith
          omega
      · left
        apply five
        have hB : B ≤ 5 := by omega
        have : c < 6 * 2 := by nlinarith
        have := Int.ediv_lt_of_lt_mul (by omega : (0 : Int) < 2) this
        omega

theorem short_close' (b v a : Pt) (h : size2 v b < 25) :
    dist2 v b a ≤ 25 ∨ (dist2 v b a ≤ 36 ∧ size2 v a ≤ 36) := by
  unfold dist2
  rw [dist_swap]
  exact short_close a v b h

end Verif.Simplify
