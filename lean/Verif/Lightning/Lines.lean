import Verif.Lightning.Forest
import Mathlib.Data.List.Induction
import Mathlib.Tactic.Linarith

/-! # The lines that are printed -/

namespace Verif.Lightning

variable {P K : Type}

theorem pieces_concat (l : List P) (a p : P) : pieces (l ++ [a] ++ [p]) = pieces (l ++ [a]) ++ [(a, p)] := by
  induction l with
  | nil => rfl
  | cons x xs ih =>
    cases xs with
    | nil => rfl
    | cons y ys =>
      simp only [List.cons_append, pieces] at ih ⊢
      rw [ih]

/-- What the lines of a tree yield once they go on to a point. -/
def onward (p : P) (x : List P × List (List P)) : List (P × P) := pieces (x.1 ++ [p]) ++ x.2.flatMap pieces

theorem lines_spec (pick : Nat → Nat) :
    (∀ t : Tree P, (∃ l, (t.lines pick).1 = l ++ [t.loc]) ∧
      (pieces (t.lines pick).1 ++ (t.lines pick).2.flatMap pieces).Perm t.segments ∧
      (((t.lines pick).1 :: (t.lines pick).2).map List.head?).Perm (t.ends.map fun e => some e.2)) ∧
    ∀ ts : List (Tree P), (∀ p, ((linesList pick ts).flatMap (onward p)).Perm (segmentsList p ts)) ∧
      (((linesList pick ts).flatMap fun x => x.1 :: x.2).map List.head?).Perm ((endsList ts).map fun e => some e.2) ∧
      (∀ x ∈ linesList pick ts, x.1 ≠ []) ∧ (linesList pick ts).length = ts.length := by
  refine Tree.ind ?_ ?_ ?_
  · rintro i p g cs ⟨h1, h2, h3, h4⟩
    rw [Tree.lines]
    have hrot : ((linesList pick cs).drop (pick i % cs.length) ++ (linesList pick cs).take (pick i % cs.length)).Perm (linesList pick cs) := by
      refine List.perm_append_comm.trans ?_
      rw [List.take_append_drop]
    generalize (linesList pick cs).drop (pick i % cs.length) ++ (linesList pick cs).take (pick i % cs.length) = parts at hrot
    cases parts with
    | nil =>
      have hnil : linesList pick cs = [] := hrot.symm.eq_nil
      rw [hnil] at h4
      have : cs = [] := List.length_eq_zero_iff.1 h4.symm
      subst this
      exact ⟨⟨[], rfl⟩, List.Perm.refl _, List.Perm.refl _⟩
    | cons x xs =>
      dsimp only
      refine ⟨⟨x.1, rfl⟩, ?_, ?_⟩
      · refine List.Perm.trans (List.Perm.of_eq ?_) ((hrot.flatMap_right (onward p)).trans (h1 p))
        rw [List.flatMap_cons, List.flatMap_append, onward, List.append_assoc, List.flatMap_assoc]
        rfl
      · have hne : cs ≠ [] := by
          rintro rfl
          have := hrot.length_eq
          simp [linesList] at this
        have hends : (Tree.node i p g cs).ends = endsList cs := by
          cases cs with
          | nil => exact absurd rfl hne
          | cons c cs => rfl
        rw [hends]
        refine List.Perm.trans (List.Perm.of_eq ?_) (((hrot.flatMap_right (fun x => x.1 :: x.2)).map List.head?).trans h2)
        have hall : ∀ y ∈ x :: xs, y.1 ≠ [] := fun y hy => h3 y (hrot.mem_iff.1 hy)
        have hhead : ∀ y ∈ x :: xs, (y.1 ++ [p]).head? = y.1.head? := by
          intro y hy
          obtain ⟨z, zs, hz⟩ := List.exists_cons_of_ne_nil (hall y hy)
          rw [hz]; rfl
        simp only [List.map_cons, List.flatMap_cons, List.map_append, List.cons_append]
        rw [hhead x List.mem_cons_self]
        congr 2
        have hx2 : ∀ ys : List (List P × List (List P)), (∀ y ∈ ys, (y.1 ++ [p]).head? = y.1.head?) →
            (ys.flatMap fun l => (l.1 ++ [p]) :: l.2).map List.head? = (ys.flatMap fun x => x.1 :: x.2).map List.head? := by
          intro ys hys
          induction ys with
          | nil => rfl
          | cons y ys ih =>
            simp only [List.flatMap_cons, List.map_append, List.map_cons, List.cons_append]
            rw [hys y List.mem_cons_self, ih (fun z hz => hys z (List.mem_cons_of_mem _ hz))]
        exact hx2 xs (fun y hy => hhead y (List.mem_cons_of_mem _ hy))
  · exact ⟨fun p => List.Perm.refl _, List.Perm.refl _, fun x hx => (by cases hx), rfl⟩
  · rintro c cs ⟨⟨l, c1⟩, c2, c3⟩ ⟨h1, h2, h3, h4⟩
    refine ⟨fun p => ?_, ?_, ?_, by simp [linesList, h4]⟩
    · rw [linesList, List.flatMap_cons, segmentsList]
      rw [← List.cons_append]
      refine List.Perm.append ?_ (h1 p)
      rw [onward, c1, pieces_concat, ← c1]
      refine List.Perm.trans ?_ (List.Perm.cons _ c2)
      rw [List.append_assoc, List.singleton_append]
      exact List.perm_middle
    · rw [linesList, List.flatMap_cons, endsList, List.map_append, List.map_append]
      exact c3.append h2
    · intro x hx
      rw [linesList, List.mem_cons] at hx
      rcases hx with rfl | hx
      · rw [c1]; simp
      · exact h3 x hx

/-! ## Junctions -/

theorem dropLine_perm (ls : List (List P)) : (dropLine ls).Perm ls := by
  unfold dropLine
  split
  · rename_i h
    rw [List.getLast?_eq_none_iff] at h
    rw [h]
  · rename_i l h
    obtain ⟨ys, rfl⟩ := List.getLast?_eq_some_iff.1 h
    simp only [List.dropLast_concat]
    exact (List.perm_append_singleton l ys).symm

/-- A line that is shortened. -/
def shortened (dist : P → P → Int) (at' : P → P → Int → P) (d : Int) (l : List P) : List P := (shorten dist at' l.reverse d).reverse

theorem shortened_le_one (dist : P → P → Int) (at' : P → P → Int → P) (d : Int) (l : List P) (h : l.length ≤ 1) : (shortened dist at' d l).length ≤ 1 := by
  match l, h with
  | [], _ => simp [shortened, shorten]
  | [a], _ => simp [shortened, shorten]

theorem dropLine_length (ls : List (List P)) : (dropLine ls).length = ls.length := (dropLine_perm ls).length_eq

theorem overlapLoop_perm (dist : P → P → Int) (at' : P → P → Int → P) (d : Int) (n : Nat) (ls : List (List P)) (hn : ls.length ≤ n) :
    (overlapLoop dist at' d n ls).Perm ((ls.map (shortened dist at' d)).filter fun l => decide (1 < l.length)) := by
  induction n generalizing ls with
  | zero =>
    have : ls = [] := List.length_eq_zero_iff.1 (by omega)
    rw [this, overlapLoop]
    exact List.Perm.refl _
  | succ n ih =>
    cases ls with
    | nil => exact List.Perm.refl _
    | cons l ls =>
      rw [List.length_cons] at hn
      have hd : (overlapLoop dist at' d n (dropLine ls)).Perm ((ls.map (shortened dist at' d)).filter fun l => decide (1 < l.length)) :=
        (ih _ (by rw [dropLine_length]; omega)).trans (((dropLine_perm ls).map _).filter _)
      rw [overlapLoop, List.map_cons]
      split
      · rename_i h1
        rw [List.filter_cons_of_neg (by have := shortened_le_one dist at' d l h1; simpa using this)]
        exact hd
      · dsimp only
        split
        · rename_i h2
          rw [List.filter_cons_of_neg (by simpa [shortened] using h2)]
          exact hd
        · rename_i h2
          rw [List.filter_cons_of_pos (by simpa [shortened] using h2)]
          exact List.Perm.cons _ (ih ls (by omega))

theorem lineLength_concat (dist : P → P → Int) (l : List P) (a b : P) : lineLength dist (l ++ [a, b]) = lineLength dist (l ++ [a]) + dist a b := by
  induction l with
  | nil => simp [lineLength]
  | cons x xs ih =>
    cases xs with
    | nil => simp [lineLength]
    | cons y ys =>
      simp only [List.cons_append, lineLength] at ih ⊢
      rw [ih]; omega

theorem shorten_spec (dist : P → P → Int) (at' : P → P → Int → P) (d : Int) (l : List P) (a : P) :
    (∃ pre b x suf e, l ++ [a] = pre ++ [b, x] ++ suf ∧ shortened dist at' d (l ++ [a]) = pre ++ [b, at' x b e] ∧
      lineLength dist (x :: suf) + e = d ∧ e ≤ dist b x ∧ (suf = [] ∨ 0 < e)) ∨
    (lineLength dist (l ++ [a]) < d ∨ l = []) ∧ (shortened dist at' d (l ++ [a])).length = 1 := by
  induction l using List.reverseRecOn generalizing a d with
  | nil => exact Or.inr ⟨Or.inr rfl, by simp [shortened, shorten]⟩
  | append_singleton l b ih =>
    have hrev : (l ++ [b] ++ [a]).reverse = a :: b :: l.reverse := by simp
    have hs : shortened dist at' d (l ++ [b] ++ [a]) = if d ≤ dist b a then l ++ [b, at' a b d] else shortened dist at' (d - dist b a) (l ++ [b]) := by
      unfold shortened
      rw [hrev, shorten]
      split
      · simp
      · simp
    rw [hs]
    split
    · rename_i h
      exact Or.inl ⟨l, b, a, [], d, by simp, rfl, by simp [lineLength], h, Or.inl rfl⟩
    · rename_i h
      rcases ih (d - dist b a) b with ⟨pre, b', x, suf, e, h1, h2, h3, h4, h5⟩ | ⟨h1, h2⟩
      · refine Or.inl ⟨pre, b', x, suf ++ [a], e, by rw [h1]; simp, h2, ?_, h4, ?_⟩
        · have hlast : ∃ ys, x :: suf = ys ++ [b] := by
            rcases List.eq_nil_or_concat suf with rfl | ⟨zs, z, rfl⟩
            · have : b = x := by
                have := congrArg List.getLast? h1
                simpa using this
              exact ⟨[], by rw [this]; rfl⟩
            · rw [List.concat_eq_append] at h1 ⊢
              have h1' : l ++ [b] = (pre ++ [b', x] ++ zs) ++ [z] := by rw [h1]; simp
              have hz : [b] = [z] := (List.append_inj' h1' rfl).2
              rw [← hz]
              exact ⟨x :: zs, rfl⟩
          obtain ⟨ys, hy⟩ := hlast
          rw [← List.cons_append, hy, List.append_assoc]
          show lineLength dist (ys ++ [b, a]) + e = d
          rw [lineLength_concat, ← hy]
          omega
        · rcases h5 with rfl | h5
          · right
            simp only [lineLength] at h3
            omega
          · exact Or.inr h5
      · right
        refine ⟨Or.inl ?_, h2⟩
        rw [List.append_assoc]
        show lineLength dist (l ++ [b, a]) < d
        rw [lineLength_concat]
        rcases h1 with h1 | rfl
        · omega
        · simp [lineLength]; omega

end Verif.Lightning
