import Verif.InfillOrder.Model
import Mathlib.Data.List.Forall2
import Mathlib.Tactic.SplitIfs

/-! # Order of the infill: lemmas -/

namespace Verif.InfillOrder

open Spec

theorem before_iff (a b : Part) : (!(before b a)) = true ↔ rank a ≤ rank b := by
  rcases a with ⟨_ | _, a⟩ <;> rcases b with ⟨_ | _, b⟩ <;> cases a <;> cases b <;> simp [before, rank, kind]

theorem sorted_perm (parts : List Part) : (sorted parts).Perm parts := List.perm_insertionSort _ _

theorem sorted_order (parts : List Part) : (sorted parts).Pairwise fun a b => rank a ≤ rank b := by
  have : (parts.insertionSort fun a b => (!(before b a)) = true).Pairwise fun a b => (!(before b a)) = true := by
    have : Std.Total fun a b : Part => (!(before b a)) = true := ⟨fun a b => by rw [before_iff, before_iff]; exact Nat.le_total _ _⟩
    have : IsTrans Part fun a b : Part => (!(before b a)) = true := ⟨fun a b c => by rw [before_iff, before_iff, before_iff]; exact Nat.le_trans⟩
    exact List.pairwise_insertionSort _ _
  exact this.imp fun h => (before_iff _ _).1 h

theorem size2_eq (p q : P2) : size2 (p.1 - q.1, p.2 - q.2) = dist2 p q := rfl

theorem fold_ok (loc : P2) : ∀ (xs : List ((Nat × Nat) × P2)) (s : Bool × Best),
    (∀ x ∈ xs, ∃ b, (xs.foldl (tryPoint loc) s).2 = some b ∧ b.2 ≤ dist2 x.2 loc) ∧
    (∀ b0, s.2 = some b0 → ∃ b, (xs.foldl (tryPoint loc) s).2 = some b ∧ b.2 ≤ b0.2) ∧
    (xs.foldl (tryPoint loc) s = s ∨ ((xs.foldl (tryPoint loc) s).1 = true ∧ ∃ x ∈ xs, (xs.foldl (tryPoint loc) s).2 = some (x.1, dist2 x.2 loc))) := by
  intro xs
  induction xs with
  | nil => intro s; exact ⟨by simp, fun b0 h => ⟨b0, h, le_refl _⟩, .inl rfl⟩
  | cons x xs ih =>
    intro s
    obtain ⟨h1, h2, h3⟩ := ih (tryPoint loc s x)
    rw [List.foldl_cons]
    have key : (tryPoint loc s x = s ∧ ∃ b, s.2 = some b ∧ b.2 ≤ dist2 x.2 loc) ∨ (tryPoint loc s x = (true, some (x.1, dist2 x.2 loc)) ∧ ∀ b, s.2 = some b → dist2 x.2 loc ≤ b.2) := by
      unfold tryPoint
      rw [size2_eq]
      rcases hs : s.2 with _ | ⟨ij, c⟩
      · exact .inr ⟨rfl, by simp⟩
      · dsimp only
        by_cases hd : dist2 x.2 loc < c
        · rw [if_pos hd]
          refine .inr ⟨rfl, ?_⟩
          rintro b hb
          cases hb
          exact le_of_lt hd
        · rw [if_neg hd]
          exact .inl ⟨rfl, _, rfl, not_lt.1 hd⟩
    refine ⟨?_, ?_, ?_⟩
    · intro y hy
      rcases List.mem_cons.1 hy with rfl | hy
      · rcases key with ⟨e, b, hb, hle⟩ | ⟨e, _⟩
        · obtain ⟨c, hc, hcl⟩ := h2 b (by rw [e]; exact hb)
          exact ⟨c, hc, le_trans hcl hle⟩
        · exact h2 _ (by rw [e])
      · exact h1 y hy
    · intro b0 hb0
      rcases key with ⟨e, _⟩ | ⟨e, hle⟩
      · exact h2 b0 (by rw [e]; exact hb0)
      · obtain ⟨c, hc, hcl⟩ := h2 _ (by rw [e])
        exact ⟨c, hc, le_trans hcl (hle b0 hb0)⟩
    · rcases h3 with h3 | ⟨h3, y, hy, e⟩
      · rw [h3]
        rcases key with ⟨e, _⟩ | ⟨e, _⟩
        · exact .inl e
        · rw [e]; exact .inr ⟨rfl, x, by simp, rfl⟩
      · exact .inr ⟨h3, y, by simp [hy], e⟩

theorem mem_indexed (ls : List (List P2)) (i j : Nat) (p : P2) : ((i, j), p) ∈ indexed ls ↔ ∃ l, ls[i]? = some l ∧ l[j]? = some p := by
  unfold indexed
  rw [List.mem_flatMap]
  constructor
  · rintro ⟨⟨l, i'⟩, hl, hp⟩
    obtain ⟨⟨q, j'⟩, hq, e⟩ := List.mem_map.1 hp
    simp only [Prod.mk.injEq] at e
    obtain ⟨⟨rfl, rfl⟩, rfl⟩ := e
    exact ⟨l, List.mem_zipIdx_iff_getElem?.1 hl, List.mem_zipIdx_iff_getElem?.1 hq⟩
  · rintro ⟨l, hl, hp⟩
    exact ⟨(l, i), List.mem_zipIdx_iff_getElem?.2 hl, List.mem_map.2 ⟨(p, j), List.mem_zipIdx_iff_getElem?.2 hp, rfl⟩⟩

theorem flatten_indexed (ls : List (List P2)) (p : P2) (h : p ∈ ls.flatten) : ∃ ij, (ij, p) ∈ indexed ls := by
  obtain ⟨l, hl, hp⟩ := List.mem_flatten.1 h
  obtain ⟨i, hi⟩ := List.mem_iff_getElem?.1 hl
  obtain ⟨j, hj⟩ := List.mem_iff_getElem?.1 hp
  exact ⟨(i, j), (mem_indexed _ _ _ _).2 ⟨l, hi, hj⟩⟩

theorem indexed_flatten (ls : List (List P2)) (ij : Nat × Nat) (p : P2) (h : (ij, p) ∈ indexed ls) : p ∈ ls.flatten := by
  obtain ⟨l, hl, hp⟩ := (mem_indexed _ _ _ _).1 h
  exact List.mem_flatten.2 ⟨l, List.mem_of_getElem? hl, List.mem_of_getElem? hp⟩

theorem closer_ok (loc : P2) (ls : List (List P2)) (best : Best) :
    (∀ x ∈ ls.flatten, ∃ b, (closer loc ls best).2 = some b ∧ b.2 ≤ dist2 x loc) ∧
    (∀ b0, best = some b0 → ∃ b, (closer loc ls best).2 = some b ∧ b.2 ≤ b0.2) ∧
    (closer loc ls best = (false, best) ∨ ((closer loc ls best).1 = true ∧ ∃ ij y, (ij, y) ∈ indexed ls ∧ (closer loc ls best).2 = some (ij, dist2 y loc))) := by
  obtain ⟨h1, h2, h3⟩ := fold_ok loc (indexed ls) (false, best)
  refine ⟨?_, h2, ?_⟩
  · intro x hx
    obtain ⟨ij, hij⟩ := flatten_indexed ls x hx
    exact h1 _ hij
  · rcases h3 with h3 | ⟨h3, x, hx, e⟩
    · exact .inl h3
    · exact .inr ⟨h3, x.1, x.2, hx, e⟩

theorem search_ok (loc : P2) (interlace : Bool) : ∀ (ps : List Part) (i : Nat) (k : Option Nat) (best : Best),
    (∀ p ∈ ps, ¬ Fixed interlace p → ∀ x ∈ points p, ∃ b, (search loc interlace i ps k best).2 = some b ∧ b.2 ≤ dist2 x loc) ∧
    (∀ b0, best = some b0 → ∃ b, (search loc interlace i ps k best).2 = some b ∧ b.2 ≤ b0.2) ∧
    (search loc interlace i ps k best = (k, best) ∨ ∃ m p ls ij y, ps[m]? = some p ∧ (search loc interlace i ps k best).1 = some (i + m) ∧
      (p.content = .lines ls ∨ p.content = .polygons ls) ∧ (ij, y) ∈ indexed ls ∧ (search loc interlace i ps k best).2 = some (ij, dist2 y loc)) := by
  intro ps
  induction ps with
  | nil => intro i k best; exact ⟨by simp, fun b0 h => ⟨b0, h, le_refl _⟩, .inl rfl⟩
  | cons p ps ih =>
    intro i k best
    have shift : ∀ (k' : Option Nat) (best' : Best), (search loc interlace (i + 1) ps k' best' = (k', best') ∨ ∃ m q ls ij y, ps[m]? = some q ∧ (search loc interlace (i + 1) ps k' best').1 = some (i + 1 + m) ∧
        (q.content = .lines ls ∨ q.content = .polygons ls) ∧ (ij, y) ∈ indexed ls ∧ (search loc interlace (i + 1) ps k' best').2 = some (ij, dist2 y loc)) →
        (search loc interlace (i + 1) ps k' best' = (k', best') ∨ ∃ m q ls ij y, (p :: ps)[m]? = some q ∧ (search loc interlace (i + 1) ps k' best').1 = some (i + m) ∧
        (q.content = .lines ls ∨ q.content = .polygons ls) ∧ (ij, y) ∈ indexed ls ∧ (search loc interlace (i + 1) ps k' best').2 = some (ij, dist2 y loc)) := by
      rintro k' best' (h | ⟨m, q, ls, ij, y, g1, g2, g3, g4, g5⟩)
      · exact .inl h
      · exact .inr ⟨m + 1, q, ls, ij, y, by simpa using g1, by rw [g2]; congr 1; omega, g3, g4, g5⟩
    have skip : (Fixed interlace p ∨ points p = []) → search loc interlace i (p :: ps) k best = search loc interlace (i + 1) ps k best →
        (∀ q ∈ p :: ps, ¬ Fixed interlace q → ∀ x ∈ points q, ∃ b, (search loc interlace i (p :: ps) k best).2 = some b ∧ b.2 ≤ dist2 x loc) ∧
        (∀ b0, best = some b0 → ∃ b, (search loc interlace i (p :: ps) k best).2 = some b ∧ b.2 ≤ b0.2) ∧
        (search loc interlace i (p :: ps) k best = (k, best) ∨ ∃ m q ls ij y, (p :: ps)[m]? = some q ∧ (search loc interlace i (p :: ps) k best).1 = some (i + m) ∧
          (q.content = .lines ls ∨ q.content = .polygons ls) ∧ (ij, y) ∈ indexed ls ∧ (search loc interlace i (p :: ps) k best).2 = some (ij, dist2 y loc)) := by
      intro hp e
      rw [e]
      obtain ⟨h1, h2, h3⟩ := ih (i + 1) k best
      refine ⟨?_, h2, shift _ _ h3⟩
      intro q hq hf x hx
      rcases List.mem_cons.1 hq with rfl | hq
      · rcases hp with hp | hp
        · exact absurd hp hf
        · rw [hp] at hx; simp at hx
      · exact h1 q hq hf x hx
    have take : ∀ ls, (p.content = .lines ls ∨ p.content = .polygons ls) →
        search loc interlace i (p :: ps) k best = search loc interlace (i + 1) ps (if (closer loc ls best).1 then some i else k) (closer loc ls best).2 →
        (∀ q ∈ p :: ps, ¬ Fixed interlace q → ∀ x ∈ points q, ∃ b, (search loc interlace i (p :: ps) k best).2 = some b ∧ b.2 ≤ dist2 x loc) ∧
        (∀ b0, best = some b0 → ∃ b, (search loc interlace i (p :: ps) k best).2 = some b ∧ b.2 ≤ b0.2) ∧
        (search loc interlace i (p :: ps) k best = (k, best) ∨ ∃ m q ls ij y, (p :: ps)[m]? = some q ∧ (search loc interlace i (p :: ps) k best).1 = some (i + m) ∧
          (q.content = .lines ls ∨ q.content = .polygons ls) ∧ (ij, y) ∈ indexed ls ∧ (search loc interlace i (p :: ps) k best).2 = some (ij, dist2 y loc)) := by
      intro ls hls e
      rw [e]
      obtain ⟨c1, c2, c3⟩ := closer_ok loc ls best
      obtain ⟨h1, h2, h3⟩ := ih (i + 1) (if (closer loc ls best).1 then some i else k) (closer loc ls best).2
      have hpts : points p = ls.flatten := by
        unfold points
        rcases hls with h | h <;> rw [h]
      refine ⟨?_, ?_, ?_⟩
      · intro q hq hf x hx
        rcases List.mem_cons.1 hq with rfl | hq
        · obtain ⟨b, hb, hle⟩ := c1 x (hpts ▸ hx)
          obtain ⟨b', hb', hle'⟩ := h2 b hb
          exact ⟨b', hb', le_trans hle' hle⟩
        · exact h1 q hq hf x hx
      · intro b0 hb0
        obtain ⟨b, hb, hle⟩ := c2 b0 hb0
        obtain ⟨b', hb', hle'⟩ := h2 b hb
        exact ⟨b', hb', le_trans hle' hle⟩
      · rcases shift _ _ h3 with h | h
        · rcases c3 with c3 | ⟨c3, ij, y, g1, g2⟩
          · left; rw [h, c3]; simp
          · right
            exact ⟨0, p, ls, ij, y, rfl, by rw [h, c3]; simp, hls, g1, by rw [h, g2]⟩
        · exact .inr h
    cases hc : p.content with
    | lines ls =>
      by_cases hi : (interlace && p.support) = true
      · refine skip (.inl ⟨(Bool.and_eq_true _ _ ▸ hi).1, (Bool.and_eq_true _ _ ▸ hi).2, ls, hc⟩) ?_
        rw [search, hc]; dsimp only; rw [if_pos hi]
      · refine take ls (.inl hc) ?_
        rw [search, hc]; dsimp only; rw [if_neg hi]
    | polygons ls => exact take ls (.inr hc) (by rw [search, hc])
    | walls id => exact skip (.inr (by unfold points; rw [hc])) (by rw [search, hc])

theorem sides_split : ∀ (l : List P2) (j : Nat), j < l.length → sides (l.take (j + 1)) ++ sides (l.drop j) = sides l := by
  intro l
  induction l with
  | nil => intro j h; simp at h
  | cons a l ih =>
    intro j h
    cases j with
    | zero => simp [sides]
    | succ j =>
      cases l with
      | nil => simp at h
      | cons b l =>
        have := ih j (by simpa using h)
        have e : ∀ (x y : P2) (m : List P2), sides (x :: y :: m) = (x, y) :: sides (y :: m) := fun _ _ _ => rfl
        rw [List.take_succ_cons, List.take_succ_cons, e, List.drop_succ_cons, e, List.cons_append, ← this, List.take_succ_cons]

theorem split_sides (ls : List (List P2)) (i j : Nat) : (split ls i j).flatMap sides = ls.flatMap sides := by
  unfold split
  cases hl : ls[i]? with
  | none => rfl
  | some l =>
    dsimp only
    split_ifs with h
    · rfl
    · have e : ls = ls.take i ++ l :: ls.drop (i + 1) := by
        obtain ⟨hi, rfl⟩ := List.getElem?_eq_some_iff.1 hl
        rw [List.getElem_cons_drop, List.take_append_drop]
      conv_rhs => rw [e]
      simp only [List.flatMap_append, List.flatMap_cons, List.flatMap_nil, List.append_nil, List.append_assoc]
      congr 1
      rw [← List.append_assoc, sides_split l j (by omega)]

theorem split_length (ls : List (List P2)) (i j : Nat) (h : ∀ l ∈ ls, 2 ≤ l.length) : ∀ l ∈ split ls i j, 2 ≤ l.length := by
  unfold split
  cases hl : ls[i]? with
  | none => exact h
  | some l =>
    dsimp only
    split_ifs with hc
    · exact h
    · intro x hx
      rcases List.mem_append.1 hx with hx | hx
      · rcases List.mem_append.1 hx with hx | hx
        · exact h x (List.mem_of_mem_take hx)
        · simp only [List.mem_cons, List.not_mem_nil, or_false] at hx
          rcases hx with hx | hx
          · rw [hx, List.length_take]; omega
          · rw [hx, List.length_drop]; omega
      · exact h x (List.mem_of_mem_drop hx)

theorem split_points (ls : List (List P2)) (i j : Nat) (x : P2) : x ∈ (split ls i j).flatten ↔ x ∈ ls.flatten := by
  unfold split
  cases hl : ls[i]? with
  | none => rfl
  | some l =>
    dsimp only
    split_ifs with h
    · rfl
    · have e : ls = ls.take i ++ l :: ls.drop (i + 1) := by
        obtain ⟨hi, rfl⟩ := List.getElem?_eq_some_iff.1 hl
        rw [List.getElem_cons_drop, List.take_append_drop]
      conv_rhs => rw [e]
      simp only [List.flatten_append, List.flatten_cons, List.flatten_nil, List.append_nil, List.mem_append, List.append_assoc]
      have hx : x ∈ l ↔ x ∈ l.take (j + 1) ∨ x ∈ l.drop j := by
        constructor
        · intro hx
          rw [← List.take_append_drop (j + 1) l, List.mem_append] at hx
          rcases hx with hx | hx
          · exact .inl hx
          · refine .inr ?_
            rw [show l.drop (j + 1) = (l.drop j).drop 1 by rw [List.drop_drop]] at hx
            exact List.mem_of_mem_drop hx
        · rintro (hx | hx)
          · exact List.mem_of_mem_take hx
          · exact List.mem_of_mem_drop hx
      rw [hx]
      tauto

theorem split_end (ls : List (List P2)) (i j : Nat) (y : P2) (h : ((i, j), y) ∈ indexed ls) : ∃ l ∈ split ls i j, l.head? = some y ∨ l.getLast? = some y := by
  obtain ⟨l, hl, hy⟩ := (mem_indexed _ _ _ _).1 h
  have hj := (List.getElem?_eq_some_iff.1 hy).1
  unfold split
  rw [hl]
  dsimp only
  split_ifs with hc
  · refine ⟨l, List.mem_of_getElem? hl, ?_⟩
    by_cases h0 : j = 0
    · subst h0
      left; rw [List.head?_eq_getElem?]; exact hy
    · right
      rw [List.getLast?_eq_getElem?, ← hy]
      congr 1
      omega
  · refine ⟨l.drop j, by simp, .inl ?_⟩
    rw [List.head?_eq_getElem?, List.getElem?_drop]
    exact hy

theorem moveLast_perm (ps : List Part) (k : Option Nat) : (moveLast ps k).Perm ps := by
  unfold moveLast
  cases k with
  | none => exact .refl _
  | some k =>
    dsimp only
    cases hp : ps[k]? with
    | none => exact .refl _
    | some p =>
      dsimp only
      split_ifs with h
      · exact .refl _
      · obtain ⟨hk, rfl⟩ := List.getElem?_eq_some_iff.1 hp
        have e : ps = ps.take k ++ ps[k] :: ps.drop (k + 1) := by rw [List.getElem_cons_drop, List.take_append_drop]
        conv_rhs => rw [e]
        rw [List.eraseIdx_eq_take_drop_succ, List.append_assoc]
        exact List.Perm.append_left _ List.perm_append_comm

theorem moveLast_last (ps : List Part) (k : Nat) (p : Part) (h : ps[k]? = some p) : (moveLast ps (some k)).getLast? = some p := by
  unfold moveLast
  dsimp only
  rw [h]
  dsimp only
  split_ifs with hk
  · rw [List.getLast?_eq_getElem?, ← hk, h]
  · simp

theorem moveLast_rest (ps : List Part) (k : Option Nat) : ((moveLast ps k).dropLast).Sublist ps := by
  unfold moveLast
  cases k with
  | none => exact List.dropLast_sublist _
  | some k =>
    dsimp only
    cases hp : ps[k]? with
    | none => exact List.dropLast_sublist _
    | some p =>
      dsimp only
      split_ifs with h
      · exact List.dropLast_sublist _
      · rw [List.dropLast_concat]; exact List.eraseIdx_sublist _ _

theorem same_refl (p : Part) : Same p p := by
  refine ⟨rfl, ?_⟩
  cases p.content <;> simp

/-- The last part is as before, or divided. -/
theorem cutLast_ok (loc : P2) (ps : List Part) (best : Best) : cutLast loc ps best = ps ∨
    ∃ ls i j, ps.getLast? = some ⟨false, .lines ls⟩ ∧ cutLast loc ps best = ps.dropLast ++ [⟨false, .lines (split ls i j)⟩] := by
  unfold cutLast
  split
  · rename_i ls hls
    rcases lastPoint loc ls best with _ | ⟨⟨i, j⟩, d⟩
    · exact .inl rfl
    · exact .inr ⟨ls, i, j, hls, rfl⟩
  · exact .inl rfl

theorem dropLast_last {ps : List Part} {p : Part} (h : ps.getLast? = some p) : ps = ps.dropLast ++ [p] := by
  rw [List.dropLast_append_getLast? p h]

theorem cutLast_same (loc : P2) (ps : List Part) (best : Best) : List.Forall₂ Same ps (cutLast loc ps best) := by
  rcases cutLast_ok loc ps best with h | ⟨ls, i, j, h1, h2⟩
  · rw [h]; exact List.forall₂_same.2 fun p _ => same_refl p
  · rw [h2]
    conv_lhs => rw [dropLast_last h1]
    refine List.rel_append (List.forall₂_same.2 fun p _ => same_refl p) (.cons ⟨rfl, ?_⟩ .nil)
    exact ⟨(split_sides ls i j).symm, split_length ls i j⟩

theorem cutLast_rest (loc : P2) (ps : List Part) (best : Best) : (cutLast loc ps best).dropLast = ps.dropLast := by
  rcases cutLast_ok loc ps best with h | ⟨ls, i, j, h1, h2⟩
  · rw [h]
  · rw [h2, List.dropLast_concat]

theorem cutLast_points (loc : P2) (ps : List Part) (best : Best) (p : Part) (h : ps.getLast? = some p) :
    ∃ q, (cutLast loc ps best).getLast? = some q ∧ Same p q ∧ ∀ x, x ∈ points q ↔ x ∈ points p := by
  rcases cutLast_ok loc ps best with h' | ⟨ls, i, j, h1, h2⟩
  · rw [h']; exact ⟨p, h, same_refl p, fun _ => Iff.rfl⟩
  · rw [h] at h1
    cases h1
    rw [h2]
    exact ⟨_, List.getLast?_concat .., ⟨rfl, (split_sides ls i j).symm, split_length ls i j⟩, fun x => split_points ls i j x⟩

end Verif.InfillOrder
