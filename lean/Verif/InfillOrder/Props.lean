import Verif.InfillOrder.Lemmas

/-! # C126: order of the infill of a part -/

namespace Verif.InfillOrder

open Spec

theorem optimize_near (interlace : Bool) (loc : P2) (parts : List Part) : optimize interlace (some loc) parts = parts ∧ parts = [] ∨
    ∃ k best, optimize interlace (some loc) parts = cutLast loc (moveLast (sorted parts) k) best := by
  unfold optimize
  by_cases h : parts.isEmpty
  · rw [if_pos h]; exact .inl ⟨rfl, by simpa using h⟩
  · rw [if_neg h]; exact .inr ⟨_, _, rfl⟩

/-- **C126 (all of it).** All parts are printed, each once. At most lines are divided; the sides of the lines stay the same. -/
theorem C126_kept (interlace : Bool) (near : Option P2) (parts : List Part) : ∃ q, q.Perm parts ∧ List.Forall₂ Same q (optimize interlace near parts) := by
  cases near with
  | none =>
    refine ⟨_, ?_, List.forall₂_same.2 fun p _ => same_refl p⟩
    unfold optimize
    split_ifs with h
    · exact .refl _
    · exact sorted_perm parts
  | some loc =>
    rcases optimize_near interlace loc parts with ⟨h, rfl⟩ | ⟨k, best, h⟩
    · exact ⟨[], .refl _, by rw [h]; exact .nil⟩
    · exact ⟨_, (moveLast_perm _ k).trans (sorted_perm parts), h ▸ cutLast_same loc _ best⟩

/-- **C126 (preferred order).** If it does not matter where printing ends, the parts are printed in the preferred order. -/
theorem C126_order (interlace : Bool) (parts : List Part) : (optimize interlace none parts).Pairwise fun a b => rank a ≤ rank b := by
  unfold optimize
  split_ifs with h
  · rw [List.isEmpty_iff] at h; subst h; exact .nil
  · exact sorted_order parts

/-- **C126 (the others).** If it does, only one part is moved: the ones before it stay in the preferred order. -/
theorem C126_others (interlace : Bool) (loc : P2) (parts : List Part) : (optimize interlace (some loc) parts).dropLast.Pairwise fun a b => rank a ≤ rank b := by
  rcases optimize_near interlace loc parts with ⟨h, rfl⟩ | ⟨k, best, h⟩
  · rw [h]; exact .nil
  · rw [h, cutLast_rest]
    exact (sorted_order parts).sublist (moveLast_rest _ k)

theorem isWalls_iff (p : Part) : isWalls p = true ↔ InfillWalls p := by
  rcases p with ⟨_ | _, c⟩ <;> cases c <;> simp [isWalls, InfillWalls, kind]

/-- **C126 (walls).** If there are walls, they are printed last. -/
theorem C126_walls (interlace : Bool) (loc : P2) (parts : List Part) (h : ∃ p ∈ parts, InfillWalls p) : ∃ p, (optimize interlace (some loc) parts).getLast? = some p ∧ p ∈ parts ∧ InfillWalls p := by
  obtain ⟨p, hp, hw⟩ := h
  have hs : p ∈ sorted parts := (sorted_perm parts).mem_iff.2 hp
  unfold optimize
  rw [if_neg (by rw [List.isEmpty_iff]; rintro rfl; simp at hp)]
  cases hk : (sorted parts).findIdx? isWalls with
  | none =>
    rw [List.findIdx?_eq_none_iff] at hk
    exact absurd ((isWalls_iff p).2 hw) (by simp [hk p hs])
  | some k =>
    have hf := hk
    rw [List.findIdx?_eq_some_iff_getElem] at hk
    obtain ⟨hlt, hk, _⟩ := hk
    have hlast := moveLast_last (sorted parts) k _ (List.getElem?_eq_getElem hlt)
    have hwk := (isWalls_iff _).1 hk
    obtain ⟨q, h1, h2, _⟩ := cutLast_points loc (moveLast (sorted parts) (some k)) none _ hlast
    refine ⟨(sorted parts)[k], ?_, (sorted_perm parts).mem_iff.1 (List.getElem_mem hlt), hwk⟩
    dsimp only
    rw [hf]
    dsimp only
    rw [h1]
    obtain ⟨id, hid⟩ := hwk.2
    obtain ⟨e1, e2⟩ := h2
    rw [hid] at e2
    congr 1
    rcases q with ⟨qs, qc⟩
    cases qc with
    | walls id' =>
      simp only at e1 e2
      generalize (sorted parts)[k] = r at *
      rcases r with ⟨rs, rc⟩
      simp only at hid e1
      subst hid e1
      simp only [Content.walls.injEq] at e2
      rw [e2]
    | lines ls => simp at e2
    | polygons ls => simp at e2

/-- The part that is printed last, and how it is divided, if there are no walls. -/
theorem last_ok (interlace : Bool) (loc : P2) (parts : List Part) (hw : ¬ ∃ p ∈ parts, InfillWalls p) (hne : parts ≠ []) :
    ∃ (k : Option Nat) (best : Best) (last : Part), optimize interlace (some loc) parts = cutLast loc (moveLast (sorted parts) k) best ∧ (moveLast (sorted parts) k).getLast? = some last ∧
      (∀ p ∈ parts, ¬ Fixed interlace p → ∀ x ∈ points p, ∃ y ∈ points last, dist2 y loc ≤ dist2 x loc) ∧
      (best = none ∨ ∃ ls ij y, (last.content = .lines ls ∨ last.content = .polygons ls) ∧ (ij, y) ∈ indexed ls ∧ best = some (ij, dist2 y loc) ∧
        ∀ p ∈ parts, ¬ Fixed interlace p → ∀ x ∈ points p, dist2 y loc ≤ dist2 x loc) := by
  have hsne : sorted parts ≠ [] := fun h => hne (by have := (sorted_perm parts).length_eq; rw [h] at this; exact List.length_eq_zero_iff.1 this.symm)
  have hfind : (sorted parts).findIdx? isWalls = none := by
    rw [List.findIdx?_eq_none_iff]
    intro p hp
    by_contra h
    exact hw ⟨p, (sorted_perm parts).mem_iff.1 hp, (isWalls_iff p).1 (by simpa using h)⟩
  have hopt : optimize interlace (some loc) parts = cutLast loc (moveLast (sorted parts) (if (sorted parts).length > 1 then search loc interlace 0 (sorted parts) none none else (none, none)).1)
      (if (sorted parts).length > 1 then search loc interlace 0 (sorted parts) none none else (none, none)).2 := by
    unfold optimize
    rw [if_neg (by rw [List.isEmpty_iff]; exact hne)]
    dsimp only
    rw [hfind]
  by_cases hl : (sorted parts).length > 1
  · rw [if_pos hl] at hopt
    obtain ⟨h1, _, h3⟩ := search_ok loc interlace (sorted parts) 0 none none
    rcases h3 with h3 | ⟨m, p, ls, ij, y, g1, g2, g3, g4, g5⟩
    · rw [h3] at hopt h1
      obtain ⟨last, hlast⟩ : ∃ last, (moveLast (sorted parts) none).getLast? = some last := ⟨_, List.getLast?_eq_some_getLast hsne⟩
      refine ⟨none, none, last, hopt, hlast, ?_, .inl rfl⟩
      intro p hp hf x hx
      obtain ⟨b, hb, _⟩ := h1 p ((sorted_perm parts).mem_iff.2 hp) hf x hx
      simp at hb
    · rw [Nat.zero_add] at g2
      rw [g2, g5] at hopt
      have hpl : points p = ls.flatten := by
        unfold points
        rcases g3 with h | h <;> rw [h]
      have hall : ∀ p ∈ parts, ¬ Fixed interlace p → ∀ x ∈ points p, dist2 y loc ≤ dist2 x loc := by
        intro q hq hf x hx
        obtain ⟨b, hb, hle⟩ := h1 q ((sorted_perm parts).mem_iff.2 hq) hf x hx
        rw [g5] at hb
        cases hb
        exact hle
      refine ⟨some m, _, p, hopt, moveLast_last _ _ _ g1, ?_, .inr ⟨ls, ij, y, g3, g4, rfl, hall⟩⟩
      intro q hq hf x hx
      exact ⟨y, hpl ▸ indexed_flatten ls ij y g4, hall q hq hf x hx⟩
  · rw [if_neg hl] at hopt
    obtain ⟨last, hlast⟩ : ∃ last, (moveLast (sorted parts) none).getLast? = some last := ⟨_, List.getLast?_eq_some_getLast hsne⟩
    refine ⟨none, none, last, hopt, hlast, ?_, .inl rfl⟩
    intro p hp hf x hx
    have hps : p ∈ sorted parts := (sorted_perm parts).mem_iff.2 hp
    have : last ∈ sorted parts := List.mem_of_getLast? hlast
    have hone : ∃ a, sorted parts = [a] := List.length_eq_one_iff.1 (by have := List.length_pos_of_ne_nil hsne; omega)
    obtain ⟨a, ha⟩ := hone
    rw [ha] at hps this
    rw [List.mem_singleton.1 hps] at hx
    exact ⟨x, by rw [List.mem_singleton.1 this]; exact hx, le_refl _⟩

/-- **C126 (closest last).** Without walls, the part that has the point closest to the wanted end is printed last. Interlaced lines are not considered. -/
theorem C126_closest (interlace : Bool) (loc : P2) (parts : List Part) (hw : ¬ ∃ p ∈ parts, InfillWalls p) (hne : parts ≠ []) :
    ∃ last, (optimize interlace (some loc) parts).getLast? = some last ∧ ∀ p ∈ parts, ¬ Fixed interlace p → ∀ x ∈ points p, ∃ y ∈ points last, dist2 y loc ≤ dist2 x loc := by
  obtain ⟨k, best, last, h1, h2, h3, _⟩ := last_ok interlace loc parts hw hne
  obtain ⟨q, g1, _, g3⟩ := cutLast_points loc _ best _ h2
  refine ⟨q, by rw [h1]; exact g1, ?_⟩
  intro p hp hf x hx
  obtain ⟨y, hy, hle⟩ := h3 p hp hf x hx
  exact ⟨y, (g3 y).2 hy, hle⟩

/-- **C126 (the end).** If lines are printed last, one of them can end at the point that is closest to the wanted end: it is the begin or the end of a line. -/
theorem C126_end (interlace : Bool) (loc : P2) (parts : List Part) (ls : List (List P2)) (h : (optimize interlace (some loc) parts).getLast? = some ⟨false, .lines ls⟩) (hpt : ls.flatten ≠ []) :
    ∃ l ∈ ls, ∃ y, (l.head? = some y ∨ l.getLast? = some y) ∧ ∀ x ∈ ls.flatten, dist2 y loc ≤ dist2 x loc := by
  have hne : parts ≠ [] := by
    rintro rfl
    simp [optimize] at h
  by_cases hw : ∃ p ∈ parts, InfillWalls p
  · obtain ⟨p, h1, _, h2⟩ := C126_walls interlace loc parts hw
    rw [h] at h1
    cases h1
    obtain ⟨id, hid⟩ := h2.2
    simp at hid
  · obtain ⟨k, best, last, h1, h2, _, h4⟩ := last_ok interlace loc parts hw hne
    have hlp : last ∈ parts := (sorted_perm parts).mem_iff.1 ((moveLast_perm _ k).mem_iff.1 (List.mem_of_getLast? h2))
    obtain ⟨q, g1, g2, g3⟩ := cutLast_points loc _ best _ h2
    rw [h1, g1] at h
    cases h
    obtain ⟨ls', hl'⟩ : ∃ ls', last = ⟨false, .lines ls'⟩ := by
      rcases last with ⟨s, c⟩
      obtain ⟨e1, e2⟩ := g2
      simp only at e1
      subst e1
      cases c with
      | lines a => exact ⟨a, rfl⟩
      | polygons a => simp at e2
      | walls a => simp at e2
    subst hl'
    have hfix : ¬ Fixed interlace ⟨false, .lines ls'⟩ := by
      rintro ⟨_, h, _⟩
      simp at h
    have hpts : ∀ x, x ∈ ls.flatten ↔ x ∈ ls'.flatten := g3
    have hcut : ∃ ij y d, lastPoint loc ls' best = some (ij, d) ∧ (ij, y) ∈ indexed ls' ∧ ∀ x ∈ ls'.flatten, dist2 y loc ≤ dist2 x loc := by
      rcases h4 with rfl | ⟨ls'', ij, y, e, hy, rfl, hall⟩
      · obtain ⟨c1, _, c3⟩ := closer_ok loc ls' none
        obtain ⟨x0, hx0⟩ := List.exists_mem_of_ne_nil _ hpt
        obtain ⟨b, hb, _⟩ := c1 x0 ((hpts x0).1 hx0)
        rcases c3 with c3 | ⟨_, ij, y, g1, g2⟩
        · rw [c3] at hb; simp at hb
        · refine ⟨ij, y, _, g2, g1, ?_⟩
          intro x hx
          obtain ⟨b', hb', hle⟩ := c1 x hx
          rw [g2] at hb'
          cases hb'
          exact hle
      · rcases e with e | e
        · cases e
          exact ⟨ij, y, _, rfl, hy, fun x hx => hall _ hlp hfix x hx⟩
        · simp at e
    obtain ⟨ij, y, d, e1, e2, e3⟩ := hcut
    obtain ⟨i, j⟩ := ij
    have hform : cutLast loc (moveLast (sorted parts) k) best = (moveLast (sorted parts) k).dropLast ++ [⟨false, .lines (split ls' i j)⟩] := by
      unfold cutLast
      rw [h2]
      dsimp only
      rw [e1]
    rw [hform, List.getLast?_concat] at g1
    cases g1
    obtain ⟨l, hl, hend⟩ := split_end ls' i j y e2
    exact ⟨l, hl, y, hend, fun x hx => e3 x ((hpts x).1 hx)⟩

/-- **C126 (the plan).** Each part is printed in turn. The last one is planned from the wanted end, and reversed; the first one begins at the given start; the others begin anywhere. -/
theorem C126_plan (start near : Option P2) (ps : List Part) (i : Nat) (p : Part) (h : ps[i]? = some p) :
    ∃ s r, (plan start near ps.length 0 ps)[i]? = some (p, s, r) ∧ (r = true ↔ i + 1 = ps.length ∧ near ≠ none) ∧ (r = true → s = near) ∧ (r = false → i = 0 → s = start) ∧ (r = false → i ≠ 0 → s = none) := by
  have key : ∀ (n j i : Nat) (ps : List Part), ps[i]? = some p → (plan start near n j ps)[i]? = some (p, if j + i = n - 1 ∧ near.isSome then (near, true) else if j + i = 0 then (start, false) else (none, false)) := by
    intro n j i ps
    induction ps generalizing i j with
    | nil => intro h; simp at h
    | cons q ps ih =>
      intro h
      cases i with
      | zero => simp at h; subst h; simp [plan]
      | succ i =>
        rw [plan, List.getElem?_cons_succ, ih (j + 1) i (by simpa using h)]
        rw [show j + 1 + i = j + (i + 1) by omega]
  have hi := (List.getElem?_eq_some_iff.1 h).1
  rw [key _ _ _ _ h, Nat.zero_add]
  by_cases h1 : i = ps.length - 1 ∧ near.isSome
  · rw [if_pos h1]
    refine ⟨near, true, rfl, ?_, fun _ => rfl, by simp, by simp⟩
    simp only [true_iff]
    refine ⟨by omega, ?_⟩
    rintro rfl
    simp at h1
  · rw [if_neg h1]
    have hf : ¬ (i + 1 = ps.length ∧ near ≠ none) := by
      rintro ⟨a, b⟩
      exact h1 ⟨by omega, Option.isSome_iff_ne_none.2 b⟩
    by_cases h2 : i = 0
    · rw [if_pos h2]; exact ⟨start, false, rfl, by simpa using hf, by simp, fun _ _ => rfl, fun _ h => absurd h2 h⟩
    · rw [if_neg h2]; exact ⟨none, false, rfl, by simpa using hf, by simp, fun _ h => absurd h h2, fun _ _ => rfl⟩

/-- **C126 (parts).** What is added is what is not empty, once and in the order in which it is added. -/
theorem C126_added (parts : List Part) (support : Bool) (c : Content) : addPart parts support c = parts ++ (if c = .lines [] ∨ c = .polygons [] ∨ c = .walls 0 then [] else [⟨support, c⟩]) := by
  cases c with
  | lines ls => cases ls <;> simp [addPart]
  | polygons ls => cases ls <;> simp [addPart]
  | walls id =>
    unfold addPart
    by_cases h : id = 0 <;> simp [h]

end Verif.InfillOrder
