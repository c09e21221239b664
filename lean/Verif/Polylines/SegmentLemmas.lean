import Verif.Polylines.LoopLemmas
import Mathlib.Data.List.Chain

/-! # Lemmas on the segments of chains -/

namespace Verif.Polylines

open Grid (Pt dist2)

variable {J : Type} {c : Cfg J} {lines : List (Line J)}

theorem Segment.symm {a b : J} (h : Segment lines a b) : Segment lines b a := by
  obtain ⟨l, hl, h⟩ := h
  exact ⟨l, hl, h.symm⟩

theorem Follows.symm {a b : J} (h : Follows c lines a b) : Follows c lines b a := by
  rcases h with h | h | ⟨x, h | h⟩
  · exact Or.inl h.symm
  · right; left; rw [size_comm]; exact h
  · right; right; exact ⟨x, Or.inr ⟨h.1, h.2.symm⟩⟩
  · right; right; exact ⟨x, Or.inl ⟨h.1, h.2.symm⟩⟩

theorem infix_chain {w : List J} {R : J → J → Prop} (h : ∀ a b, [a, b] <:+: w → R a b) : w.IsChain R := by
  induction w with
  | nil => exact List.IsChain.nil
  | cons a w ih =>
    cases w with
    | nil => exact List.IsChain.singleton a
    | cons b w =>
      refine List.IsChain.cons_cons (h a b ⟨[], w, rfl⟩) (ih ?_)
      intro x y hxy
      exact h x y (hxy.trans (List.suffix_cons a _).isInfix)

theorem reverse_chain {w : List J} (h : w.IsChain (Follows c lines)) : w.reverse.IsChain (Follows c lines) := by
  rw [List.isChain_reverse]
  exact h.imp fun a b hab => hab.symm

theorem line_chain {l : Line J} (hl : l ∈ lines) (r : Bool) : (oriented l r).IsChain (Segment lines) := by
  have h1 : l.pts.IsChain (Segment lines) := infix_chain fun a b h => ⟨l, hl, Or.inl h⟩
  unfold oriented
  split
  · rw [List.isChain_reverse]
    exact h1.imp fun a b hab => hab.symm
  · exact h1

theorem joined_follows {others : Nat → Prop} {odd : Bool} {ps : List (Nat × Bool)} {w : List J} (h : Joined c lines odd others ps w) :
    w.IsChain (Follows c lines) := by
  induction h with
  | seed hi _ => exact (line_chain (List.mem_of_getElem? hi) false).imp fun a b h => Or.inl h
  | @after ps w new i r l a b _ hi _ _ ha ho hm _ ih =>
    have hc := line_chain (List.mem_of_getElem? hi) r
    rw [ho] at hc
    rw [List.isChain_append]
    split
    · rename_i hs
      refine ⟨ih, (hc.tail).imp fun a b h => Or.inl h, ?_⟩
      intro x hx y hy
      rw [ha] at hx
      simp only [Option.mem_def, Option.some.injEq] at hx hy
      subst hx
      have : Segment lines b y := by
        cases new with
        | nil => simp at hy
        | cons z new =>
          simp only [List.head?_cons, Option.some.injEq] at hy
          subst hy
          exact (List.isChain_cons_cons.mp hc).1
      exact Or.inr (Or.inr ⟨b, Or.inl ⟨by rw [size_comm]; exact hs, this⟩⟩)
    · refine ⟨ih, hc.imp fun a b h => Or.inl h, ?_⟩
      intro x hx y hy
      rw [ha] at hx
      simp only [Option.mem_def, Option.some.injEq, List.head?_cons] at hx hy
      subst hx hy
      exact Or.inr (Or.inl hm)
  | @before ps w new i r l a b _ hi _ _ ha ho hm _ ih =>
    have hc := line_chain (List.mem_of_getElem? hi) r
    rw [ho] at hc
    rw [List.isChain_append]
    have hc' := List.isChain_append.mp hc
    split
    · rename_i hs
      refine ⟨hc'.1.imp fun a b h => Or.inl h, ih, ?_⟩
      intro x hx y hy
      rw [ha] at hy
      simp only [Option.mem_def, Option.some.injEq] at hy
      subst hy
      have : Segment lines x b := hc'.2.2 x hx b (by simp)
      exact Or.inr (Or.inr ⟨b, Or.inr ⟨by rw [size_comm]; exact hs, this⟩⟩)
    · refine ⟨hc.imp fun a b h => Or.inl h, ih, ?_⟩
      intro x hx y hy
      rw [ha] at hy
      simp only [Option.mem_def, Option.some.injEq, List.getLast?_append, List.getLast?_singleton, Option.some_or] at hx hy
      subst hx hy
      exact Or.inr (Or.inl (by rw [size_comm]; exact hm))

theorem joined_mem {others : Nat → Prop} {odd : Bool} {ps : List (Nat × Bool)} {w : List J} (h : Joined c lines odd others ps w) :
    ∀ x ∈ w, ∃ l ∈ lines, x ∈ l.pts := by
  induction h with
  | seed hi _ => exact fun x hx => ⟨_, List.mem_of_getElem? hi, hx⟩
  | @after ps w new i r l a b _ hi _ _ ha ho hm _ ih =>
    intro x hx
    rcases List.mem_append.mp hx with hx | hx
    · exact ih x hx
    · refine ⟨l, List.mem_of_getElem? hi, ?_⟩
      have : x ∈ oriented l r := by
        rw [ho]
        split at hx
        · simp [hx]
        · exact hx
      unfold oriented at this
      split at this <;> simpa using this
  | @before ps w new i r l a b _ hi _ _ ha ho hm _ ih =>
    intro x hx
    rcases List.mem_append.mp hx with hx | hx
    · refine ⟨l, List.mem_of_getElem? hi, ?_⟩
      have : x ∈ oriented l r := by
        rw [ho]
        split at hx
        · simp [hx]
        · exact hx
      unfold oriented at this
      split at this <;> simpa using this
    · exact ih x hx

/-- Every vertex of the lines of a chain is in it, or is an end closer than the snap distance to a vertex that is. -/
theorem joined_keeps {others : Nat → Prop} {odd : Bool} {ps : List (Nat × Bool)} {w : List J} (h : Joined c lines odd others ps w) :
    ∀ p ∈ ps, ∀ l, lines[p.1]? = some l → ∀ x ∈ l.pts, x ∈ w ∨ ∃ y ∈ w, size (c.pt x) (c.pt y) < c.snap := by
  induction h with
  | seed hi _ =>
    intro p hp l hl x hx
    simp only [List.mem_singleton] at hp
    subst hp
    rw [hi] at hl
    simp only [Option.some.injEq] at hl
    subst hl
    exact Or.inl hx
  | @after ps w new i r l a b _ hi _ _ ha ho hm _ ih =>
    intro p hp l' hl x hx
    rcases List.mem_append.mp hp with hp | hp
    · rcases ih p hp l' hl x hx with h | ⟨y, hy, h⟩
      · exact Or.inl (List.mem_append_left _ h)
      · exact Or.inr ⟨y, List.mem_append_left _ hy, h⟩
    · simp only [List.mem_singleton] at hp
      subst hp
      rw [hi] at hl
      simp only [Option.some.injEq] at hl
      subst hl
      have hx' : x ∈ b :: new := by rw [← ho]; unfold oriented; split <;> simpa using hx
      split
      · rename_i hs
        rcases List.mem_cons.mp hx' with rfl | hx'
        · exact Or.inr ⟨a, List.mem_append_left _ (List.mem_of_getLast? ha), by rw [size_comm]; exact hs⟩
        · exact Or.inl (List.mem_append_right _ hx')
      · exact Or.inl (List.mem_append_right _ hx')
  | @before ps w new i r l a b _ hi _ _ ha ho hm _ ih =>
    intro p hp l' hl x hx
    rcases List.mem_cons.mp hp with hp | hp
    · subst hp
      rw [hi] at hl
      simp only [Option.some.injEq] at hl
      subst hl
      have hx' : x ∈ new ++ [b] := by rw [← ho]; unfold oriented; split <;> simpa using hx
      split
      · rename_i hs
        rcases List.mem_append.mp hx' with hx' | hx'
        · exact Or.inl (List.mem_append_left _ hx')
        · simp only [List.mem_singleton] at hx'
          subst hx'
          exact Or.inr ⟨a, List.mem_append_right _ (List.mem_of_mem_head? ha), by rw [size_comm]; exact hs⟩
      · exact Or.inl (List.mem_append_left _ hx')
    · rcases ih p hp l' hl x hx with h | ⟨y, hy, h⟩
      · exact Or.inl (List.mem_append_right _ h)
      · exact Or.inr ⟨y, List.mem_append_right _ hy, h⟩

theorem joined_odd {others : Nat → Prop} {odd : Bool} {ps : List (Nat × Bool)} {w : List J} (h : Joined c lines odd others ps w) :
    ∀ p ∈ ps, ∀ l, lines[p.1]? = some l → l.odd = odd := by
  induction h with
  | seed hi ho =>
    intro p hp l hl
    simp only [List.mem_singleton] at hp
    subst hp
    rw [hi] at hl
    simp only [Option.some.injEq] at hl
    exact hl ▸ ho
  | after _ hi ho _ _ _ _ _ ih =>
    intro p hp l' hl
    rcases List.mem_append.mp hp with hp | hp
    · exact ih p hp l' hl
    · simp only [List.mem_singleton] at hp
      subst hp
      rw [hi] at hl
      simp only [Option.some.injEq] at hl
      exact hl ▸ ho
  | before _ hi ho _ _ _ _ _ ih =>
    intro p hp l' hl
    rcases List.mem_cons.mp hp with hp | hp
    · subst hp
      rw [hi] at hl
      simp only [Option.some.injEq] at hl
      exact hl ▸ ho
    · exact ih p hp l' hl

theorem chains_mem {results : List (Result J)} {pss : List (List (Nat × Bool))} (h : Chains c lines results pss) :
    (∀ r ∈ results, ∃ others ps, IsChain c lines others r ps) ∧ (∀ ps ∈ pss, ∃ r ∈ results, ∃ others, IsChain c lines others r ps) := by
  induction h with
  | nil => simp
  | cons h1 _ ih =>
    constructor
    · intro r hr
      rcases List.mem_cons.mp hr with rfl | hr
      · exact ⟨_, _, h1⟩
      · exact ih.1 r hr
    · intro ps hps
      rcases List.mem_cons.mp hps with rfl | hps
      · exact ⟨_, by simp, _, h1⟩
      · obtain ⟨r, hr, o, ho⟩ := ih.2 ps hps
        exact ⟨r, by simp [hr], o, ho⟩

theorem ischain_turn {others : Nat → Prop} {r : Result J} {ps : List (Nat × Bool)} (h : IsChain c lines others r ps) :
    ∃ w, Joined c lines r.odd others ps w ∧ (r.pts = w ∨ r.pts = w.reverse) := by
  obtain ⟨w, hj, h⟩ := h
  refine ⟨w, hj, ?_⟩
  rcases h with ⟨-, h, -⟩ | ⟨-, h, -⟩
  · exact Or.inl h
  · split at h
    · exact Or.inr h
    · exact Or.inl h

end Verif.Polylines
