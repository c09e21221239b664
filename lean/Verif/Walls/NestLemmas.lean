import Verif.Walls.GraphLemmas

/-! # Lemmas on how walls are nested -/

namespace Verif.Walls

variable {S : Shapes} {ws : List Wall}

theorem larger_irrefl (i : Nat) : ¬Larger S i i := by unfold Larger; omega

theorem larger_trans {i j k : Nat} (h : Larger S i j) (h' : Larger S j k) : Larger S i k := by unfold Larger at *; omega

theorem larger_asymm {i j : Nat} (h : Larger S i j) : ¬Larger S j i := by unfold Larger at *; omega

theorem larger_total {i j : Nat} (h : ¬Larger S i j) (h' : ¬Larger S j i) : i = j := by unfold Larger at *; omega

theorem sorted_perm : (sorted S ws).Perm (List.range ws.length) := List.perm_insertionSort _ _

theorem sorted_larger : (sorted S ws).Pairwise fun a b => Larger S b a := by
  have h1 : (sorted S ws).Pairwise fun i j => S.area i < S.area j ∨ S.area i = S.area j ∧ i ≤ j := by
    have : Std.Total (fun i j : Nat => S.area i < S.area j ∨ S.area i = S.area j ∧ i ≤ j) := ⟨fun a b => by omega⟩
    have : IsTrans Nat (fun i j : Nat => S.area i < S.area j ∨ S.area i = S.area j ∧ i ≤ j) := ⟨fun a b c h h' => by omega⟩
    exact List.pairwise_insertionSort _ _
  have h2 : (sorted S ws).Nodup := sorted_perm.nodup_iff.mpr List.nodup_range
  refine (h1.and h2).imp ?_
  rintro a b ⟨h, hne⟩
  unfold Larger
  omega

/-- What the loop has found among the walls so far. -/
structure Nested (S : Shapes) (ws : List Wall) (pre : List Nat) (s : Nest) : Prop where
  roots : ∀ j, j ∈ s.roots ↔ j ∈ pre ∧ ∀ i ∈ pre, ¬Encloses S ws i j
  pairs : ∀ j i, (j, i) ∈ s.pairs ↔ j ∈ pre ∧ i ∈ pre ∧ Encloses S ws i j ∧ ∀ k ∈ pre, Encloses S ws k j → k = i ∨ Larger S k i

theorem nestStep_nested {pre : List Nat} {s : Nest} {i : Nat} (h : Nested S ws pre s) (hi : i < ws.length) (hpre : ∀ j ∈ pre, Larger S i j ∧ j < ws.length) :
    Nested S ws (pre ++ [i]) (nestStep S ws s i) := by
  have hnot : ∀ j, j ∈ pre → ∀ k, k ∈ pre → ¬Encloses S ws j i := fun j hj k hk h => larger_asymm h.2.2.2 (hpre j hj).1
  have hself : ¬Encloses S ws i i := fun h => larger_irrefl i h.2.2.2
  have hnoti : ∀ j ∈ pre, ¬Encloses S ws j i := fun j hj h => larger_asymm h.2.2.2 (hpre j hj).1
  have hne : ∀ j ∈ pre, j ≠ i := fun j hj h => larger_irrefl i (h ▸ (hpre j hj).1)
  by_cases hc : (ws[i]?).any Wall.closed = true
  · have hcl : ∃ w, ws[i]? = some w ∧ w.closed = true := by
      cases hw : ws[i]? with
      | none => rw [hw] at hc; simp at hc
      | some w => rw [hw] at hc; exact ⟨w, rfl, by simpa using hc⟩
    have henc : ∀ j ∈ pre, (Encloses S ws i j ↔ S.within i j = true) := by
      intro j hj
      exact ⟨fun h => h.2.2.1, fun h => ⟨hcl, (hpre j hj).2, h, (hpre j hj).1⟩⟩
    unfold nestStep
    rw [if_pos hc]
    constructor
    · intro j
      simp only [List.mem_append, List.mem_filter, List.mem_singleton, Bool.not_eq_true']
      rw [h.roots]
      constructor
      · rintro (⟨⟨h1, h2⟩, h3⟩ | rfl)
        · refine ⟨Or.inl h1, ?_⟩
          rintro k (hk | rfl)
          · exact h2 k hk
          · rw [henc j h1, h3]; simp
        · refine ⟨Or.inr rfl, ?_⟩
          rintro k (hk | rfl)
          · exact hnoti k hk
          · exact hself
      · rintro ⟨h1 | rfl, h2⟩
        · left
          refine ⟨⟨h1, fun k hk => h2 k (Or.inl hk)⟩, ?_⟩
          have := h2 i (Or.inr rfl)
          rw [henc j h1] at this
          simpa using this
        · exact Or.inr rfl
    · intro j k
      simp only [List.mem_append, List.mem_map, List.mem_filter, List.mem_singleton, Prod.mk.injEq]
      rw [h.pairs]
      constructor
      · rintro (⟨h1, h2, h3, h4⟩ | ⟨r, ⟨hr, hw⟩, rfl, rfl⟩)
        · refine ⟨Or.inl h1, Or.inl h2, h3, ?_⟩
          rintro m (hm | rfl) hme
          · exact h4 m hm hme
          · exact Or.inr (hpre k h2).1
        · rw [h.roots] at hr
          refine ⟨Or.inl hr.1, Or.inr rfl, (henc r hr.1).mpr hw, ?_⟩
          rintro m (hm | rfl) hme
          · exact absurd hme (hr.2 m hm)
          · exact Or.inl rfl
      · rintro ⟨h1, h2, h3, h4⟩
        have h1' : j ∈ pre := by
          rcases h1 with h1 | rfl
          · exact h1
          · rcases h2 with h2 | rfl
            · exact absurd h3 (hnoti k h2)
            · exact absurd h3 hself
        rcases h2 with h2 | rfl
        · left
          refine ⟨h1', h2, h3, fun m hm hme => h4 m (Or.inl hm) hme⟩
        · right
          refine ⟨j, ⟨?_, (henc j h1').mp h3⟩, rfl, rfl⟩
          rw [h.roots]
          refine ⟨h1', ?_⟩
          intro m hm hme
          rcases h4 m (Or.inl hm) hme with rfl | hl
          · exact hne m hm rfl
          · exact larger_asymm hl (hpre m hm).1
  · have hnc : ∀ j, ¬Encloses S ws i j := by
      rintro j ⟨⟨w, hw, hwc⟩, -⟩
      rw [hw] at hc
      simp [hwc] at hc
    unfold nestStep
    rw [if_neg hc]
    constructor
    · intro j
      simp only [List.mem_append, List.mem_singleton]
      rw [h.roots]
      constructor
      · rintro (⟨h1, h2⟩ | rfl)
        · refine ⟨Or.inl h1, ?_⟩
          rintro k (hk | rfl)
          · exact h2 k hk
          · exact hnc j
        · refine ⟨Or.inr rfl, ?_⟩
          rintro k (hk | rfl)
          · exact hnoti k hk
          · exact hself
      · rintro ⟨h1 | rfl, h2⟩
        · exact Or.inl ⟨h1, fun k hk => h2 k (Or.inl hk)⟩
        · exact Or.inr rfl
    · intro j k
      dsimp only
      rw [h.pairs]
      simp only [List.mem_append, List.mem_singleton]
      constructor
      · rintro ⟨h1, h2, h3, h4⟩
        refine ⟨Or.inl h1, Or.inl h2, h3, ?_⟩
        rintro m (hm | rfl) hme
        · exact h4 m hm hme
        · exact absurd hme (hnc j)
      · rintro ⟨h1, h2, h3, h4⟩
        rcases h2 with h2 | rfl
        · rcases h1 with h1 | rfl
          · exact ⟨h1, h2, h3, fun m hm hme => h4 m (Or.inl hm) hme⟩
          · exact absurd h3 (hnoti k h2)
        · exact absurd h3 (hnc j)

theorem nest_pairs (j i : Nat) : (j, i) ∈ (nest S ws).pairs ↔ Around S ws i j := by
  have key : ∀ (post pre : List Nat) (s : Nest), pre ++ post = sorted S ws → Nested S ws pre s →
      Nested S ws (sorted S ws) (post.foldl (nestStep S ws) s) := by
    intro post
    induction post with
    | nil => intro pre s h hn; rw [← h, List.append_nil]; exact hn
    | cons a post ih =>
      intro pre s h hn
      have hs : (pre ++ a :: post).Pairwise fun a b => Larger S b a := by rw [h]; exact sorted_larger
      have hlt : ∀ x ∈ pre ++ a :: post, x < ws.length := by
        intro x hx
        rw [h] at hx
        exact List.mem_range.mp (sorted_perm.subset hx)
      refine ih (pre ++ [a]) _ (by rw [← h]; simp) (nestStep_nested hn (hlt a (by simp)) ?_)
      intro j hj
      exact ⟨(List.pairwise_append.mp hs).2.2 j hj a (by simp), hlt j (by simp [hj])⟩
  have h := key (sorted S ws) [] ⟨[], []⟩ rfl ⟨by simp, by simp⟩
  have hmem : ∀ x, x ∈ sorted S ws ↔ x < ws.length := by
    intro x
    rw [sorted_perm.mem_iff, List.mem_range]
  unfold nest
  rw [h.pairs]
  have hlt : ∀ k j, Encloses S ws k j → k < ws.length := by
    rintro k j ⟨⟨w, hw, -⟩, -⟩
    exact (List.getElem?_eq_some_iff.mp hw).1
  unfold Around
  constructor
  · rintro ⟨-, -, h3, h4⟩
    exact ⟨h3, fun k hk => h4 k ((hmem k).mpr (hlt k j hk)) hk⟩
  · rintro ⟨h3, h4⟩
    exact ⟨(hmem j).mpr h3.2.1, (hmem i).mpr (hlt i j h3), h3, fun k _ hk => h4 k hk⟩

/-- The walls as nodes. -/
def wallGraph (S : Shapes) (ws : List Wall) : SimpleGraph Nat where
  Adj := NextTo S ws
  symm := ⟨fun _ _ h => Or.symm h⟩
  loopless := ⟨fun i h => by
    rcases h with h | h
    · exact larger_irrefl i h.1.2.2.2
    · exact larger_irrefl i h.1.2.2.2⟩

theorem wallGraph_acyclic : (wallGraph S ws).IsAcyclic := by
  have : Std.Irrefl (fun a b => Larger S b a) := ⟨fun a => larger_irrefl a⟩
  have : IsTrans Nat (fun a b => Larger S b a) := ⟨fun _ _ _ h h' => larger_trans h' h⟩
  have : Std.Trichotomous (fun a b => Larger S b a) := ⟨fun _ _ h h' => larger_total h' h⟩
  refine acyclic_of_rank (fun a b => Larger S b a) ?_
  intro v a b ha hb hva hvb
  have up : ∀ x, NextTo S ws v x → Larger S x v → Around S ws x v := by
    rintro x (h | h) hl
    · exact absurd hl (larger_asymm h.1.2.2.2)
    · exact h
  have ha' := up a ha hva
  have hb' := up b hb hvb
  rcases ha'.2 b hb'.1 with h | h
  · exact h.symm
  · rcases hb'.2 a ha'.1 with h' | h'
    · exact h'
    · exact absurd h (larger_asymm h')

theorem mem_neighbours {v u : Nat} : u ∈ neighbours (nest S ws).pairs v ↔ (wallGraph S ws).Adj v u := by
  unfold neighbours
  rw [List.mem_filterMap]
  constructor
  · rintro ⟨⟨a, b⟩, he, h⟩
    rw [nest_pairs] at he
    dsimp only at h
    split at h
    · simp only [Option.some.injEq] at h
      subst h
      rename_i h1
      subst h1
      exact Or.inr he
    · split at h
      · simp only [Option.some.injEq] at h
        subst h
        rename_i h1
        subst h1
        exact Or.inl he
      · simp at h
  · rintro (h | h)
    · refine ⟨(u, v), (nest_pairs u v).mpr h, ?_⟩
      have : u ≠ v := by rintro rfl; exact larger_irrefl u h.1.2.2.2
      simp [this]
    · refine ⟨(v, u), (nest_pairs v u).mpr h, ?_⟩
      simp

theorem adj_lt {v u : Nat} (h : (wallGraph S ws).Adj v u) : u < ws.length := by
  rcases h with h | h
  · exact h.1.2.1
  · obtain ⟨⟨w, hw, -⟩, -⟩ := h.1
    exact (List.getElem?_eq_some_iff.mp hw).1

end Verif.Walls
