import Verif.Walls.Spec
import Mathlib.Combinatorics.SimpleGraph.Acyclic

/-! # Lemmas on the search in a graph without cycles -/

namespace Verif.Walls

/-- The state after a list of nodes. -/
def stateAt {S : Type} (step : Nat → S → S) (s₀ : S) (l : List Nat) : S := l.foldl (fun s u => step u s) s₀

/-- A way without repetition from `w` to `v`: the nodes before `v`. -/
structure Way (G : SimpleGraph Nat) (w : Nat) (l : List Nat) (v : Nat) : Prop where
  chain : (l ++ [v]).IsChain G.Adj
  head : (l ++ [v]).head? = some w
  nodup : (l ++ [v]).Nodup

theorem walk_of_chain {G : SimpleGraph Nat} {w v : Nat} (l : List Nat) (hc : (l ++ [v]).IsChain G.Adj) (hh : (l ++ [v]).head? = some w) :
    ∃ p : G.Walk w v, p.support = l ++ [v] := by
  induction l generalizing w with
  | nil =>
    simp only [List.nil_append, List.head?_cons, Option.some.injEq] at hh
    subst hh
    exact ⟨.nil, rfl⟩
  | cons a l ih =>
    simp only [List.cons_append, List.head?_cons, Option.some.injEq] at hh
    subst hh
    obtain ⟨b, t, hb⟩ : ∃ b t, l ++ [v] = b :: t := by
      cases h : l ++ [v] with
      | nil => simp at h
      | cons b t => exact ⟨b, t, rfl⟩
    have hc' : (l ++ [v]).IsChain G.Adj := hc.tail
    obtain ⟨p, hp⟩ := ih (w := b) hc' (by rw [hb]; rfl)
    have hab : G.Adj a b := by
      have : (a :: (l ++ [v])).IsChain G.Adj := hc
      rw [hb] at this
      exact (List.isChain_cons_cons.mp this).1
    exact ⟨.cons hab p, by simp [hp]⟩

theorem way_unique {G : SimpleGraph Nat} (hG : G.IsAcyclic) {w v : Nat} {l l' : List Nat} (h : Way G w l v) (h' : Way G w l' v) : l = l' := by
  obtain ⟨p, hp⟩ := walk_of_chain l h.chain h.head
  obtain ⟨q, hq⟩ := walk_of_chain l' h'.chain h'.head
  have h1 : p.IsPath := by rw [SimpleGraph.Walk.isPath_def, hp]; exact h.nodup
  have h2 : q.IsPath := by rw [SimpleGraph.Walk.isPath_def, hq]; exact h'.nodup
  have := (hG.subsingleton_path w v).elim ⟨p, h1⟩ ⟨q, h2⟩
  have : p = q := congrArg Subtype.val this
  rw [this, hq] at hp
  exact (List.append_cancel_right hp).symm

/-- The way is the shortest. -/
theorem way_shortest {G : SimpleGraph Nat} (hG : G.IsAcyclic) {w v : Nat} {l : List Nat} (h : Way G w l v) (q : G.Walk w v) : l.length ≤ q.length := by
  obtain ⟨p, hp⟩ := walk_of_chain l h.chain h.head
  have h1 : p.IsPath := by rw [SimpleGraph.Walk.isPath_def, hp]; exact h.nodup
  have := (hG.subsingleton_path w v).elim ⟨p, h1⟩ ⟨q.bypass, q.bypass_isPath⟩
  have he : p = q.bypass := congrArg Subtype.val this
  have hl : p.length = l.length := by
    have := p.length_support
    rw [hp] at this
    simp at this
    omega
  rw [← hl, he]
  exact q.length_bypass_le_length

section
variable {S : Type} {G : SimpleGraph Nat} {nb : Nat → List Nat} {N : Nat} (hnb : ∀ v u, u ∈ nb v ↔ G.Adj v u) (hN : ∀ v u, G.Adj v u → u < N)
  (step : Nat → S → S) (s₀ : S) (w : Nat)

/-- What a search has done. -/
structure Done (G : SimpleGraph Nat) (N : Nat) (step : Nat → S → S) (s₀ : S) (w : Nat) (visited : List Nat) (r : List (Nat × S) × List Nat) : Prop where
  sub : ∀ x ∈ visited, x ∈ r.2
  nodup : r.2.Nodup
  lt : ∀ x ∈ r.2, x < N
  visits : ∀ e ∈ r.1, ∃ l, Way G w l e.1 ∧ e.2 = stateAt step s₀ l
  new : ∀ x ∈ r.2, x ∈ visited ∨ ∃ s, (x, s) ∈ r.1

/-- The nodes that have become visited have only visited neighbours. -/
def Spread (G : SimpleGraph Nat) (visited after : List Nat) : Prop := ∀ x ∈ after, x ∈ visited ∨ ∀ y, G.Adj x y → y ∈ after

include hnb hN in
theorem dfs_done (n : Nat) {v : Nat} {l visited : List Nat} (hv : v < N) (hnd : visited.Nodup) (hlt : ∀ x ∈ visited, x < N)
    (hl : ∀ x ∈ l, x ∈ visited) (hway : v ∉ visited → Way G w l v) (hn : N < n + visited.length) :
    ∃ r, dfs nb step n v (stateAt step s₀ l) visited = some r ∧ Done G N step s₀ w visited r ∧ v ∈ r.2 ∧ Spread G visited r.2 := by
  induction n generalizing v l visited with
  | zero =>
    have := (List.subperm_of_subset hnd (l₂ := List.range N) (fun k hk => List.mem_range.mpr (hlt k hk))).length_le
    simp at this
    omega
  | succ n ih =>
    unfold dfs
    by_cases hvis : v ∈ visited
    · rw [if_pos hvis]
      exact ⟨_, rfl, ⟨fun x h => h, hnd, hlt, by simp, fun x h => Or.inl h⟩, hvis, fun x h => Or.inl h⟩
    · rw [if_neg hvis]
      have hw := hway hvis
      -- the loop over the neighbours
      have loop : ∀ (us : List Nat) (hus : ∀ u ∈ us, G.Adj v u) (acc : List (Nat × S) × List Nat),
          Done G N step s₀ w (v :: visited) acc → Spread G (v :: visited) acc.2 →
          ∃ r, us.foldlM (fun acc u => (dfs nb step n u (step v (stateAt step s₀ l)) acc.2).map fun r => (acc.1 ++ r.1, r.2)) acc = some r ∧
            Done G N step s₀ w (v :: visited) r ∧ Spread G (v :: visited) r.2 ∧ (∀ u ∈ us, u ∈ r.2) ∧ (∀ e ∈ acc.1, e ∈ r.1) ∧ (∀ x ∈ acc.2, x ∈ r.2) := by
        intro us
        induction us with
        | nil => intro _ acc h1 h2; exact ⟨acc, rfl, h1, h2, by simp, fun e h => h, fun x h => h⟩
        | cons u us ihu =>
          intro hus acc h1 h2
          have hvu : G.Adj v u := hus u (by simp)
          have hst : step v (stateAt step s₀ l) = stateAt step s₀ (l ++ [v]) := by unfold stateAt; rw [List.foldl_append]; rfl
          obtain ⟨r, e1, d1, m1, sp1⟩ := ih (v := u) (l := l ++ [v]) (visited := acc.2) (hN v u hvu) h1.nodup h1.lt (by
              intro x hx
              rcases List.mem_append.mp hx with hx | hx
              · exact h1.sub x (by simp [hl x hx])
              · simp only [List.mem_singleton] at hx
                subst hx
                exact h1.sub x (by simp)) (by
              intro hu
              refine ⟨?_, ?_, ?_⟩
              · rw [List.isChain_append]
                refine ⟨hw.chain, List.IsChain.singleton _, ?_⟩
                intro x hx y hy
                simp at hx hy
                subst hx hy
                exact hvu
              · rw [List.head?_append, hw.head]; rfl
              · rw [List.nodup_append]
                refine ⟨hw.nodup, by simp, ?_⟩
                intro x hx y hy hxy
                simp only [List.mem_singleton] at hy
                subst hy hxy
                apply hu
                rcases List.mem_append.mp hx with hx | hx
                · exact h1.sub x (by simp [hl x hx])
                · simp only [List.mem_singleton] at hx
                  subst hx
                  exact h1.sub x (by simp)) (by
              have : visited.length + 1 ≤ acc.2.length := by
                have := (List.subperm_of_subset (l₁ := v :: visited) (List.nodup_cons.mpr ⟨hvis, hnd⟩) (fun x hx => h1.sub x hx)).length_le
                simpa using this
              omega)
          have hsub : ∀ x ∈ acc.2, x ∈ r.2 := d1.sub
          obtain ⟨r', e2, d2, sp2, m2, k1, k2⟩ := ihu (fun x hx => hus x (by simp [hx])) (acc.1 ++ r.1, r.2) (by
              refine ⟨fun x hx => hsub x (h1.sub x hx), d1.nodup, d1.lt, ?_, ?_⟩
              · intro e he
                rcases List.mem_append.mp he with he | he
                · exact h1.visits e he
                · exact d1.visits e he
              · intro x hx
                rcases d1.new x hx with hx | ⟨s, hs⟩
                · rcases h1.new x hx with hx | ⟨s, hs⟩
                  · exact Or.inl hx
                  · exact Or.inr ⟨s, List.mem_append_left _ hs⟩
                · exact Or.inr ⟨s, List.mem_append_right _ hs⟩) (by
              intro x hx
              rcases sp1 x hx with hx | hx
              · rcases h2 x hx with hx | hx
                · exact Or.inl hx
                · exact Or.inr fun y hy => hsub y (hx y hy)
              · exact Or.inr hx)
          refine ⟨r', ?_, d2, sp2, ?_, fun e he => k1 e (List.mem_append_left _ he), fun x hx => k2 x (hsub x hx)⟩
          · rw [List.foldlM_cons, hst, e1]
            simp only [Option.map_some, Option.bind_eq_bind, Option.bind_some]
            rw [hst] at e2
            exact e2
          · intro x hx
            rcases List.mem_cons.mp hx with rfl | hx
            · exact k2 x m1
            · exact m2 x hx
      obtain ⟨r, e, d, sp, m, k1, k2⟩ := loop (nb v) (fun u hu => (hnb v u).mp hu) ([(v, stateAt step s₀ l)], v :: visited) (by
          refine ⟨fun x h => h, List.nodup_cons.mpr ⟨hvis, hnd⟩, ?_, ?_, fun x h => Or.inl h⟩
          · intro x hx
            rcases List.mem_cons.mp hx with rfl | hx
            · exact hv
            · exact hlt x hx
          · intro e he
            simp only [List.mem_singleton] at he
            subst he
            exact ⟨l, hw, rfl⟩) (fun x h => Or.inl h)
      refine ⟨r, e, ⟨fun x hx => d.sub x (by simp [hx]), d.nodup, d.lt, d.visits, ?_⟩, d.sub v (by simp), ?_⟩
      · intro x hx
        rcases d.new x hx with hx | hx
        · rcases List.mem_cons.mp hx with rfl | hx
          · exact Or.inr ⟨stateAt step s₀ l, k1 _ (by simp)⟩
          · exact Or.inl hx
        · exact Or.inr hx
      · intro x hx
        rcases sp x hx with hx | hx
        · rcases List.mem_cons.mp hx with rfl | hx
          · exact Or.inr fun y hy => m y ((hnb x y).mpr hy)
          · exact Or.inl hx
        · exact Or.inr hx

include hnb hN in
/-- A search from `w` visits everything that can be reached, with the state along the only way. -/
theorem dfs_top (hw : w < N) :
    ∃ r, dfs nb step (N + 1) w s₀ [] = some r ∧ (∀ e ∈ r.1, ∃ l, Way G w l e.1 ∧ e.2 = stateAt step s₀ l) ∧
      ∀ x, G.Reachable w x → ∃ s, (x, s) ∈ r.1 := by
  obtain ⟨r, e, d, m, sp⟩ := dfs_done hnb hN step s₀ w (N + 1) (v := w) (l := []) (visited := []) hw (by simp) (by simp) (by simp)
    (fun _ => ⟨List.IsChain.singleton _, rfl, by simp⟩) (by simp)
  refine ⟨r, e, d.visits, ?_⟩
  have hcl : ∀ {a x : Nat} (p : G.Walk a x), a ∈ r.2 → x ∈ r.2 := by
    intro a x p
    induction p with
    | nil => exact fun h => h
    | cons h _ ih =>
      intro ha
      apply ih
      rcases sp _ ha with h' | h'
      · simp at h'
      · exact h' _ h
  intro x ⟨p⟩
  rcases d.new x (hcl p m) with h | h
  · simp at h
  · exact h

end

/-- A graph in which every node has at most one neighbour above it has no cycle. -/
theorem acyclic_of_rank {G : SimpleGraph Nat} (lt : Nat → Nat → Prop) [Std.Irrefl lt] [IsTrans Nat lt] [Std.Trichotomous lt]
    (hup : ∀ v a b, G.Adj v a → G.Adj v b → lt v a → lt v b → a = b) : G.IsAcyclic := by
  intro v c hc
  -- the lowest node of the cycle
  have hmin : ∃ u ∈ c.support, ∀ x ∈ c.support, ¬lt x u := by
    have : ∀ l : List Nat, l ≠ [] → ∃ u ∈ l, ∀ x ∈ l, ¬lt x u := by
      intro l
      induction l with
      | nil => simp
      | cons a l ih =>
        intro _
        by_cases hl : l = []
        · subst hl
          exact ⟨a, by simp, by simp [Std.Irrefl.irrefl]⟩
        · obtain ⟨u, hu, hm⟩ := ih hl
          by_cases hau : lt a u
          · refine ⟨a, by simp, ?_⟩
            intro x hx
            rcases List.mem_cons.mp hx with rfl | hx
            · exact Std.Irrefl.irrefl _
            · exact fun h => hm x hx (IsTrans.trans _ _ _ h hau)
          · refine ⟨u, by simp [hu], ?_⟩
            intro x hx
            rcases List.mem_cons.mp hx with rfl | hx
            · exact hau
            · exact hm x hx
    exact this _ (by simp)
  obtain ⟨u, hu, hm⟩ := hmin
  have hc' := hc.rotate hu
  have hsupp : ∀ x ∈ (c.rotate u hu).support, x ∈ c.support := by
    intro x hx
    rwa [SimpleGraph.Walk.mem_support_rotate_iff] at hx
  have h1 : G.Adj u (c.rotate u hu).snd := (c.rotate u hu).adj_snd hc'.not_nil
  have h2 : G.Adj (c.rotate u hu).penultimate u := (c.rotate u hu).adj_penultimate hc'.not_nil
  have hne := hc'.snd_ne_penultimate
  have key : ∀ x, x ∈ (c.rotate u hu).support → G.Adj u x → lt u x := by
    intro x hx hadj
    by_contra hno
    exact hadj.ne (Std.Trichotomous.trichotomous u x hno (hm x (hsupp x hx)))
  exact hne (hup u _ _ h1 h2.symm (key _ (by exact SimpleGraph.Walk.getVert_mem_support _ _) h1)
    (key _ (by exact SimpleGraph.Walk.getVert_mem_support _ _) h2.symm))

end Verif.Walls
