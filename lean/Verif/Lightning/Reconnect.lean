import Verif.Lightning.New

/-! # Trees from above are connected -/

namespace Verif.Lightning

variable {P K : Type} [DecidableEq P] [DecidableEq K]

omit [DecidableEq P] in
theorem nodes_mid (a b : List (Tree P)) (t : Tree P) : (nodesList (a ++ t :: b)).Perm (t.nodes ++ nodesList (a ++ b)) := by
  rw [nodesList_append, nodesList_append, nodesList]
  exact List.perm_append_comm_assoc _ _ _

omit [DecidableEq P] in
theorem edges_mid (a b : List (Tree P)) (t : Tree P) : (edges (a ++ t :: b)).Perm (t.edges ++ edges (a ++ b)) := by
  rw [edges_append, edges_append, edges_cons]
  exact List.perm_append_comm_assoc _ _ _

/-- What holds between the state before a root is connected and the state after. -/
structure Joined (on : P → Prop) (i : Nat) (st st' : State P) : Prop where
  ok : IdsOk st'.forest st'.next
  le : st.next ≤ st'.next
  nodes : ∃ l, (nodesList st'.forest).Perm (nodesList st.forest ++ l) ∧ ∀ n ∈ l, st.next ≤ n.1 ∧ on n.2
  edges : (undAll (edges st.forest)).Subperm (undAll (edges st'.forest))
  roots : ∀ j ∈ st.forest.map Tree.id, j = i ∨ j ∈ st'.forest.map Tree.id
  placed : ∀ t ∈ st'.forest, on t.loc ∨ (t.id ≠ i ∧ (t.id, t.loc) ∈ st.forest.map fun t => (t.id, t.loc))

omit [DecidableEq P] in
theorem root_mem {ts : List (Tree P)} {t : Tree P} (h : t ∈ ts) : t.id ∈ ids ts := by
  obtain ⟨a, b, rfl⟩ := List.append_of_mem h
  rw [ids, ((nodes_mid a b t).map _).mem_iff, List.map_append, nodes_eq]
  simp

omit [DecidableEq P] in
theorem sublist_ids_nodup {a b : List (Tree P)} {t : Tree P} (h : (ids (a ++ t :: b)).Nodup) : (t.nodes.map (·.1)).Nodup ∧ (ids (a ++ b)).Nodup ∧
    ∀ i ∈ t.nodes.map (·.1), i ∉ ids (a ++ b) := by
  have hp := ((nodes_mid a b t).map (fun n : Nat × P => n.1)).nodup_iff.1 h
  rw [List.map_append, List.nodup_append] at hp
  exact ⟨hp.1, hp.2.1, fun i hi hi' => hp.2.2 i hi i hi' rfl⟩

omit [DecidableEq P] in
theorem other_roots {a b : List (Tree P)} {t : Tree P} (h : (ids (a ++ t :: b)).Nodup) : ∀ x ∈ a ++ b, x.id ≠ t.id := by
  intro x hx e
  refine (sublist_ids_nodup h).2.2 t.id ?_ (e ▸ root_mem hx)
  rw [nodes_eq]
  exact List.mem_cons_self

omit [DecidableEq P] in
/-- A root on top. -/
theorem joined_top {on : P → Prop} {st : State P} {before after : List (Tree P)} {t t' : Tree P} (hok : IdsOk st.forest st.next)
    (hf : st.forest = before ++ t :: after) (x : P) (hx : on x) (hn : t'.nodes.Perm t.nodes) (he : (undAll t'.edges).Perm (undAll t.edges)) (loc : List (P × Nat)) :
    Joined on t.id st ⟨before ++ .node st.next x (some x) [t'] :: after, loc, st.next + 1⟩ := by
  have hnodes : (nodesList (before ++ .node st.next x (some x) [t'] :: after)).Perm (nodesList st.forest ++ [(st.next, x)]) := by
    refine (nodes_mid _ _ _).trans ?_
    rw [hf]
    refine List.Perm.trans ?_ ((nodes_mid before after t).append_right _).symm
    simp only [Tree.nodes, nodesList, List.append_nil, List.cons_append]
    refine List.Perm.trans ?_ (List.perm_append_singleton _ _).symm
    exact List.Perm.cons _ (hn.append_right _)
  refine ⟨?_, Nat.le_succ _, ⟨_, hnodes, ?_⟩, ?_, ?_, ?_⟩
  · exact idsOk_append hok hnodes (by simp) (by simp) (by simp) (Nat.le_succ _)
  · intro n hn
    rw [List.mem_singleton] at hn
    cases hn
    exact ⟨Nat.le_refl _, hx⟩
  · show List.Subperm (List.map und _) (List.map und (edges (before ++ _ :: after)))
    refine List.Subperm.trans ?_ ((edges_mid before after _).map und).symm.subperm
    rw [hf]
    refine List.Subperm.trans ((edges_mid before after t).map und).subperm ?_
    rw [List.map_append, List.map_append]
    refine (List.subperm_append_right _).2 ?_
    refine he.symm.subperm.trans ?_
    show List.Subperm (List.map und t'.edges) (List.map und ((st.next, t'.id) :: (t'.edges ++ edgesList _ [])))
    rw [edgesList, List.append_nil, List.map_cons]
    exact (List.sublist_cons_self _ _).subperm
  · intro j hj
    rw [hf] at hj
    simp only [List.map_append, List.map_cons, List.mem_append, List.mem_cons] at hj ⊢
    tauto
  · intro y hy
    simp only [List.mem_append, List.mem_cons] at hy
    rcases hy with hy | rfl | hy
    · refine Or.inr ⟨other_roots (hf ▸ hok.1) y (List.mem_append_left _ hy), ?_⟩
      rw [hf]
      exact List.mem_map_of_mem (f := fun t : Tree P => (t.id, t.loc)) (List.mem_append_left _ hy)
    · exact Or.inl hx
    · refine Or.inr ⟨other_roots (hf ▸ hok.1) y (List.mem_append_right _ hy), ?_⟩
      rw [hf]
      exact List.mem_map_of_mem (f := fun t : Tree P => (t.id, t.loc)) (List.mem_append_right _ (List.mem_cons_of_mem _ hy))

omit [DecidableEq P] in
theorem reroot_closest (dist2 : P → P → Int) (t : Tree P) (q : P) :
    ∃ t', t.reroot (t.closest dist2 q).1 [] = some t' ∧ t'.nodes.Perm t.nodes ∧ (undAll t'.edges).Perm (undAll t.edges) := by
  have hc := (closest_both dist2 q).1 t
  obtain ⟨t', ht⟩ := (reroot_some (t.closest dist2 q).1).1 t [] (List.mem_map_of_mem hc)
  refine ⟨t', ht, ?_, ?_⟩
  · simpa [nodesList] using ((reroot_nodes _).1 t [] t' ht).2
  · simpa [edges] using (reroot_edges _).1 t [] t' ht

omit [DecidableEq K] in
theorem reconnectOne_spec {env : Env P K} {on : P → Prop} (ho : Outline env on) {i : Nat} {st : State P} (hok : IdsOk st.forest st.next)
    (hi : i ∈ st.forest.map Tree.id) : ∃ st', reconnectOne env i st = some st' ∧ Joined on i st st' := by
  obtain ⟨before, t, after, hs⟩ := split_of_mem hi
  obtain ⟨hf, rfl⟩ := split_some hs
  unfold reconnectOne
  rw [hs]
  simp only [Option.bind_eq_bind, Option.bind_some]
  cases hl : lastGround env t with
  | some x =>
    refine ⟨_, rfl, joined_top hok hf x ?_ (List.Perm.refl _) (List.Perm.refl _) _⟩
    unfold lastGround at hl
    split at hl
    · cases hl
    · split at hl
      · cases hl
      · exact ho.crossing _ _ _ hl
  | none =>
    dsimp only
    cases hb : best env (env.wallRadius - 100) st (some t) t.loc with
    | none =>
      dsimp only
      split
      · rename_i hq
        refine ⟨st, rfl, hok, Nat.le_refl _, ⟨[], by simp, by simp⟩, List.Subperm.refl _, fun j hj => Or.inr hj, fun x hx => ?_⟩
        by_cases h : x.id = t.id
        · left
          rw [hf] at hx
          simp only [List.mem_append, List.mem_cons] at hx
          have hx' : x = t ∨ x ∈ before ++ after := by
            rw [List.mem_append]; tauto
          rcases hx' with rfl | hx'
          · rw [← hq]; exact ho.closest _
          · exact absurd h (other_roots (hf ▸ hok.1) x hx')
        · exact Or.inr ⟨h, List.mem_map_of_mem (f := fun t : Tree P => (t.id, t.loc)) hx⟩
      · obtain ⟨t', h1, h2, h3⟩ := reroot_closest env.dist2 t (env.closest t.loc)
        rw [h1]
        exact ⟨_, rfl, joined_top hok hf _ (ho.closest _) h2 h3 _⟩
    | some n =>
      obtain ⟨b1, -, b3⟩ := best_spec hb
      obtain ⟨t', h1, h2, h3⟩ := reroot_closest env.dist2 t n.loc
      dsimp only
      rw [h1]
      have hni : n.id ∈ ids (before ++ after) := by
        have : n.id ∈ ids st.forest := List.mem_map_of_mem (f := (·.1)) b1
        rw [hf, ids, ((nodes_mid before after t).map _).mem_iff, List.map_append, List.mem_append] at this
        rcases this with h | h
        · exact absurd h (b3 t rfl)
        · exact h
      have hnd := sublist_ids_nodup (hf ▸ hok.1)
      rw [Option.bind_some, if_pos (findList_isSome.2 hni)]
      have hsw := swapOut_perm before after
      have hnsw : (ids (swapOut before after)).Nodup := ((nodesList_perm hsw).map _).nodup_iff.2 hnd.2.1
      have hisw : n.id ∈ ids (swapOut before after) := ((nodesList_perm hsw).map _).mem_iff.2 hni
      have hN : (nodesList (addAtList n.id t' (swapOut before after))).Perm (nodesList st.forest) := by
        refine (addAtList_nodes t' hnsw hisw).trans ?_
        rw [hf]
        refine List.Perm.trans ?_ (nodes_mid before after t).symm
        exact ((nodesList_perm hsw).append h2).trans List.perm_append_comm
      have hroots := addAtList_roots n.id t' (swapOut before after)
      have hroots' : ((addAtList n.id t' (swapOut before after)).map fun t => (t.id, t.loc)).Perm ((before ++ after).map fun t => (t.id, t.loc)) := by
        rw [hroots]; exact hsw.map _
      refine ⟨_, rfl, ?_, Nat.le_refl _, ⟨[], by simpa using hN, by simp⟩, ?_, ?_, ?_⟩
      · exact ⟨(hN.map _).nodup_iff.2 hok.1, fun j hj => hok.2 j ((hN.map _).mem_iff.1 hj)⟩
      · show List.Subperm (List.map und _) (List.map und (edges (addAtList n.id t' (swapOut before after))))
        refine List.Subperm.trans ?_ ((addAtList_edges t' hnsw hisw).map und).symm.subperm
        rw [hf]
        refine List.Subperm.trans ((edges_mid before after t).map und).subperm ?_
        rw [List.map_append, List.map_append, List.map_cons]
        refine List.Subperm.trans (List.perm_append_comm).subperm ?_
        refine List.Subperm.trans ((List.subperm_append_right _).2 ((edges_perm hsw).map und).symm.subperm) ?_
        refine (List.subperm_append_left _).2 ?_
        exact he_sub h3
      · intro j hj
        rw [hf] at hj
        simp only [List.map_append, List.map_cons, List.mem_append, List.mem_cons] at hj
        by_cases hjt : j = t.id
        · exact Or.inl hjt
        · right
          have : j ∈ (before ++ after).map Tree.id := by
            rw [List.map_append, List.mem_append]; tauto
          have hm : ((addAtList n.id t' (swapOut before after)).map Tree.id).Perm ((before ++ after).map Tree.id) := by
            have := hroots'.map (·.1)
            rwa [List.map_map, List.map_map] at this
          exact hm.mem_iff.2 this
      · intro x hx
        right
        have hxm : (x.id, x.loc) ∈ (before ++ after).map fun t => (t.id, t.loc) :=
          hroots'.mem_iff.1 (List.mem_map_of_mem (f := fun t : Tree P => (t.id, t.loc)) hx)
        obtain ⟨y, hy, he⟩ := List.mem_map.1 hxm
        simp only [Prod.mk.injEq] at he
        refine ⟨by rw [← he.1]; exact other_roots (hf ▸ hok.1) y hy, ?_⟩
        rw [hf, ← he.1, ← he.2]
        refine List.mem_map_of_mem (f := fun t : Tree P => (t.id, t.loc)) ?_
        rw [List.mem_append] at hy
        rcases hy with hy | hy
        · exact List.mem_append_left _ hy
        · exact List.mem_append_right _ (List.mem_cons_of_mem _ hy)
where
  he_sub {t t' : Tree P} {x : Nat × Nat} (h3 : (undAll t'.edges).Perm (undAll t.edges)) : (List.map und t.edges).Subperm (x :: List.map und t'.edges) :=
    h3.symm.subperm.trans (List.sublist_cons_self _ _).subperm

omit [DecidableEq K] in
theorem reconnect_spec {env : Env P K} {on : P → Prop} (ho : Outline env on) (is : List Nat) (st : State P) (hok : IdsOk st.forest st.next)
    (hn : is.Nodup) (hi : ∀ i ∈ is, i ∈ st.forest.map Tree.id) (hp : ∀ t ∈ st.forest, on t.loc ∨ t.id ∈ is) :
    ∃ st', reconnect env is st = some st' ∧ IdsOk st'.forest st'.next ∧ st.next ≤ st'.next ∧ (∀ t ∈ st'.forest, on t.loc) ∧
      (∃ l, (nodesList st'.forest).Perm (nodesList st.forest ++ l) ∧ ∀ n ∈ l, st.next ≤ n.1 ∧ on n.2) ∧
      (undAll (edges st.forest)).Subperm (undAll (edges st'.forest)) := by
  induction is generalizing st with
  | nil =>
    refine ⟨st, rfl, hok, Nat.le_refl _, fun t ht => ?_, ⟨[], by simp, by simp⟩, List.Subperm.refl _⟩
    rcases hp t ht with h | h
    · exact h
    · cases h
  | cons i is ih =>
    rw [List.nodup_cons] at hn
    obtain ⟨st1, h1, j⟩ := reconnectOne_spec ho hok (hi i List.mem_cons_self)
    obtain ⟨st', h2, k1, k2, k3, ⟨l, k4, k5⟩, k6⟩ := ih st1 j.ok hn.2 (by
      intro x hx
      rcases j.roots x (hi x (List.mem_cons_of_mem _ hx)) with h | h
      · exact absurd (h ▸ hx) hn.1
      · exact h) (by
      intro t ht
      rcases j.placed t ht with h | ⟨h, hm⟩
      · exact Or.inl h
      · obtain ⟨y, hy, he⟩ := List.mem_map.1 hm
        simp only [Prod.mk.injEq] at he
        rcases hp y hy with hh | hh
        · exact Or.inl (he.2 ▸ hh)
        · rw [he.1, List.mem_cons] at hh
          rcases hh with hh | hh
          · exact absurd hh h
          · exact Or.inr hh)
    obtain ⟨l0, m1, m2⟩ := j.nodes
    refine ⟨st', by rw [reconnect, h1]; exact h2, k1, Nat.le_trans j.le k2, k3, ⟨l0 ++ l, ?_, ?_⟩, j.edges.trans k6⟩
    · rw [← List.append_assoc]
      exact k4.trans (m1.append_right _)
    · intro n hn
      rw [List.mem_append] at hn
      rcases hn with hn | hn
      · exact m2 n hn
      · exact ⟨Nat.le_trans j.le (k5 n hn).1, (k5 n hn).2⟩

/-- A layer. -/
theorem doLayer_spec {l : Layer P K} (hl : l.Ok) {on : P → Prop} (ho : Outline l.env on) {forest : List (Tree P)} {next : Nat} (hok : IdsOk forest next) :
    ∃ st', doLayer l forest next = some st' ∧ IdsOk st'.forest st'.next ∧ next ≤ st'.next ∧ Supported l.env l.dots st'.forest ∧ (∀ t ∈ st'.forest, on t.loc) ∧
      (nodesList forest).Subperm (nodesList st'.forest) ∧ (∀ n ∈ nodesList st'.forest, n ∈ nodesList forest ∨ n.2 ∈ l.dots ∨ on n.2) ∧
      ∀ a b, Adj forest a b → Adj st'.forest a b := by
  obtain ⟨st1, h1, g, hs⟩ := newTrees_spec l hl forest next hok
  have hrootsNodup : (forest.map Tree.id).Nodup := by
    have : (forest.map Tree.id).Sublist (ids forest) := by
      clear * -
      induction forest with
      | nil => exact List.Sublist.refl _
      | cons c cs ih =>
        rw [List.map_cons, ids, nodesList, List.map_append, nodes_eq, List.map_cons, List.cons_append]
        exact List.Sublist.cons_cons _ (ih.trans (List.sublist_append_right _ _))
    exact hok.1.sublist this
  obtain ⟨st', h2, k1, k2, k3, ⟨l', k4, k5⟩, k6⟩ := reconnect_spec ho (forest.map Tree.id) { st1 with locator := fill st1.forest } g.ok hrootsNodup (by
    intro i hi
    obtain ⟨t, ht, rfl⟩ := List.mem_map.1 hi
    have := g.roots.subset (List.mem_map_of_mem (f := fun t : Tree P => (t.id, t.loc)) ht)
    obtain ⟨y, hy, he⟩ := List.mem_map.1 this
    simp only [Prod.mk.injEq] at he
    exact List.mem_map.2 ⟨y, hy, he.1⟩) (by
    intro t ht
    rcases g.newRoots t ht with h | ⟨-, u, -, h⟩
    · obtain ⟨y, hy, he⟩ := List.mem_map.1 h
      simp only [Prod.mk.injEq] at he
      exact Or.inr (List.mem_map.2 ⟨y, hy, he.1⟩)
    · rw [h]; exact Or.inl (ho.closest _))
  refine ⟨st', ?_, k1, Nat.le_trans g.le k2, ?_, k3, ?_, ?_, ?_⟩
  · unfold doLayer
    rw [h1]
    exact h2
  · intro u hu
    obtain ⟨n, hn, hns⟩ := hs u hu
    exact ⟨n, k4.mem_iff.2 (List.mem_append_left _ hn), hns⟩
  · exact g.nodes.trans ((List.sublist_append_left _ _).subperm.trans k4.symm.subperm)
  · intro n hn
    rw [k4.mem_iff, List.mem_append] at hn
    rcases hn with hn | hn
    · rcases g.newNodes n hn with h | ⟨-, h | ⟨u, -, h⟩⟩
      · exact Or.inl h
      · exact Or.inr (Or.inl h)
      · rw [h]; exact Or.inr (Or.inr (ho.closest _))
    · exact Or.inr (Or.inr (k5 n hn).2)
  · intro a b hab
    rw [adj_und]
    refine k6.subset ?_
    show und (a, b) ∈ undAll (edges st1.forest)
    rw [← adj_und]
    rcases hab with h | h
    · exact Or.inl (g.oldEdges _ h)
    · exact Or.inr (g.oldEdges _ h)

end Verif.Lightning
