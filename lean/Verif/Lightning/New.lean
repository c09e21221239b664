import Verif.Lightning.Forest

/-! # New trees -/

namespace Verif.Lightning

variable {P K : Type} [DecidableEq P] [DecidableEq K]

/-! ## The points that are not supported yet -/

structure FieldOk (env : Env P K) (f : Field P K) : Prop where
  nodup : f.points.Nodup
  grid : ∀ q ∈ f.points, f.grid.lookup (env.cell q) = some q

omit [DecidableEq P] in
theorem lookup_append_some {l : List (K × P)} {k : K} {q : P} (h : l.lookup k = some q) (l' : List (K × P)) : (l ++ l').lookup k = some q := by
  rw [List.lookup_append, h]; rfl

omit [DecidableEq P] in
theorem init_grid (env : Env P K) (dots : List P) (grid : List (K × P)) (hn : (dots.map env.cell).Nodup) (hd : ∀ q ∈ dots, grid.lookup (env.cell q) = none) :
    (∀ k q, grid.lookup k = some q →
      (dots.foldl (fun grid q => if (grid.lookup (env.cell q)).isSome then grid else grid ++ [(env.cell q, q)]) grid).lookup k = some q) ∧
    ∀ q ∈ dots, (dots.foldl (fun grid q => if (grid.lookup (env.cell q)).isSome then grid else grid ++ [(env.cell q, q)]) grid).lookup (env.cell q) = some q := by
  induction dots generalizing grid with
  | nil => exact ⟨fun _ _ h => h, by simp⟩
  | cons d ds ih =>
    rw [List.foldl_cons]
    have hd0 := hd d List.mem_cons_self
    rw [hd0]
    simp only [Option.isSome_none, Bool.false_eq_true, if_false]
    rw [List.map_cons, List.nodup_cons] at hn
    have hlook : (grid ++ [(env.cell d, d)]).lookup (env.cell d) = some d := by
      rw [List.lookup_append, hd0, List.lookup_cons_self]
      rfl
    obtain ⟨h1, h2⟩ := ih (grid ++ [(env.cell d, d)]) hn.2 (by
      intro q hq
      rw [List.lookup_append, hd q (List.mem_cons_of_mem _ hq)]
      have : env.cell q ≠ env.cell d := fun e => hn.1 (e ▸ List.mem_map_of_mem hq)
      have hb : (env.cell q == env.cell d) = false := by simpa using this
      simp [List.lookup, hb])
    refine ⟨fun k q h => h1 k q (lookup_append_some h _), fun q hq => ?_⟩
    rw [List.mem_cons] at hq
    rcases hq with rfl | hq
    · exact h1 _ _ hlook
    · exact h2 q hq

omit [DecidableEq P] in
theorem init_ok (env : Env P K) (dots : List P) (hn : (dots.map env.cell).Nodup) : FieldOk env (Field.init env dots) :=
  ⟨hn.of_map, (init_grid env dots [] hn (by simp)).2⟩

theorem process_points (env : Env P K) (leaf : P) (f : Field P K) (k : K) :
    (Field.process env leaf f k).points.Sublist f.points ∧
    ∀ q ∈ f.points, q ∈ (Field.process env leaf f k).points ∨ env.short q leaf = true := by
  unfold Field.process
  split
  · exact ⟨List.Sublist.refl _, fun q hq => Or.inl hq⟩
  · rename_i q' hq'
    split
    · rename_i hs
      refine ⟨List.erase_sublist, fun q hq => ?_⟩
      by_cases h : q = q'
      · exact Or.inr (h ▸ hs)
      · exact Or.inl ((List.mem_erase_of_ne h).2 hq)
    · exact ⟨List.Sublist.refl _, fun q hq => Or.inl hq⟩

omit [DecidableEq P] in
theorem lookup_filter_ne {l : List (K × P)} {k k' : K} (h : k' ≠ k) : (l.filter (fun e => !decide (e.1 = k))).lookup k' = l.lookup k' := by
  induction l with
  | nil => rfl
  | cons e es ih =>
    obtain ⟨a, b⟩ := e
    by_cases ha : a = k
    · rw [List.filter_cons_of_neg (by simp [ha]), ih]
      have : (k' == a) = false := by simp [ha, h]
      simp [List.lookup, this]
    · rw [List.filter_cons_of_pos (by simp [ha])]
      simp only [List.lookup]
      split
      · rfl
      · exact ih

theorem process_ok {env : Env P K} {f : Field P K} (h : FieldOk env f) (leaf : P) (k : K) : FieldOk env (Field.process env leaf f k) := by
  have hs := (process_points env leaf f k).1
  refine ⟨h.nodup.sublist hs, fun q hq => ?_⟩
  have hq0 := h.grid q (hs.subset hq)
  revert hq
  unfold Field.process
  split
  · exact fun _ => hq0
  · rename_i q' hq'
    split
    · intro hq
      have hne : q ≠ q' := (h.nodup.mem_erase_iff.1 hq).1
      have : env.cell q ≠ k := by
        intro e
        rw [e, hq'] at hq0
        exact hne (Option.some.inj hq0).symm
      show List.lookup _ (f.grid.filter _) = _
      rw [lookup_filter_ne this, hq0]
    · exact fun _ => hq0

theorem update_fold {env : Env P K} (leaf : P) (hs : env.short leaf leaf = true) (ks : List K) (f : Field P K) (h : FieldOk env f) :
    FieldOk env (ks.foldl (Field.process env leaf) f) ∧ (ks.foldl (Field.process env leaf) f).points.Sublist f.points ∧
    (∀ q ∈ f.points, q ∈ (ks.foldl (Field.process env leaf) f).points ∨ env.short q leaf = true) ∧
    (env.cell leaf ∈ ks → leaf ∉ (ks.foldl (Field.process env leaf) f).points) := by
  induction ks generalizing f with
  | nil => exact ⟨h, List.Sublist.refl _, fun q hq => Or.inl hq, by simp⟩
  | cons k ks ih =>
    rw [List.foldl_cons]
    obtain ⟨h1, h2, h3, h4⟩ := ih (Field.process env leaf f k) (process_ok h leaf k)
    have hp := process_points env leaf f k
    refine ⟨h1, h2.trans hp.1, fun q hq => ?_, fun hk => ?_⟩
    · rcases hp.2 q hq with hq | hq
      · exact h3 q hq
      · exact Or.inr hq
    · rw [List.mem_cons] at hk
      rcases hk with hk | hk
      · have : leaf ∉ (Field.process env leaf f k).points := by
          by_cases hl : leaf ∈ f.points
          · have hg := h.grid leaf hl
            rw [hk] at hg
            unfold Field.process
            rw [hg]
            simp only [hs, if_true]
            exact h.nodup.not_mem_erase
          · exact fun hh => hl (hp.1.subset hh)
        exact fun hh => this (h2.subset hh)
      · exact h4 hk

/-! ## The best place -/

omit [DecidableEq P] [DecidableEq K] in
theorem consider_spec (env : Env P K) (forest : List (Tree P)) (ex : Option (Tree P)) (u : P) (is : List Nat) (a : Int × Option (Tree P)) (n : Tree P)
    (ha : ∀ n, a.2 = some n → (n.id, n.loc) ∈ nodesList forest ∧ env.collides u n.loc = false ∧ ∀ t, ex = some t → n.id ∉ t.nodes.map (·.1))
    (h : (is.foldl (consider env forest ex u) a).2 = some n) :
    (n.id, n.loc) ∈ nodesList forest ∧ env.collides u n.loc = false ∧ ∀ t, ex = some t → n.id ∉ t.nodes.map (·.1) := by
  induction is generalizing a with
  | nil => exact ha n h
  | cons i is ih =>
    rw [List.foldl_cons] at h
    refine ih _ ?_ h
    intro m hm
    unfold consider at hm
    split at hm
    · exact ha m hm
    · rename_i m' hf
      split at hm
      · rename_i hc
        cases hm
        obtain ⟨h1, h2⟩ := findList_some hf
        refine ⟨h2, hc.2.1, fun t ht => ?_⟩
        have hb := hc.1
        rw [ht, Option.bind_some] at hb
        rw [h1]
        exact find_isNone.1 hb
      · exact ha m hm

omit [DecidableEq P] [DecidableEq K] in
theorem best_spec {env : Env P K} {w : Int} {st : State P} {ex : Option (Tree P)} {u : P} {n : Tree P} (h : best env w st ex u = some n) :
    (n.id, n.loc) ∈ nodesList st.forest ∧ env.collides u n.loc = false ∧ ∀ t, ex = some t → n.id ∉ t.nodes.map (·.1) := by
  unfold best at h
  dsimp only at h
  split at h
  · exact consider_spec env st.forest ex u _ _ n (by simp) h
  · cases h

/-! ## The loop -/

/-- Numbers do not repeat, and the next is new. -/
def IdsOk (ts : List (Tree P)) (next : Nat) : Prop := (ids ts).Nodup ∧ ∀ i ∈ ids ts, i < next

/-- What holds between the state before and the state after. -/
structure Grown (env : Env P K) (dots : List P) (st st' : State P) : Prop where
  ok : IdsOk st'.forest st'.next
  le : st.next ≤ st'.next
  nodes : (nodesList st.forest).Subperm (nodesList st'.forest)
  roots : (st.forest.map fun t => (t.id, t.loc)).Subperm (st'.forest.map fun t => (t.id, t.loc))
  newRoots : ∀ t ∈ st'.forest, (t.id, t.loc) ∈ st.forest.map (fun t => (t.id, t.loc)) ∨ (st.next ≤ t.id ∧ ∃ u ∈ dots, t.loc = env.closest u)
  newNodes : ∀ n ∈ nodesList st'.forest, n ∈ nodesList st.forest ∨ (st.next ≤ n.1 ∧ (n.2 ∈ dots ∨ ∃ u ∈ dots, n.2 = env.closest u))
  oldEdges : ∀ e ∈ edges st.forest, e ∈ edges st'.forest
  newEdges : ∀ a b, (a, b) ∈ edges st'.forest → (a, b) ∈ edges st.forest ∨ NewBranch env st'.forest a b dots

omit [DecidableEq P] [DecidableEq K] in
theorem NewBranch.mono {env : Env P K} {ts ts' : List (Tree P)} {a b : Nat} {dots dots' : List P} (h : NewBranch env ts a b dots)
    (hn : nodesList ts ⊆ nodesList ts') (hd : dots ⊆ dots') : NewBranch env ts' a b dots' := by
  obtain ⟨u, hu, hb, ha⟩ := h
  refine ⟨u, hd hu, hn hb, ?_⟩
  rcases ha with ha | ⟨q, hq, hc⟩
  · exact Or.inl (hn ha)
  · exact Or.inr ⟨q, hn hq, hc⟩

omit [DecidableEq P] [DecidableEq K] in
theorem Grown.refl (env : Env P K) (dots : List P) (st : State P) (h : IdsOk st.forest st.next) : Grown env dots st st :=
  ⟨h, Nat.le_refl _, List.Subperm.refl _, List.Subperm.refl _, fun _ ht => Or.inl (List.mem_map_of_mem ht), fun _ hn => Or.inl hn, fun _ he => he, fun _ _ he => Or.inl he⟩

omit [DecidableEq P] [DecidableEq K] in
theorem Grown.trans {env : Env P K} {dots : List P} {a b c : State P} (h1 : Grown env dots a b) (h2 : Grown env dots b c) : Grown env dots a c := by
  refine ⟨h2.ok, Nat.le_trans h1.le h2.le, h1.nodes.trans h2.nodes, h1.roots.trans h2.roots, ?_, ?_, fun e he => h2.oldEdges e (h1.oldEdges e he), ?_⟩
  · intro t ht
    rcases h2.newRoots t ht with h | h
    · obtain ⟨t', ht', he⟩ := List.mem_map.1 h
      simp only [Prod.mk.injEq] at he
      rcases h1.newRoots t' ht' with hh | ⟨hh, hu⟩
      · exact Or.inl (by rwa [he.1, he.2] at hh)
      · exact Or.inr ⟨by rw [← he.1]; exact hh, by rw [← he.2]; exact hu⟩
    · exact Or.inr ⟨Nat.le_trans h1.le h.1, h.2⟩
  · intro n hn
    rcases h2.newNodes n hn with h | h
    · exact h1.newNodes n h
    · exact Or.inr ⟨Nat.le_trans h1.le h.1, h.2⟩
  · intro x y he
    rcases h2.newEdges x y he with h | h
    · rcases h1.newEdges x y h with h | h
      · exact Or.inl h
      · exact Or.inr (h.mono h2.nodes.subset (fun _ h => h))
    · exact Or.inr h

omit [DecidableEq P] [DecidableEq K] in
theorem idsOk_append {ts : List (Tree P)} {next : Nat} (h : IdsOk ts next) {l : List (Nat × P)} {ts' : List (Tree P)} {next' : Nat}
    (hp : (nodesList ts').Perm (nodesList ts ++ l)) (hl : (l.map (·.1)).Nodup) (hlo : ∀ n ∈ l, next ≤ n.1) (hhi : ∀ n ∈ l, n.1 < next') (hle : next ≤ next') :
    IdsOk ts' next' := by
  have hp' : (ids ts').Perm (ids ts ++ l.map (·.1)) := by
    have := hp.map (·.1)
    rwa [List.map_append] at this
  refine ⟨hp'.nodup_iff.2 ?_, fun i hi => ?_⟩
  · rw [List.nodup_append]
    refine ⟨h.1, hl, fun a ha b hb e => ?_⟩
    obtain ⟨n, hn, rfl⟩ := List.mem_map.1 hb
    have := h.2 a ha
    have := hlo n hn
    omega
  · rw [hp'.mem_iff, List.mem_append] at hi
    rcases hi with hi | hi
    · exact Nat.lt_of_lt_of_le (h.2 i hi) hle
    · obtain ⟨n, hn, rfl⟩ := List.mem_map.1 hi
      exact hhi n hn

omit [DecidableEq P] [DecidableEq K] in
theorem attach_grown (env : Env P K) (dots : List P) (st : State P) (h : IdsOk st.forest st.next) (u : P) (hu : u ∈ dots) (w : Int) (g : Option (Tree P))
    (hg : best env w st none u = g) :
    Grown env dots st (attach u (env.closest u) g st) ∧ ∃ i, (i, u) ∈ nodesList (attach u (env.closest u) g st).forest := by
  cases g with
  | none =>
    have hp : nodesList (attach u (env.closest u) (none : Option (Tree P)) st).forest = nodesList st.forest ++ [(st.next, env.closest u), (st.next + 1, u)] := by
      show nodesList (st.forest ++ _) = _
      rw [nodesList_append]
      rfl
    have he : edges (attach u (env.closest u) (none : Option (Tree P)) st).forest = edges st.forest ++ [(st.next, st.next + 1)] := by
      show edges (st.forest ++ _) = _
      rw [edges_append]
      rfl
    refine ⟨⟨?_, by simp [attach], ?_, ?_, ?_, ?_, ?_, ?_⟩, st.next + 1, by rw [hp]; simp⟩
    · refine idsOk_append h (List.Perm.of_eq hp) (by simp) ?_ ?_ (by simp [attach])
      · simp
      · simp [attach]
    · rw [hp]; exact (List.sublist_append_left _ _).subperm
    · simp only [attach, List.map_append]; exact (List.sublist_append_left _ _).subperm
    · intro t ht
      simp only [attach, List.mem_append, List.mem_singleton] at ht
      rcases ht with ht | rfl
      · exact Or.inl (List.mem_map_of_mem ht)
      · exact Or.inr ⟨Nat.le_refl _, u, hu, rfl⟩
    · intro n hn
      rw [hp, List.mem_append] at hn
      rcases hn with hn | hn
      · exact Or.inl hn
      · simp only [List.mem_cons, List.not_mem_nil, or_false] at hn
        rcases hn with rfl | rfl
        · exact Or.inr ⟨Nat.le_refl _, Or.inr ⟨u, hu, rfl⟩⟩
        · exact Or.inr ⟨Nat.le_succ _, Or.inl hu⟩
    · intro e hh; rw [he]; exact List.mem_append_left _ hh
    · intro a b hh
      rw [he, List.mem_append, List.mem_singleton] at hh
      rcases hh with hh | hh
      · exact Or.inl hh
      · cases hh
        exact Or.inr ⟨u, hu, by rw [hp]; simp, Or.inl (by rw [hp]; simp)⟩
  | some n =>
    obtain ⟨h1, h2, -⟩ := best_spec hg
    have hi : n.id ∈ ids st.forest := List.mem_map_of_mem (f := (·.1)) h1
    have hp : (nodesList (attach u (env.closest u) (some n) st).forest).Perm (nodesList st.forest ++ [(st.next, u)]) := addAtList_nodes _ h.1 hi
    have he : (edges (attach u (env.closest u) (some n) st).forest).Perm (edges st.forest ++ [(n.id, st.next)]) := addAtList_edges (.node st.next u none []) h.1 hi
    have hr : (attach u (env.closest u) (some n) st).forest.map (fun t => (t.id, t.loc)) = st.forest.map fun t => (t.id, t.loc) := addAtList_roots _ _ _
    refine ⟨⟨?_, by simp [attach], ?_, ?_, ?_, ?_, ?_, ?_⟩, st.next, by rw [hp.mem_iff]; simp⟩
    · refine idsOk_append h hp (by simp) ?_ ?_ (by simp [attach])
      · simp
      · simp [attach]
    · exact (List.sublist_append_left _ _).subperm.trans hp.symm.subperm
    · rw [hr]
    · intro t ht
      exact Or.inl (by rw [← hr]; exact List.mem_map_of_mem (f := fun t : Tree P => (t.id, t.loc)) ht)
    · intro x hx
      rw [hp.mem_iff, List.mem_append, List.mem_singleton] at hx
      rcases hx with hx | rfl
      · exact Or.inl hx
      · exact Or.inr ⟨Nat.le_refl _, Or.inl hu⟩
    · intro e hh; rw [he.mem_iff]; exact List.mem_append_left _ hh
    · intro a b hh
      rw [he.mem_iff, List.mem_append, List.mem_singleton] at hh
      rcases hh with hh | hh
      · exact Or.inl hh
      · cases hh
        exact Or.inr ⟨u, hu, by rw [hp.mem_iff]; simp, Or.inr ⟨n.loc, by rw [hp.mem_iff]; exact List.mem_append_left _ h1, h2⟩⟩

theorem newLoop_spec (env : Env P K) (dots : List P) (hself : ∀ node, ∀ u ∈ dots, env.cell u ∈ env.cells node u) (hshort : ∀ u, env.short u u = true)
    (n : Nat) (f : Field P K) (st : State P) (hf : FieldOk env f) (hn : f.points.length ≤ n) (hd : f.points ⊆ dots) (hst : IdsOk st.forest st.next) :
    ∃ st', newLoop env n f st = some st' ∧ Grown env dots st st' ∧ ∀ u ∈ f.points, ∃ i q, (i, q) ∈ nodesList st'.forest ∧ env.short u q = true := by
  induction n generalizing f st with
  | zero =>
    have : f.points = [] := List.length_eq_zero_iff.1 (by omega)
    exact ⟨st, by simp [newLoop, this], Grown.refl env dots st hst, by simp [this]⟩
  | succ n ih =>
    rw [newLoop]
    cases hp : f.points with
    | nil => exact ⟨st, rfl, Grown.refl env dots st hst, by simp⟩
    | cons u us =>
      dsimp only
      have hu : u ∈ dots := hd (by rw [hp]; exact List.mem_cons_self)
      have hu' : u ∈ f.points := by rw [hp]; exact List.mem_cons_self
      generalize hgn : (match best env env.wallRadius st none u with | none => env.closest u | some n => n.loc) = node
      obtain ⟨h1, h2, h3, h4⟩ := update_fold u (hshort u) (env.cells node u) f hf
      have hout := h4 (hself node u hu)
      obtain ⟨hg, i, hi⟩ := attach_grown env dots st hst u hu env.wallRadius _ rfl
      have hlen : (f.update env node u).points.length ≤ n := by
        have hlt : (f.update env node u).points.length < f.points.length := by
          rcases Nat.lt_or_ge (f.update env node u).points.length f.points.length with h | h
          · exact h
          · exact absurd ((h2.eq_of_length_le h).symm ▸ hu') hout
        omega
      obtain ⟨st', e1, e2, e3⟩ := ih (f.update env node u) (attach u (env.closest u) (best env env.wallRadius st none u) st) h1 hlen
        (fun q hq => hd (h2.subset hq)) hg.ok
      refine ⟨st', by subst hgn; exact e1, hg.trans e2, fun q hq => ?_⟩
      rw [← hp] at hq
      rcases h3 q hq with hq | hq
      · exact e3 q hq
      · exact ⟨i, u, e2.nodes.subset hi, hq⟩

theorem newTrees_spec (l : Layer P K) (hl : l.Ok) (forest : List (Tree P)) (next : Nat) (hok : IdsOk forest next) :
    ∃ st', newTrees l.env l.dots forest next = some st' ∧ Grown l.env l.dots ⟨forest, fill forest, next⟩ st' ∧ Supported l.env l.dots st'.forest := by
  obtain ⟨st', h1, h2, h3⟩ := newLoop_spec l.env l.dots hl.self hl.short l.dots.length (Field.init l.env l.dots) ⟨forest, fill forest, next⟩
    (init_ok l.env l.dots hl.distinct) (Nat.le_refl _) (fun _ h => h) hok
  refine ⟨st', h1, h2, fun u hu => ?_⟩
  obtain ⟨i, q, h, hs⟩ := h3 u hu
  exact ⟨(i, q), h, hs⟩

end Verif.Lightning
