import Verif.Order.GraphLemmas

/-! # Lemmas: the orders with and without requirements -/

namespace Verif.Order

variable {env : Env} {edges : Edges}


theorem dfsLoop_ok (hs : env.Sane) (hne : NonEmptyPaths env) (hab : About env edges) {B : List Nat}
    {fuel : Nat} {s : List Nat} {c : CSt} (h : Inv env edges B c) (hf : unvisited env c < fuel)
    (hsr : ∀ v ∈ s, v ∈ env.paths.map (·.id) ∧ c.counts v = 0) (hr : ∀ v, Ready env c v → v ∈ s) :
    ∃ c', setLoop env (dfs env edges fuel) s.length s c = .ok c' ∧ Inv env edges B c' ∧ Ext env c c' ∧
      ∀ v, ¬ Ready env c' v := by
  obtain ⟨c', e, g⟩ := setLoop_ok hs (dfs env edges fuel)
    (fun s d => Inv env edges B d ∧ Ext env c d ∧
      (∀ v ∈ s, v ∈ env.paths.map (·.id) ∧ d.counts v = 0) ∧ ∀ v, Ready env d v → v ∈ s)
    (fun s d hd => ⟨hd.1.core.wf, hd.1.core.pos, fun v hv => (hd.2.2.1 v hv).1⟩)
    (by
      rintro s d b st ⟨h1, h2, h3, h4⟩ hb hw
      have h1' : Inv env edges B { d with st := st } := ⟨h1.core.setSt hw, h1.seen, h1.only, h1.block⟩
      obtain ⟨d', e1, e2, e3, e4, e5⟩ := dfs_ok hs hne hab fuel h1' (h3 b hb).1 (h3 b hb).2
        (lt_of_le_of_lt (unvisited_le (env := env) h2.visited) hf)
      have e3' : Ext env d d' := ⟨e3.order, e3.visited, e3.pool⟩
      refine ⟨d', e1, e2, h2.trans e3', ?_, ?_⟩
      · intro v hv
        have hv' := List.mem_of_mem_erase hv
        exact ⟨(h3 v hv').1, e3'.zero h1.core e2.core (h3 v hv').2⟩
      · intro v hv
        have hne' : v ≠ b := by rintro rfl; exact hv.2.1 e4
        exact (List.mem_erase_of_ne hne').2 (h4 v (e5 v hv)))
    s.length rfl ⟨h, Ext.refl env c, hsr, hr⟩
  refine ⟨c', e, g.1, g.2.1, ?_⟩
  intro v hv
  simpa using g.2.2.2 v hv

theorem openCount_nil (v : Nat) :
    openCount edges [] v = ((edges.filter (fun e => decide (e.2 = v))).length : Int) := by
  unfold openCount
  simp

theorem initialCounts_ok (hab : About env edges) :
    initialCounts env edges = .ok (openCount edges []) := by
  unfold initialCounts
  rw [if_pos (fun e he => (hab.2 e he).2)]
  congr 1
  funext v
  rw [openCount_nil]

theorem mem_roots {v : Nat} : v ∈ rootsOf env edges ↔ v ∈ env.paths.map (·.id) ∧ ∀ e ∈ edges, e.2 ≠ v := by
  unfold rootsOf
  rw [List.mem_filter, List.mem_dedup]
  simp only [decide_eq_true_eq]

theorem mem_leaves {v : Nat} : v ∈ leavesOf env edges ↔ v ∈ env.paths.map (·.id) ∧ ∀ e ∈ edges, e.1 ≠ v := by
  unfold leavesOf
  rw [List.mem_filter, List.mem_dedup]
  simp only [decide_eq_true_eq]

theorem core_initial (hs : env.Sane) {st : St} (hw : WF env st) (vis : List Nat) :
    Core env edges ⟨st, env.startPoint, [], openCount edges [], vis, []⟩ := by
  refine ⟨hw, hs.startPoint, by simp, ?_, ?_, fun v => rfl, ?_⟩
  · simp [Env.printed]
  · simp [Env.printed]
  · intro u v _ l₁ l₂ hl
    simp [Env.printed] at hl

/-- What is proved of the traversal: the state at the end. -/
structure Finished (env : Env) (edges : Edges) (out : List Out) : Prop where
  perm : (env.printed out).Perm (env.paths.map (·.id))
  respects : Respects edges (env.printed out)
  outs : ∀ o ∈ out, o.idx < env.paths.length ∧ GoodStart env o
  first : env.group = true → env.reverse = false → ∃ l₁ l₂, env.printed out = l₁ ++ l₂ ∧
    l₁.Perm (rootsOf env edges)
  last : env.group = true → env.reverse = true → ∃ l₁ l₂, env.printed out = l₁ ++ l₂ ∧
    l₂.Perm (leavesOf env edges)

theorem perm_of_all (hab : About env edges) {c : CSt} (h : Core env edges c)
    (ha : ∀ v ∈ env.paths.map (·.id), v ∈ env.printed c.order) :
    (env.printed c.order).Perm (env.paths.map (·.id)) :=
  (List.perm_ext_iff_of_nodup h.nodup hab.1).2 (fun v => ⟨h.known v, ha v⟩)

theorem unvisited_initial (c : CSt) : unvisited env c < env.paths.length + 1 := by
  unfold unvisited
  have := List.length_filter_le (fun v => decide (v ∉ c.visited)) (env.paths.map (·.id))
  rw [List.length_map] at this
  omega

theorem constrained_ok (hs : env.Sane) (hne : NonEmptyPaths env) (hab : About env edges)
    (hac : Acyclic edges) {fuel : Nat} (hf : env.paths.length < fuel) {st : St} (hw : WF env st) :
    ∃ out, constrained env edges fuel st = .ok out ∧ Finished env edges out := by
  have hrootsNodup : (rootsOf env edges).Nodup := (List.nodup_dedup _).filter _
  have hleavesNodup : (leavesOf env edges).Nodup := (List.nodup_dedup _).filter _
  unfold constrained
  rw [initialCounts_ok hab]
  simp only [Outcome.bind_ok]
  cases hg : env.group with
  | false =>
    simp only [Bool.false_eq_true, if_false]
    have hi : Inv env edges [] ⟨st, env.startPoint, [], openCount edges [], [], []⟩ :=
      ⟨core_initial hs hw [], by simp [Env.printed], by simp, by simp⟩
    obtain ⟨c, e1, e2, e3, e4⟩ := dfsLoop_ok hs hne hab (fuel := fuel) (s := rootsOf env edges) hi
      (by have := unvisited_initial (env := env) ⟨st, env.startPoint, [], openCount edges [], [], []⟩; omega)
      (by
        intro v hv
        rw [mem_roots] at hv
        exact ⟨hv.1, openCount_zero.2 (fun e he h => absurd h (hv.2 e he))⟩)
      (by
        intro v hv
        rw [mem_roots]
        exact ⟨hv.1, fun e he h => by
          have := openCount_zero.1 hv.2.2 e he h
          simp at this⟩)
    rw [e1]
    refine ⟨_, rfl, ?_⟩
    have hall := all_visited hac hab e2 (by simp) e4
    exact ⟨perm_of_all hab e2.core (fun v hv => by
      rcases e2.only v (hall v hv) with h | h
      · exact h
      · simp at h), e2.core.respects, e2.core.outs, by simp [hg], by simp [hg]⟩
  | true =>
    simp only [if_true]
    cases hrev : env.reverse with
    | false =>
      simp only [Bool.false_eq_true, if_false]
      -- the outer walls
      obtain ⟨c, e, g⟩ := setLoop_ok hs (outerFirst env edges)
        (fun s d => Core env edges d ∧ (∀ v, v ∈ d.visited ↔ v ∈ env.printed d.order) ∧
          (∀ v ∈ s, v ∈ rootsOf env edges ∧ v ∉ env.printed d.order) ∧ s.Nodup ∧
          (env.printed d.order ++ s).Perm (rootsOf env edges) ∧
          (∀ v ∈ d.pool, v ∈ env.paths.map (·.id) ∧ d.counts v = 0) ∧
          (∀ v, Ready env d v → v ∈ s ∨ v ∈ d.pool))
        (fun s d hd => ⟨hd.1.wf, hd.1.pos, fun v hv => (mem_roots.1 (hd.2.2.1 v hv).1).1⟩)
        (by
          rintro s d b st' ⟨h1, h2, h3, h4, h5, h6, h7⟩ hb hw'
          have hroot := mem_roots.1 (h3 b hb).1
          have h1' := h1.setSt hw'
          have hb0 : ∀ e ∈ edges, e.2 = b → e.1 ∈ env.printed d.order :=
            fun e he h => absurd h (hroot.2 e he)
          obtain ⟨d1, f1, k1, p1, v1, q1⟩ := handle_ok hs hne h1' hroot.1 (h3 b hb).2 (h1.zero.2 hb0)
          have k1v : Core env edges { d1 with visited := b :: d1.visited } :=
            ⟨k1.wf, k1.pos, k1.outs, k1.nodup, k1.known, k1.counts, k1.respects⟩
          obtain ⟨ns, st2, f2, w2, m2⟩ := getNeighbours_ok hs hne hab k1v b
          dsimp only at p1 v1 q1
          have k2 := k1v.setSt w2
          have hpool : ∀ (ns pool : List Nat) (v : Nat),
              v ∈ ns.foldl (fun s n => if n ∈ s then s else s ++ [n]) pool ↔ v ∈ pool ∨ v ∈ ns := by
            intro ns
            induction ns with
            | nil => intro pool v; simp
            | cons a l ih =>
              intro pool v
              rw [List.foldl_cons, ih]
              split_ifs with hm
              · constructor
                · rintro (h | h)
                  · exact .inl h
                  · exact .inr (by simp [h])
                · rintro (h | h)
                  · exact .inl h
                  · rcases List.mem_cons.1 h with rfl | h
                    · exact .inl hm
                    · exact .inr h
              · simp only [List.mem_append, List.mem_cons]
                tauto
          have hout : outerFirst env edges b { d with st := st' } =
              .ok { d1 with
                visited := b :: d1.visited
                st := st2
                pool := ns.foldl (fun s n => if n ∈ s then s else s ++ [n]) d1.pool } := by
            unfold outerFirst
            rw [f1]
            simp only [Outcome.bind_ok, f2]
          refine ⟨_, hout, ?_⟩
          refine ⟨⟨k2.wf, k2.pos, k2.outs, k2.nodup, k2.known, k2.counts, k2.respects⟩, ?_, ?_, ?_, ?_, ?_, ?_⟩
          · intro v
            dsimp only
            rw [p1, v1, List.mem_cons, h2, List.mem_append, List.mem_singleton]
            tauto
          · intro v hv
            dsimp only
            rw [p1]
            have hv' := List.mem_of_mem_erase hv
            refine ⟨(h3 v hv').1, ?_⟩
            intro hc
            rcases List.mem_append.1 hc with h | h
            · exact (h3 v hv').2 h
            · rw [List.mem_singleton.1 h] at hv
              exact h4.not_mem_erase hv
          · exact h4.erase b
          · dsimp only
            rw [p1, List.append_assoc]
            exact (List.Perm.append_left _ (List.perm_cons_erase hb).symm).trans h5
          · intro v hv
            dsimp only at hv ⊢
            rw [hpool, q1] at hv
            rcases hv with hv | hv
            · refine ⟨(h6 v hv).1, ?_⟩
              rw [k1.zero]
              intro e he h
              rw [p1]
              exact List.mem_append_left _ ((h1.zero.1 (h6 v hv).2) e he h)
            · exact ⟨(hab.2 _ ((m2 v).1 hv).1).2, ((m2 v).1 hv).2⟩
          · rintro v ⟨r1, r2, r3⟩
            dsimp only at r2 r3 ⊢
            rw [hpool, q1]
            have r2' : v ≠ b ∧ v ∉ d.visited := by
              constructor
              · rintro rfl; exact r2 (by simp)
              · intro hc; apply r2; rw [v1]; exact List.mem_cons_of_mem _ hc
            by_cases hz : d.counts v = 0
            · rcases h7 v ⟨r1, r2'.2, hz⟩ with h | h
              · exact .inl ((List.mem_erase_of_ne r2'.1).2 h)
              · exact .inr (.inl h)
            · right; right
              rw [m2]
              refine ⟨?_, r3⟩
              by_contra hne'
              apply hz
              rw [h1.zero]
              intro e he hev
              have := (k1.zero (v := v)).1 r3 e he hev
              rw [p1] at this
              rcases List.mem_append.1 this with h' | h'
              · exact h'
              · exfalso
                apply hne'
                rw [← List.mem_singleton.1 h', ← hev]
                exact he)
        (rootsOf env edges).length rfl (c := ⟨st, env.startPoint, [], openCount edges [], [], []⟩)
        ⟨core_initial hs hw [], by simp [Env.printed], by
            intro v hv; exact ⟨hv, by simp [Env.printed]⟩, hrootsNodup, by simp [Env.printed], by simp, by
            intro v hv
            left
            rw [mem_roots]
            exact ⟨hv.1, fun e he h => by
              have := openCount_zero.1 hv.2.2 e he h
              simp at this⟩⟩
      obtain ⟨g1, g2, g3, g4, g5, g6, g7⟩ := g
      rw [e]
      simp only [Outcome.bind_ok]
      have hi : Inv env edges [] c := ⟨g1, fun v hv => (g2 v).2 hv, fun v hv => .inl ((g2 v).1 hv), by simp⟩
      obtain ⟨c', e1, e2, e3, e4⟩ := dfsLoop_ok hs hne hab (fuel := fuel) (s := c.pool) hi
        (by have := unvisited_initial (env := env) c; omega) g6
        (by
          intro v hv
          rcases g7 v hv with h | h
          · simp at h
          · exact h)
      rw [e1]
      refine ⟨_, rfl, ?_⟩
      have hall := all_visited hac hab e2 (by simp) e4
      obtain ⟨l, hl⟩ := e3.order
      exact ⟨perm_of_all hab e2.core (fun v hv => by
        rcases e2.only v (hall v hv) with h | h
        · exact h
        · simp at h), e2.core.respects, e2.core.outs,
        fun _ _ => ⟨env.printed c.order, l, hl, by simpa using g5⟩, by simp [hrev]⟩
    | true =>
      simp only [if_true]
      have hi : Inv env edges (leavesOf env edges)
          ⟨st, env.startPoint, [], openCount edges [], leavesOf env edges, []⟩ :=
        ⟨core_initial hs hw _, by simp [Env.printed], fun v hv => .inr hv,
          fun b hb => ⟨hb, by simp [Env.printed]⟩⟩
      obtain ⟨c, e1, e2, e3, e4⟩ := dfsLoop_ok hs hne hab (fuel := fuel) (s := rootsOf env edges) hi
        (by
          have := unvisited_initial (env := env)
            ⟨st, env.startPoint, [], openCount edges [], leavesOf env edges, []⟩
          omega)
        (by
          intro v hv
          rw [mem_roots] at hv
          exact ⟨hv.1, openCount_zero.2 (fun e he h => absurd h (hv.2 e he))⟩)
        (by
          intro v hv
          rw [mem_roots]
          exact ⟨hv.1, fun e he h => by
            have := openCount_zero.1 hv.2.2 e he h
            simp at this⟩)
      rw [e1]
      simp only [Outcome.bind_ok]
      have hB : ∀ b ∈ leavesOf env edges, ∀ e ∈ edges, e.1 ≠ b := fun b hb => (mem_leaves.1 hb).2
      have hall := all_visited hac hab e2 hB e4
      -- the outer walls
      obtain ⟨c', f, g⟩ := setLoop_ok hs (handleNode env edges)
        (fun s d => Core env edges d ∧ s.Nodup ∧
          (∀ v ∈ s, v ∈ env.paths.map (·.id) ∧ v ∉ env.printed d.order ∧ d.counts v = 0) ∧
          (∀ v ∈ env.paths.map (·.id), v ∈ env.printed d.order ∨ v ∈ s) ∧
          ∃ l, env.printed d.order = env.printed c.order ++ l ∧ (l ++ s).Perm (leavesOf env edges))
        (fun s d hd => ⟨hd.1.wf, hd.1.pos, fun v hv => (hd.2.2.1 v hv).1⟩)
        (by
          rintro s d b st' ⟨h1, h2, h3, h4, l, hl, hp⟩ hb hw'
          have h1' := h1.setSt hw'
          obtain ⟨d1, f1, k1, p1, v1, q1⟩ := handle_ok hs hne h1' (h3 b hb).1 (h3 b hb).2.1 (h3 b hb).2.2
          dsimp only at p1
          refine ⟨d1, f1, k1, h2.erase b, ?_, ?_, l ++ [b], ?_, ?_⟩
          · intro v hv
            have hv' := List.mem_of_mem_erase hv
            refine ⟨(h3 v hv').1, ?_, ?_⟩
            · rw [p1]
              intro hc
              rcases List.mem_append.1 hc with h | h
              · exact (h3 v hv').2.1 h
              · rw [List.mem_singleton.1 h] at hv
                exact h2.not_mem_erase hv
            · rw [k1.zero]
              intro e he h
              rw [p1]
              exact List.mem_append_left _ ((h1.zero.1 (h3 v hv').2.2) e he h)
          · intro v hv
            rw [p1]
            by_cases hvb : v = b
            · left; simp [hvb]
            · rcases h4 v hv with h | h
              · left; exact List.mem_append_left _ h
              · right; exact (List.mem_erase_of_ne hvb).2 h
          · rw [p1, hl, List.append_assoc]
          · rw [List.append_assoc]
            exact (List.Perm.append_left _ (List.perm_cons_erase hb).symm).trans hp)
        (leavesOf env edges).length rfl (c := c)
        ⟨e2.core, hleavesNodup, by
          intro v hv
          refine ⟨(mem_leaves.1 hv).1, (e2.block v hv).2, ?_⟩
          rw [e2.core.zero]
          intro e he _
          rcases e2.only _ (hall e.1 (hab.2 e he).1) with h | h
          · exact h
          · exact absurd rfl (hB _ h e he), by
          intro v hv
          exact e2.only v (hall v hv), [], by simp, by simp⟩
      obtain ⟨g1, g2, g3, g4, l, hl, hp⟩ := g
      rw [f]
      refine ⟨_, rfl, ?_⟩
      exact ⟨perm_of_all hab g1 (fun v hv => by
        rcases g4 v hv with h | h
        · exact h
        · simp at h), g1.respects, g1.outs, by simp [hrev],
        fun _ _ => ⟨env.printed c.order, l, hl, by simpa using hp⟩⟩

theorem detected_getElem (env : Env) (i : Nat) :
    env.detected.paths[i]? = (env.paths[i]?).map (detect env) := by
  unfold Env.detected
  simp

theorem detect_id (env : Env) (p : PathIn) : (detect env p).id = p.id := by
  unfold detect; split_ifs <;> rfl

theorem detect_points (env : Env) (p : PathIn) : (detect env p).points = p.points := by
  unfold detect; split_ifs <;> rfl

theorem detected_ids (env : Env) : env.detected.paths.map (·.id) = env.paths.map (·.id) := by
  unfold Env.detected
  simp [detect_id]

theorem detected_printed (env : Env) (out : List Out) : env.detected.printed out = env.printed out := by
  unfold Env.printed
  congr 1
  funext o
  rw [detected_getElem, Option.map_map]
  cases env.paths[o.idx]? with
  | none => rfl
  | some p => simp [detect_id]

theorem detected_length (env : Env) : env.detected.paths.length = env.paths.length := by
  unfold Env.detected; simp

theorem detected_sane (hs : env.Sane) : env.detected.Sane := by
  refine ⟨?_, hs.hash, ?_, hs.startPoint, ?_, ?_, hs.comb⟩
  · intro i p pos hp hne
    rw [detected_getElem] at hp
    obtain ⟨q, hq, rfl⟩ := Option.map_eq_some_iff.1 hp
    rw [detect_points] at *
    exact hs.seam i q pos hq hne
  · intro pos i hi
    rw [detected_length]
    exact hs.near pos i hi
  · intro p hp
    obtain ⟨q, hq, rfl⟩ := List.mem_map.1 hp
    rw [detect_points]
    exact hs.points q hq
  · intro p hp
    obtain ⟨q, hq, rfl⟩ := List.mem_map.1 hp
    rw [detect_points]
    exact hs.size q hq

theorem initial_wf (hs : env.Sane) : WF env (initialState env) := by
  intro i p hp hne
  have hl : 0 < p.points.length := List.length_pos_iff.2 hne
  dsimp only at hp
  unfold initialState initialStart
  dsimp only
  rw [hp]
  dsimp only
  split_ifs with h
  · refine ⟨hs.seam i p _ hp hne, ?_⟩
    rw [h.2.2.1]
    intro hc; cases hc
  · exact ⟨hl, fun _ => .inl ⟨rfl, rfl⟩⟩

/-- Positions of the result, from its values. -/
theorem eachOnce_of_printed {out : List Out} (ho : ∀ o ∈ out, o.idx < env.paths.length)
    (hn : (env.paths.map (·.id)).Nodup) (hp : (env.printed out).Perm (env.paths.map (·.id))) :
    EachOnce env out := by
  have he : env.printed out = (out.map (·.idx)).map (fun i => ((env.paths[i]?).map (·.id)).getD 0) := by
    unfold Env.printed
    clear hp
    induction out with
    | nil => rfl
    | cons o l ih =>
      have h1 := ho o (by simp)
      rw [List.filterMap_cons_some (by rw [List.getElem?_eq_getElem h1]; rfl),
        ih (fun o h => ho o (by simp [h]))]
      simp [h1]
  have hnd : (out.map (·.idx)).Nodup := by
    have : (env.printed out).Nodup := hp.nodup_iff.2 hn
    rw [he] at this
    exact List.Nodup.of_map _ this
  have hsub : ∀ i ∈ out.map (·.idx), i ∈ List.range env.paths.length := by
    intro i hi
    obtain ⟨o, h1, rfl⟩ := List.mem_map.1 hi
    exact List.mem_range.2 (ho o h1)
  have hlen := hp.length_eq
  rw [he, List.length_map, List.length_map, List.length_map] at hlen
  unfold EachOnce
  apply (hnd.subperm hsub).perm_of_length_le
  rw [List.length_range, List.length_map]
  omega

/-! ### Without requirements -/

theorem available_ok (hs : env.Sane) (pos : Pt) {picked : List Nat} (hl : picked.length < env.paths.length) :
    available env pos picked ≠ [] ∧
      ∀ i ∈ available env pos picked, i < env.paths.length ∧ i ∉ picked := by
  unfold available
  dsimp only
  split_ifs with h
  · constructor
    · intro hc
      have hsub : ∀ i ∈ List.range env.paths.length, i ∈ picked := by
        intro i hi
        have := List.filter_eq_nil_iff.1 hc i hi
        simpa using this
      have := (List.nodup_range.subperm hsub).length_le
      rw [List.length_range] at this
      omega
    · intro i hi
      rw [List.mem_filter, List.mem_range] at hi
      exact ⟨hi.1, by simpa using hi.2⟩
  · refine ⟨h, ?_⟩
    intro i hi
    rw [List.mem_filter] at hi
    exact ⟨hs.near pos i hi.1, by simpa using hi.2⟩

theorem freeLoop_ok (hs : env.Sane) (fuel : Nat) {pos : Pt} (hpos : InRange pos) {order : List Out} {st : St}
    (hw : WF env st) (hl : fuel + order.length = env.paths.length) (hn : (order.map (·.idx)).Nodup)
    (ho : ∀ o ∈ order, o.idx < env.paths.length ∧ GoodStart env o) :
    ∃ out, freeLoop env fuel pos order st = .ok out ∧ out.length = env.paths.length ∧
      (out.map (·.idx)).Nodup ∧ ∀ o ∈ out, o.idx < env.paths.length ∧ GoodStart env o := by
  induction fuel generalizing pos order st with
  | zero =>
    refine ⟨order, ?_, by omega, hn, ho⟩
    rw [freeLoop, if_neg (by omega)]
  | succ fuel ih =>
    rw [freeLoop, if_pos (by omega)]
    obtain ⟨a1, a2⟩ := available_ok hs pos (picked := order.map (·.idx)) (by rw [List.length_map]; omega)
    obtain ⟨i, st', e1, e2, e3⟩ := findBest_ok hs hpos hw (fun i hi => (a2 i hi).1) a1
    obtain ⟨hi1, hi2⟩ := a2 i e2
    obtain ⟨p, hp⟩ : ∃ p, env.paths[i]? = some p := ⟨_, List.getElem?_eq_getElem hi1⟩
    rw [e1]
    simp only [Outcome.bind_ok, path_ok hp]
    obtain ⟨q, hq, hr⟩ : ∃ q, (if p.points = [] then
          freeLoop env fuel pos (order ++ [{ idx := i, start := st'.start i, backwards := st'.back i }]) st'
        else do
          let pos ← endPosition p (st'.start i)
          freeLoop env fuel pos (order ++ [{ idx := i, start := st'.start i, backwards := st'.back i }]) st') =
        freeLoop env fuel q (order ++ [{ idx := i, start := st'.start i, backwards := st'.back i }]) st' ∧
        InRange q := by
      by_cases h : p.points = []
      · rw [if_pos h]; exact ⟨pos, rfl, hpos⟩
      · rw [if_neg h]
        obtain ⟨q, hq, hr⟩ := endPosition_ok hs hp h e3
        exact ⟨q, by rw [hq]; rfl, hr⟩
    rw [hq]
    apply ih hr e3
    · simp; omega
    · rw [List.map_append, List.nodup_append]
      refine ⟨hn, by simp, ?_⟩
      intro a ha b hb
      simp only [List.map_cons, List.map_nil, List.mem_singleton] at hb
      rintro rfl
      rw [hb] at ha
      exact hi2 ha
    · intro o h
      rcases List.mem_append.1 h with h | h
      · exact ho o h
      · obtain rfl := List.mem_singleton.1 h
        exact ⟨hi1, e3 i⟩

theorem freeLoop_prefix {fuel : Nat} {pos : Pt} {order out : List Out} {st : St}
    (h : freeLoop env fuel pos order st = .ok out) : order <+: out := by
  induction fuel generalizing pos order st with
  | zero =>
    rw [freeLoop] at h
    split_ifs at h
    obtain rfl := Outcome.ok.inj h
    exact List.prefix_rfl
  | succ fuel ih =>
    rw [freeLoop] at h
    by_cases hc : order.length < env.paths.length
    · rw [if_pos hc] at h
      cases hb : findBest env pos (available env pos (order.map (·.idx))) st with
      | ub => rw [hb] at h; cases h
      | diverge => rw [hb] at h; cases h
      | ok r =>
        rw [hb] at h
        simp only [Outcome.bind_ok] at h
        cases hr : r.1 with
        | none => rw [hr] at h; cases h
        | some i =>
          rw [hr] at h
          dsimp only at h
          cases hp : env.path i with
          | ub => rw [hp] at h; cases h
          | diverge => rw [hp] at h; cases h
          | ok p =>
            rw [hp] at h
            simp only [Outcome.bind_ok] at h
            by_cases hn : p.points = []
            · rw [if_pos hn] at h
              exact (List.prefix_append _ _).trans (ih h)
            · rw [if_neg hn] at h
              cases he : endPosition p (r.2.start i) with
              | ub => rw [he] at h; cases h
              | diverge => rw [he] at h; cases h
              | ok q =>
                rw [he] at h
                exact (List.prefix_append _ _).trans (ih h)
    · rw [if_neg hc] at h
      obtain rfl := Outcome.ok.inj h
      exact List.prefix_rfl

theorem subSize_eq {a b : Nat} (h : b ≤ a) (ha : a < 2 ^ 63) : subSize a b = a - b := by
  unfold subSize
  rw [Int.emod_eq_of_lt] <;> omega

theorem reverseOut_ok (hs : env.Sane) {o : Out} (ho : o.idx < env.paths.length) (hg : GoodStart env o) :
    ∃ o', reverseOut env o = .ok o' ∧ o'.idx = o.idx ∧ o'.backwards = !o.backwards ∧ GoodStart env o' := by
  obtain ⟨p, hp⟩ : ∃ p, env.paths[o.idx]? = some p := ⟨_, List.getElem?_eq_getElem ho⟩
  unfold reverseOut
  rw [path_ok hp]
  refine ⟨_, rfl, rfl, rfl, ?_⟩
  intro q hq hne
  dsimp only at hq ⊢
  rw [hp] at hq
  obtain rfl := Option.some.inj hq
  have hl : 0 < p.points.length := List.length_pos_iff.2 hne
  have hsz := hs.size p (List.mem_of_getElem? hp)
  obtain ⟨g1, g2⟩ := hg p hp hne
  cases hc : p.closed with
  | true => simp only [if_true]; exact ⟨g1, by intro h; cases h⟩
  | false =>
    simp only [Bool.false_eq_true, if_false]
    have e1 : subSize p.points.length 1 = p.points.length - 1 := subSize_eq (by omega) hsz
    rw [e1, subSize_eq (by omega) (by omega)]
    refine ⟨by omega, fun _ => ?_⟩
    rcases g2 hc with ⟨h1, h2⟩ | ⟨h1, h2⟩
    · right; rw [h1, h2]; exact ⟨by omega, rfl⟩
    · left; rw [h1, h2]; exact ⟨by omega, rfl⟩

end Verif.Order
