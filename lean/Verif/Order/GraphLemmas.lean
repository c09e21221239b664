import Verif.Order.Lemmas
import Mathlib.Data.List.Perm.Subperm
import Mathlib.Order.WellFoundedSet

/-! # Lemmas: the traversal of the order requirements -/

namespace Verif.Order

variable {env : Env} {edges : Edges}

/-- Every path has vertices. -/
def NonEmptyPaths (env : Env) : Prop := ∀ p ∈ env.paths, p.points ≠ []

/-! ### Counting predecessors -/

/-- The number of requirements on `v` whose first path is not printed yet. -/
def openCount (edges : Edges) (printed : List Nat) (v : Nat) : Int :=
  ((edges.filter (fun e => decide (e.2 = v ∧ e.1 ∉ printed))).length : Int)

theorem openCount_zero {P : List Nat} {v : Nat} :
    openCount edges P v = 0 ↔ ∀ e ∈ edges, e.2 = v → e.1 ∈ P := by
  unfold openCount
  rw [Int.natCast_eq_zero, List.length_eq_zero_iff, List.filter_eq_nil_iff]
  constructor
  · intro h e he hv
    have := h e he
    simp only [decide_eq_true_eq, not_and, not_not] at this
    exact this hv
  · intro h e he
    simp only [decide_eq_true_eq, not_and, not_not]
    exact h e he

theorem decrement_eq (edges : Edges) (node : Nat) (k : Nat → Int) (v : Nat) :
    decrement edges node k v =
      k v - ((edges.filter (fun e => decide (e.1 = node ∧ e.2 = v))).length : Int) := by
  unfold decrement
  induction edges generalizing k with
  | nil => simp
  | cons e l ih =>
    by_cases h1 : e.1 = node
    · rw [List.filter_cons_of_pos (by simpa using h1), List.foldl_cons, ih]
      by_cases h2 : e.2 = v
      · rw [List.filter_cons_of_pos (by simp [h1, h2])]
        simp only [setAt, h2, if_true, List.length_cons]
        push_cast
        omega
      · rw [List.filter_cons_of_neg (by simp [h2])]
        simp only [setAt, if_neg (Ne.symm h2)]
    · rw [List.filter_cons_of_neg (by simpa using h1), ih,
        List.filter_cons_of_neg (by simp [h1])]

theorem openCount_append (edges : Edges) (P : List Nat) (node v : Nat) (h : node ∉ P) :
    openCount edges (P ++ [node]) v =
      openCount edges P v - ((edges.filter (fun e => decide (e.1 = node ∧ e.2 = v))).length : Int) := by
  unfold openCount
  induction edges with
  | nil => simp
  | cons e l ih =>
    by_cases h2 : e.2 = v
    · by_cases h1 : e.1 = node
      · rw [List.filter_cons_of_neg (by simp [h1]), List.filter_cons_of_pos (by simp [h2, h1, h]),
          List.filter_cons_of_pos (by simp [h2, h1]), ih]
        simp only [List.length_cons]
        push_cast
        omega
      · by_cases h3 : e.1 ∈ P
        · rw [List.filter_cons_of_neg (by simp [h3]), List.filter_cons_of_neg (by simp [h3]),
            List.filter_cons_of_neg (by simp [h1]), ih]
        · rw [List.filter_cons_of_pos (by simp [h2, h1, h3]), List.filter_cons_of_pos (by simp [h2, h3]),
            List.filter_cons_of_neg (by simp [h1])]
          simp only [List.length_cons]
          push_cast
          omega
    · rw [List.filter_cons_of_neg (by simp [h2]), List.filter_cons_of_neg (by simp [h2]),
        List.filter_cons_of_neg (by simp [h2]), ih]

theorem respects_append {P : List Nat} {node : Nat} (h : Respects edges P)
    (hn : ∀ e ∈ edges, e.2 = node → e.1 ∈ P) : Respects edges (P ++ [node]) := by
  intro u v he l₁ l₂ hl
  rcases List.eq_nil_or_concat l₂ with rfl | ⟨l, x, rfl⟩
  · have := List.append_inj_left' hl rfl
    have h2 := List.append_inj_right' hl rfl
    obtain rfl : node = v := by simpa using h2
    rw [← this]
    exact hn (u, node) he rfl
  · have hl' : P ++ [node] = (l₁ ++ v :: l) ++ [x] := by rw [hl]; simp
    have h3 := List.append_inj_left' hl' rfl
    exact h u v he l₁ l h3

/-! ### Invariants -/

/-- The part of the invariant that does not speak of visited nodes. -/
structure Core (env : Env) (edges : Edges) (c : CSt) : Prop where
  wf : WF env c.st
  pos : InRange c.pos
  outs : ∀ o ∈ c.order, o.idx < env.paths.length ∧ GoodStart env o
  nodup : (env.printed c.order).Nodup
  known : ∀ v ∈ env.printed c.order, v ∈ env.paths.map (·.id)
  counts : ∀ v, c.counts v = openCount edges (env.printed c.order) v
  respects : Respects edges (env.printed c.order)

theorem printed_append (order : List Out) {i : Nat} {p : PathIn} (hp : env.paths[i]? = some p) (s : Nat)
    (b : Bool) : env.printed (order ++ [⟨i, s, b⟩]) = env.printed order ++ [p.id] := by
  unfold Env.printed
  rw [List.filterMap_append]
  simp [hp]

theorem Core.setSt {c : CSt} (h : Core env edges c) {st : St} (hw : WF env st) :
    Core env edges { c with st := st } :=
  ⟨hw, h.pos, h.outs, h.nodup, h.known, h.counts, h.respects⟩

theorem Core.zero {c : CSt} (h : Core env edges c) {v : Nat} :
    c.counts v = 0 ↔ ∀ e ∈ edges, e.2 = v → e.1 ∈ env.printed c.order := by
  rw [h.counts, openCount_zero]

theorem handle_ok (hs : env.Sane) (hne : NonEmptyPaths env) {c : CSt} (h : Core env edges c) {node : Nat}
    (hn : node ∈ env.paths.map (·.id)) (hnew : node ∉ env.printed c.order) (h0 : c.counts node = 0) :
    ∃ c', handleNode env edges node c = .ok c' ∧ Core env edges c' ∧
      env.printed c'.order = env.printed c.order ++ [node] ∧ c'.visited = c.visited ∧ c'.pool = c.pool := by
  obtain ⟨i, p, hi, hp, hid⟩ := find_ok hn
  have hpn := hne p (List.mem_of_getElem? hp)
  obtain ⟨q, hq, hr⟩ := endPosition_ok hs hp hpn h.wf
  have hpr := printed_append c.order hp (c.st.start i) (c.st.back i)
  rw [hid] at hpr
  unfold handleNode
  rw [hi]
  simp only [path_ok hp, Outcome.bind_ok, hq]
  refine ⟨_, rfl, ⟨h.wf, hr, ?_, ?_, ?_, ?_, ?_⟩, hpr, rfl, rfl⟩
  · intro o ho
    dsimp only at ho
    rcases List.mem_append.1 ho with ho | ho
    · exact h.outs o ho
    · obtain rfl := List.mem_singleton.1 ho
      exact ⟨(List.getElem?_eq_some_iff.1 hp).1, h.wf i⟩
  · dsimp only
    rw [hpr, List.nodup_append]
    exact ⟨h.nodup, by simp, fun a ha b hb => by
      obtain rfl := List.mem_singleton.1 hb
      rintro rfl
      exact hnew ha⟩
  · dsimp only
    rw [hpr]
    intro v hv
    rcases List.mem_append.1 hv with hv | hv
    · exact h.known v hv
    · obtain rfl := List.mem_singleton.1 hv
      exact hn
  · intro v
    dsimp only
    rw [hpr, openCount_append _ _ _ _ hnew, decrement_eq, h.counts]
  · dsimp only
    rw [hpr]
    exact respects_append h.respects (h.zero.1 h0)

theorem sortLoop_ok (hs : env.Sane) (hne : NonEmptyPaths env) (n : Nat) {cands : List Nat}
    (hl : cands.length = n) (hc : ∀ v ∈ cands, v ∈ env.paths.map (·.id)) {pos : Pt} (hpos : InRange pos)
    (order : List Nat) {st : St} (hw : WF env st) :
    ∃ ns st', sortLoop env n pos cands order st = .ok (ns, st') ∧ ns.Perm (order ++ cands) ∧ WF env st' := by
  induction n generalizing cands pos order st with
  | zero =>
    obtain rfl := List.length_eq_zero_iff.1 hl
    exact ⟨order, st, by simp [sortLoop], by simp, hw⟩
  | succ n ih =>
    have hcn : cands ≠ [] := by rintro rfl; simp at hl
    obtain ⟨b, st', h1, h2, h3⟩ := findBestVertices_ok hs hpos hw hc hcn
    obtain ⟨i, p, hi, hp, hid⟩ := find_ok (hc b h2)
    obtain ⟨q, hq, hr⟩ := endPosition_ok hs hp (hne p (List.mem_of_getElem? hp)) h3
    have hf : env.find b = .ok i := by unfold Env.find; rw [hi]
    obtain ⟨ns, st'', e1, e2, e3⟩ := ih (cands := cands.erase b)
      (by rw [List.length_erase_of_mem h2, hl]; rfl)
      (fun v hv => hc v (List.mem_of_mem_erase hv)) hr (order ++ [b]) h3
    refine ⟨ns, st'', ?_, ?_, e3⟩
    · rw [sortLoop, if_neg hcn]
      simp only [h1, Outcome.bind_ok, hf, path_ok hp, hq]
      exact e1
    · refine e2.trans ?_
      rw [List.append_assoc]
      exact (List.Perm.append_left _ (List.perm_cons_erase h2).symm)

theorem mem_candidates {counts : Nat → Int} {node v : Nat} :
    v ∈ neighbourCandidates edges counts node ↔ (node, v) ∈ edges ∧ counts v = 0 := by
  unfold neighbourCandidates
  rw [List.mem_dedup, List.mem_filter, List.mem_map]
  constructor
  · rintro ⟨⟨e, he, rfl⟩, h⟩
    rw [List.mem_filter] at he
    have : e.1 = node := by simpa using he.2
    refine ⟨?_, by simpa using h⟩
    rw [← this]
    exact he.1
  · rintro ⟨he, h⟩
    exact ⟨⟨(node, v), List.mem_filter.2 ⟨he, by simp⟩, rfl⟩, by simpa using h⟩

theorem getNeighbours_ok (hs : env.Sane) (hne : NonEmptyPaths env) (hab : About env edges) {c : CSt}
    (h : Core env edges c) (node : Nat) :
    ∃ ns st', getNeighbours env edges node c = .ok (ns, { c with st := st' }) ∧ WF env st' ∧
      (∀ v, v ∈ ns ↔ (node, v) ∈ edges ∧ c.counts v = 0) := by
  obtain ⟨ns, st', h1, h2, h3⟩ := sortLoop_ok hs hne _ (cands := neighbourCandidates edges c.counts node)
    rfl (fun v hv => (hab.2 _ (mem_candidates.1 hv).1).2) h.pos [] h.wf
  refine ⟨ns, st', ?_, h3, ?_⟩
  · unfold getNeighbours
    simp only [h1, Outcome.bind_ok]
  · intro v
    rw [h2.mem_iff, List.nil_append, mem_candidates]

/-- The invariant during a depth-first search that must not enter `B`. -/
structure Inv (env : Env) (edges : Edges) (B : List Nat) (c : CSt) : Prop where
  core : Core env edges c
  seen : ∀ v ∈ env.printed c.order, v ∈ c.visited
  only : ∀ v ∈ c.visited, v ∈ env.printed c.order ∨ v ∈ B
  block : ∀ b ∈ B, b ∈ c.visited ∧ b ∉ env.printed c.order

/-- A path that could be printed next. -/
def Ready (env : Env) (c : CSt) (v : Nat) : Prop :=
  v ∈ env.paths.map (·.id) ∧ v ∉ c.visited ∧ c.counts v = 0

/-- `c'` comes after `c`. -/
structure Ext (env : Env) (c c' : CSt) : Prop where
  order : ∃ l, env.printed c'.order = env.printed c.order ++ l
  visited : ∀ v ∈ c.visited, v ∈ c'.visited
  pool : c'.pool = c.pool

theorem Ext.refl (env : Env) (c : CSt) : Ext env c c := ⟨⟨[], by simp⟩, fun _ h => h, rfl⟩

theorem Ext.trans {a b c : CSt} (h1 : Ext env a b) (h2 : Ext env b c) : Ext env a c := by
  obtain ⟨⟨l1, e1⟩, v1, p1⟩ := h1
  obtain ⟨⟨l2, e2⟩, v2, p2⟩ := h2
  exact ⟨⟨l1 ++ l2, by rw [e2, e1, List.append_assoc]⟩, fun v h => v2 v (v1 v h), p2.trans p1⟩

theorem Ext.zero {c c' : CSt} (h : Ext env c c') (h1 : Core env edges c) (h2 : Core env edges c') {v : Nat}
    (h0 : c.counts v = 0) : c'.counts v = 0 := by
  rw [h2.zero]
  intro e he hv
  obtain ⟨l, hl⟩ := h.order
  rw [hl]
  exact List.mem_append_left _ (h1.zero.1 h0 e he hv)

/-- The number of paths not visited yet. -/
def unvisited (env : Env) (c : CSt) : Nat :=
  ((env.paths.map (·.id)).filter (fun v => decide (v ∉ c.visited))).length

theorem unvisited_le {c c' : CSt} (h : ∀ v ∈ c.visited, v ∈ c'.visited) :
    unvisited env c' ≤ unvisited env c := by
  unfold unvisited
  apply List.Sublist.length_le
  apply List.monotone_filter_right
  intro v hv
  simp only [decide_eq_true_eq] at *
  exact fun hc => hv (h v hc)

theorem unvisited_lt {c c' : CSt} (h : ∀ v ∈ c.visited, v ∈ c'.visited) {node : Nat}
    (hn : node ∈ env.paths.map (·.id)) (h1 : node ∉ c.visited) (h2 : node ∈ c'.visited) :
    unvisited env c' < unvisited env c := by
  unfold unvisited
  generalize env.paths.map (·.id) = l at *
  induction l with
  | nil => simp at hn
  | cons a l ih =>
    have mono : (l.filter (fun v => decide (v ∉ c'.visited))).length ≤
        (l.filter (fun v => decide (v ∉ c.visited))).length := by
      apply List.Sublist.length_le
      apply List.monotone_filter_right
      intro v hv
      simp only [decide_eq_true_eq] at *
      exact fun hc => hv (h v hc)
    by_cases ha : a = node
    · subst ha
      rw [List.filter_cons_of_neg (by simpa using h2), List.filter_cons_of_pos (by simpa using h1)]
      simp only [List.length_cons]
      omega
    · have hn' : node ∈ l := by
        rcases List.mem_cons.1 hn with h | h
        · exact absurd h.symm ha
        · exact h
      have := ih hn'
      by_cases hv : a ∈ c.visited
      · rw [List.filter_cons_of_neg (by simpa using h a hv), List.filter_cons_of_neg (by simpa using hv)]
        exact this
      · rw [List.filter_cons_of_pos (a := a) (p := fun v => decide (v ∉ c.visited)) (by simpa using hv)]
        rw [List.filter_cons]
        split_ifs <;> simp only [List.length_cons] <;> omega

theorem dfs_ok (hs : env.Sane) (hne : NonEmptyPaths env) (hab : About env edges) {B : List Nat} (fuel : Nat)
    {node : Nat} {c : CSt} (h : Inv env edges B c) (hn : node ∈ env.paths.map (·.id))
    (h0 : c.counts node = 0) (hf : unvisited env c < fuel) :
    ∃ c', dfs env edges fuel node c = .ok c' ∧ Inv env edges B c' ∧ Ext env c c' ∧ node ∈ c'.visited ∧
      ∀ v, Ready env c' v → Ready env c v := by
  induction fuel generalizing node c with
  | zero => omega
  | succ fuel ih =>
    rw [dfs]
    by_cases hv : node ∈ c.visited
    · rw [if_pos hv]
      exact ⟨c, rfl, h, Ext.refl env c, hv, fun _ h => h⟩
    · rw [if_neg hv]
      have hcore1 : Core env edges { c with visited := node :: c.visited } :=
        ⟨h.core.wf, h.core.pos, h.core.outs, h.core.nodup, h.core.known, h.core.counts, h.core.respects⟩
      have hnp : node ∉ env.printed c.order := fun hc => hv (h.seen _ hc)
      obtain ⟨c2, e2, k2, p2, v2, q2⟩ := handle_ok hs hne hcore1 hn hnp h0
      obtain ⟨ns, st3, e3, w3, m3⟩ := getNeighbours_ok hs hne hab k2 node
      rw [e2]
      simp only [Outcome.bind_ok, e3]
      dsimp only at p2 v2 q2
      have k3 := k2.setSt w3
      have i3 : Inv env edges B { c2 with st := st3 } := by
        refine ⟨k3, ?_, ?_, ?_⟩
        · intro v hv'
          dsimp only at hv' ⊢
          rw [p2] at hv'
          rw [v2]
          rcases List.mem_append.1 hv' with h' | h'
          · exact List.mem_cons_of_mem _ (h.seen v h')
          · rw [List.mem_singleton.1 h']; exact List.mem_cons_self
        · intro v hv'
          dsimp only at hv' ⊢
          rw [v2] at hv'
          rw [p2]
          rcases List.mem_cons.1 hv' with rfl | h'
          · left; simp
          · rcases h.only v h' with h'' | h''
            · left; exact List.mem_append_left _ h''
            · right; exact h''
        · intro b hb
          dsimp only
          rw [v2, p2]
          refine ⟨List.mem_cons_of_mem _ (h.block b hb).1, ?_⟩
          intro hc
          rcases List.mem_append.1 hc with h' | h'
          · exact (h.block b hb).2 h'
          · rw [List.mem_singleton.1 h'] at hb
            exact hv (h.block _ hb).1
      have x3 : Ext env c { c2 with st := st3 } := by
        refine ⟨⟨[node], p2⟩, ?_, q2⟩
        intro v hv'
        dsimp only
        rw [v2]
        exact List.mem_cons_of_mem _ hv'
      have hfuel : unvisited env { c2 with st := st3 } < fuel := by
        have := unvisited_lt (env := env) x3.visited hn hv
          (by dsimp only; rw [v2]; exact List.mem_cons_self)
        omega
      -- the loop over the neighbours
      have loop : ∀ (l : List Nat) (d : CSt), Inv env edges B d → unvisited env d < fuel →
          (∀ v ∈ l, v ∈ env.paths.map (·.id) ∧ d.counts v = 0) →
          ∃ d', l.foldlM (fun c n => dfs env edges fuel n c) d = .ok d' ∧ Inv env edges B d' ∧
            Ext env d d' ∧ (∀ v ∈ l, v ∈ d'.visited) ∧ ∀ v, Ready env d' v → Ready env d v := by
        intro l
        induction l with
        | nil =>
          intro d hd _ _
          exact ⟨d, rfl, hd, Ext.refl env d, by simp, fun _ h => h⟩
        | cons a l ihl =>
          intro d hd hu hl
          obtain ⟨d1, f1, g1, x1, n1, r1⟩ := ih hd (hl a (by simp)).1 (hl a (by simp)).2 hu
          obtain ⟨d2, f2, g2, x2, n2, r2⟩ := ihl d1 g1 (lt_of_le_of_lt (unvisited_le x1.visited) hu)
            (fun v hv => ⟨(hl v (by simp [hv])).1, x1.zero hd.core g1.core (hl v (by simp [hv])).2⟩)
          refine ⟨d2, ?_, g2, x1.trans x2, ?_, fun v hv => r1 v (r2 v hv)⟩
          · rw [List.foldlM_cons, f1]; exact f2
          · intro v hv
            rcases List.mem_cons.1 hv with rfl | hv
            · exact x2.visited _ n1
            · exact n2 v hv
      obtain ⟨d, f, g, x, n, r⟩ := loop ns _ i3 hfuel (fun v hv =>
        ⟨(hab.2 _ ((m3 v).1 hv).1).2, ((m3 v).1 hv).2⟩)
      refine ⟨d, f, g, x3.trans x, ?_, ?_⟩
      · apply x.visited
        dsimp only
        rw [v2]
        exact List.mem_cons_self
      · intro v hr
        obtain ⟨a1, a2, a3⟩ := r v hr
        refine ⟨a1, fun hc => a2 (x3.visited v hc), ?_⟩
        by_contra hcz
        -- a path that became ready was among the neighbours
        have : (node, v) ∈ edges := by
          by_contra hne'
          apply hcz
          rw [h.core.zero]
          intro e he hev
          have := (k3.zero (v := v)).1 a3 e he hev
          dsimp only at this
          rw [p2] at this
          rcases List.mem_append.1 this with h' | h'
          · exact h'
          · exfalso
            apply hne'
            rw [← List.mem_singleton.1 h', ← hev]
            exact he
        exact hr.2.1 (n v ((m3 v).2 ⟨this, a3⟩))

theorem setLoop_ok (hs : env.Sane) (act : Nat → CSt → Outcome CSt) (P : List Nat → CSt → Prop)
    (hP : ∀ s c, P s c → WF env c.st ∧ InRange c.pos ∧ ∀ v ∈ s, v ∈ env.paths.map (·.id))
    (hact : ∀ s c b st, P s c → b ∈ s → WF env st →
      ∃ c', act b { c with st := st } = .ok c' ∧ P (s.erase b) c') (n : Nat)
    {s : List Nat} (hn : s.length = n) {c : CSt} (h : P s c) :
    ∃ c', setLoop env act n s c = .ok c' ∧ P [] c' := by
  induction n generalizing s c with
  | zero =>
    obtain rfl := List.length_eq_zero_iff.1 hn
    exact ⟨c, by simp [setLoop], h⟩
  | succ n ih =>
    have hsn : s ≠ [] := by rintro rfl; simp at hn
    obtain ⟨hw, hp, hk⟩ := hP s c h
    obtain ⟨b, st, e1, e2, e3⟩ := findBestVertices_ok hs hp hw hk hsn
    obtain ⟨c1, f1, f2⟩ := hact s c b st h e2 e3
    obtain ⟨c2, g1, g2⟩ := ih (s := s.erase b) (by rw [List.length_erase_of_mem e2, hn]; rfl) f2
    refine ⟨c2, ?_, g2⟩
    rw [setLoop, if_neg hsn]
    simp only [e1, Outcome.bind_ok, f1]
    exact g1

/-- In an acyclic graph, if no path is ready then all are visited. -/
theorem all_visited (hac : Acyclic edges) (hab : About env edges) {c : CSt} {B : List Nat}
    (h : Inv env edges B c) (hB : ∀ b ∈ B, ∀ e ∈ edges, e.1 ≠ b) (hr : ∀ v, ¬ Ready env c v) :
    ∀ v ∈ env.paths.map (·.id), v ∈ c.visited := by
  by_contra hcon
  push Not at hcon
  obtain ⟨v0, hv0, hn0⟩ := hcon
  let S : Set Nat := {v | v ∈ env.paths.map (·.id) ∧ v ∉ c.visited}
  have hfin : S.Finite :=
    (List.finite_toSet (env.paths.map PathIn.id)).subset (fun v (hv : v ∈ S) => hv.1)
  let r : Nat → Nat → Prop := Relation.TransGen (fun a b => (a, b) ∈ edges)
  have : IsStrictOrder Nat r := { irrefl := hac, trans := fun _ _ _ h1 h2 => h1.trans h2 }
  have hwf : S.WellFoundedOn r := hfin.wellFoundedOn
  have key : ∀ v ∈ S, False := by
    intro v hv
    refine hwf.induction (P := fun _ => False) hv ?_
    intro m hm ih
    apply hr m
    refine ⟨hm.1, hm.2, ?_⟩
    rw [h.core.zero]
    intro e he hev
    by_contra hnp
    have hnv : e.1 ∉ c.visited := by
      intro hc
      rcases h.only _ hc with h' | h'
      · exact hnp h'
      · exact hB _ h' e he rfl
    refine ih e.1 ⟨(hab.2 e he).1, hnv⟩ (Relation.TransGen.single ?_)
    rw [← hev]
    exact he
  exact key v0 ⟨hv0, hn0⟩

end Verif.Order
