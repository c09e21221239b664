import Verif.Lightning.Realign
import Verif.Lightning.Lines
import Verif.Grid.Model

/-! # C113, C114, C115: lightning infill -/

namespace Verif.Lightning

variable {P K : Type} [DecidableEq P] [DecidableEq K]

/-! ## C113: the trees of a layer support what is to be supported -/

/-- However many layers there are: the trees of all layers are found; in each layer no node is in two places, each point that is to be supported is near to a
node, and each tree starts on the outline of that layer. -/
theorem C113_generate (s : Smooth P) (near : P → P → Prop) (hs : s.Ok near) (d : Int) (on : Layer P K → P → Prop) (ls : List (Layer P K))
    (hl : ∀ l ∈ ls, l.Ok ∧ Outline l.env (on l)) :
    ∃ res, generate s d ls [] 0 = some res ∧
      List.Forall₂ (fun l forest => (ids forest).Nodup ∧ Supported l.env l.dots forest ∧ ∀ t ∈ forest, on l t.loc) ls res := by
  obtain ⟨res, h1, h2⟩ := generate_spec hs d on ls hl [] 0 ⟨List.nodup_nil, fun i hi => (by cases hi)⟩
  exact ⟨res, h1, h2.imp fun _ _ h => ⟨h.ids, h.supported, h.grounded⟩⟩

/-- A layer: nothing that came from above is lost, neither nodes nor branches (a branch may change its direction), no node is moved, and new nodes are
points that are to be supported or are on the outline. -/
theorem C113_layer (l : Layer P K) (hl : l.Ok) (on : P → Prop) (ho : Outline l.env on) (forest : List (Tree P)) (next : Nat)
    (h1 : (ids forest).Nodup) (h2 : ∀ i ∈ ids forest, i < next) :
    ∃ st, doLayer l forest next = some st ∧ (ids st.forest).Nodup ∧ (∀ i ∈ ids st.forest, i < st.next) ∧ next ≤ st.next ∧
      Supported l.env l.dots st.forest ∧ (∀ t ∈ st.forest, on t.loc) ∧
      (nodesList forest).Subperm (nodesList st.forest) ∧ (∀ n ∈ nodesList st.forest, n ∈ nodesList forest ∨ n.2 ∈ l.dots ∨ on n.2) ∧
      ∀ a b, Adj forest a b → Adj st.forest a b := by
  obtain ⟨st, e1, e2, e3, e4, e5, e6, e7, e8⟩ := doLayer_spec hl ho ⟨h1, h2⟩
  exact ⟨st, e1, e2.1, e2.2, e3, e4, e5, e6, e7, e8⟩

/-- New branches, before trees from above are connected: each leads from a point that is to be supported to the closest point on the outline, or to a node of a
tree so that it does not collide with the outline. All that was there stays. -/
theorem C113_branches (l : Layer P K) (hl : l.Ok) (forest : List (Tree P)) (next : Nat) (h1 : (ids forest).Nodup) (h2 : ∀ i ∈ ids forest, i < next) :
    ∃ st, newTrees l.env l.dots forest next = some st ∧ Supported l.env l.dots st.forest ∧ (ids st.forest).Nodup ∧
      (∀ e ∈ edges forest, e ∈ edges st.forest) ∧ ∀ a b, (a, b) ∈ edges st.forest → (a, b) ∈ edges forest ∨ NewBranch l.env st.forest a b l.dots := by
  obtain ⟨st, e1, e2, e3⟩ := newTrees_spec l hl forest next ⟨h1, h2⟩
  exact ⟨st, e1, e3, e2.ok.1, e2.oldEdges, e2.newEdges⟩

omit [DecidableEq P] [DecidableEq K] in
/-- The assumptions about cells hold for points at multiples of the size of a cell, on the grid that is used. -/
theorem C113_cells (size : Int) (hsize : 0 < size) (r : Int) (hr : 0 ≤ r) (dots : List Grid.Pt) (hd : dots.Nodup)
    (hm : ∀ u ∈ dots, size ∣ u.x ∧ size ∣ u.y) :
    (dots.map (Grid.toGridPoint size)).Nodup ∧ ∀ u : Grid.Pt, Grid.toGridPoint size u ∈ Grid.nearbyCells size u r := by
  constructor
  · refine (List.nodup_map_iff_inj_on hd).2 ?_
    intro u hu v hv h
    simp only [Grid.toGridPoint, Grid.toGridCoord, Grid.Pt.mk.injEq] at h
    obtain ⟨ux, uy⟩ := hm u hu
    obtain ⟨vx, vy⟩ := hm v hv
    obtain ⟨a, ha⟩ := ux
    obtain ⟨b, hb⟩ := uy
    obtain ⟨a', ha'⟩ := vx
    obtain ⟨b', hb'⟩ := vy
    rw [ha, ha', hb, hb', Int.mul_tdiv_cancel_left _ (by omega), Int.mul_tdiv_cancel_left _ (by omega), Int.mul_tdiv_cancel_left _ (by omega),
      Int.mul_tdiv_cancel_left _ (by omega)] at h
    cases u; cases v
    simp_all
  · intro u
    have mono : ∀ a b : Int, a ≤ b → a.tdiv size ≤ b.tdiv size := fun a b h => Int.tdiv_le_tdiv hsize h
    have hspan : ∀ a b c : Int, a ≤ c → c ≤ b → c ∈ Grid.span a b := by
      intro a b c h1 h2
      unfold Grid.span
      rw [List.mem_map]
      exact ⟨(c - a).toNat, by rw [List.mem_range]; omega, by omega⟩
    unfold Grid.nearbyCells
    simp only [Grid.toGridPoint, Grid.toGridCoord, List.mem_flatMap, List.mem_map]
    exact ⟨u.y.tdiv size, hspan _ _ _ (mono _ _ (by omega)) (mono _ _ (by omega)), u.x.tdiv size,
      hspan _ _ _ (mono _ _ (by omega)) (mono _ _ (by omega)), rfl⟩

/-! ## C114: the trees of the next layer -/

omit [DecidableEq P] [DecidableEq K] in
/-- Pruning: the start stays; exactly the branches are kept which are not within the distance from the ends, and a node closer to the ends than the distance
goes along its branch to where that distance is reached. -/
theorem C114_prune (env : Env P K) (hd : ∀ a b, 0 ≤ env.dist a b) (d : Int) (h0 : 0 < d) (t : Tree P) :
    (t.prune env d).1 = min d (t.height env.dist) ∧ (t.prune env d).2.id = t.id ∧ (t.prune env d).2.loc = t.loc ∧
      (t.prune env d).2.kids.map brief = (t.kids.filter (keeps env.dist d)).map (cut env d) := by
  obtain ⟨h1, h2⟩ := (prune_spec hd h0).1 t
  exact ⟨h1, (prune_id env d t).1, (prune_id env d t).2, h2⟩

omit [DecidableEq K] in
/-- Straightening: the start and the ends of the branches stay where they are, the shape of the tree is the same but for nodes along branches, no node is
moved further than allowed, and none is added. -/
theorem C114_straighten (env : Env P K) (s : Smooth P) (near : P → P → Prop) (hs : s.Ok near) (t : Tree P) (t' : Tree P)
    (ht : (t.straighten env s none t.loc 0).2 = t') :
    t'.id = t.id ∧ t'.loc = t.loc ∧ t'.ends = t.ends ∧ t'.skeleton = t.skeleton ∧ Moved near t.nodes t'.nodes ∧
      (t'.nodes.map (·.1)).Sublist (t.nodes.map (·.1)) := by
  subst ht
  obtain ⟨h1, h2, h3, h4, h5⟩ := (straighten_spec (env := env) hs).1 t none t.loc 0
  exact ⟨h5 rfl, straighten_root hs t, h3, h4, h2, h1⟩

omit [DecidableEq P] [DecidableEq K] in
/-- Realigning: if there are no outlines, nothing is left. Otherwise exactly the nodes inside are left, and exactly the branches between two of these which are
not broken by the outline. -/
theorem C114_realign (env : Env P K) (t : Tree P) (res : List (Tree P))
    (hres : ((t.realign env).2.2 ++ if (t.realign env).1 then [(t.realign env).2.1] else []) = res) :
    (env.empty = true → res = []) ∧
    (env.empty = false → (nodesList res).Perm (t.nodes.filter fun n => env.inside n.2) ∧ (links res).Perm ((t.kids.map link).filter (sound env))) := by
  subst hres
  exact ⟨fun h => realign_empty h t, fun h => ⟨((realign_spec h).1 t).2.2.2.1, ((realign_spec h).1 t).2.2.2.2⟩⟩

omit [DecidableEq K] in
/-- The next layer: all nodes are inside its outlines, all branches are not broken by these, and each node is one of the layer above, none of which occurs
twice. -/
theorem C114_next (env : Env P K) (s : Smooth P) (near : P → P → Prop) (hs : s.Ok near) (d : Int) (ts : List (Tree P)) (hn : (ids ts).Nodup)
    (res : List (Tree P)) (hres : ts.flatMap (propagate env s d) = res) :
    (ids res).Nodup ∧ (∀ i ∈ ids res, i ∈ ids ts) ∧ (∀ n ∈ nodesList res, env.inside n.2 = true) ∧ ∀ l ∈ links res, sound env l = true := by
  subst hres
  obtain ⟨l, hp, hl⟩ := below_ids (env := env) hs d ts
  refine ⟨hp.nodup_iff.1 (hn.sublist hl), fun i hi => (below_ids hs d ts).subset hi, ?_, ?_⟩
  · intro n h
    clear hl hp l hn
    induction ts with
    | nil => cases h
    | cons t ts ih =>
      rw [List.flatMap_cons, nodesList_append, List.mem_append] at h
      rcases h with h | h
      · exact propagate_inside s d t n h
      · exact ih h
  · intro x h
    unfold links at h
    rw [List.mem_flatMap] at h
    obtain ⟨t', ht', hx⟩ := h
    rw [List.mem_flatMap] at ht'
    obtain ⟨t, -, ht'⟩ := ht'
    have hx' : x ∈ links (propagate env s d t) := List.mem_flatMap.2 ⟨t', ht', hx⟩
    rw [propagate_eq] at hx'
    cases he : env.empty with
    | true => rw [realign_empty he] at hx'; cases hx'
    | false =>
      rw [((realign_spec he).1 _).2.2.2.2.mem_iff, List.mem_filter] at hx'
      exact hx'.2

/-! ## C115: the lines that are printed -/

omit [DecidableEq P] [DecidableEq K] in
/-- Whichever children are followed first: the lines consist of the branches of the tree, each exactly once and towards the start; each end of a branch begins
exactly one line. -/
theorem C115_lines (pick : Nat → Nat) (t : Tree P) (ls : List (List P)) (hls : (t.lines pick).1 :: (t.lines pick).2 = ls) :
    (ls.flatMap pieces).Perm t.segments ∧ (ls.map List.head?).Perm (t.ends.map fun e => some e.2) := by
  subst hls
  obtain ⟨-, h2, h3⟩ := (lines_spec pick).1 t
  exact ⟨h2, h3⟩

omit [DecidableEq P] [DecidableEq K] in
/-- What is printed are these lines, each shortened at its end, but for those of which nothing is left. -/
theorem C115_overlap (dist : P → P → Int) (at' : P → P → Int → P) (pick : Nat → Nat) (width : Int) (t : Tree P) :
    (t.toLines dist at' pick width).Perm
      ((((t.lines pick).1 :: (t.lines pick).2).map fun l => (shorten dist at' l.reverse (width.tdiv 2)).reverse).filter fun l => decide (1 < l.length)) :=
  overlapLoop_perm dist at' (width.tdiv 2) _ _ (Nat.le_refl _)

omit [DecidableEq P] [DecidableEq K] in
/-- A line is shortened by the given length, measured along the line; a point is left if the line is shorter than that. -/
theorem C115_shorten (dist : P → P → Int) (at' : P → P → Int → P) (d : Int) (l : List P) (a : P) (res : List P)
    (hres : (shorten dist at' (l ++ [a]).reverse d).reverse = res) :
    (∃ pre b x suf e, l ++ [a] = pre ++ [b, x] ++ suf ∧ res = pre ++ [b, at' x b e] ∧
      lineLength dist (x :: suf) + e = d ∧ e ≤ dist b x ∧ (suf = [] ∨ 0 < e)) ∨
    (lineLength dist (l ++ [a]) < d ∨ l = []) ∧ res.length = 1 := by
  subst hres
  exact shorten_spec dist at' d l a

end Verif.Lightning
