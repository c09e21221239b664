import Verif.Lightning.Forest
import Mathlib.Tactic.Linarith

/-! # The next layer -/

namespace Verif.Lightning

variable {P K : Type}

/-! ## Copy -/

theorem copy_spec : (∀ (t : Tree P) (r : Bool), (t.copy r).nodes = t.nodes ∧ (t.copy r).kids.map link = t.kids.map link ∧ (t.copy r).id = t.id ∧ (t.copy r).loc = t.loc ∧
      (t.copy r).ends = t.ends ∧ (t.copy r).skeleton = t.skeleton ∧ (∀ dist, (t.copy r).height dist = t.height dist)) ∧
    ∀ (ts : List (Tree P)), nodesList (copyList ts) = nodesList ts ∧ (∀ i p, (kidsList i p (copyList ts)).map link = (kidsList i p ts).map link) ∧
      endsList (copyList ts) = endsList ts ∧ skeletonList (copyList ts) = skeletonList ts ∧ (∀ dist p, heightList dist p (copyList ts) = heightList dist p ts) := by
  refine Tree.ind ?_ ?_ ?_
  · rintro i p g cs ⟨h1, h2, h3, h4, h5⟩ r
    refine ⟨by simp [Tree.copy, Tree.nodes, h1], by simp [Tree.copy, Tree.kids, h2], rfl, rfl, ?_, ?_, fun dist => by simp [Tree.copy, Tree.height, h5]⟩
    · cases cs with
      | nil => rfl
      | cons c cs => simpa [Tree.copy, copyList, Tree.ends, endsList] using h3
    · match cs, h4 with
      | [], _ => rfl
      | [c], h4 => simpa [Tree.copy, copyList, Tree.skeleton, skeletonList] using h4
      | c :: c' :: cs, h4 => simpa [Tree.copy, copyList, Tree.skeleton, skeletonList] using h4
  · exact ⟨rfl, fun _ _ => rfl, rfl, rfl, fun _ _ => rfl⟩
  · rintro c cs hc ⟨h1, h2, h3, h4, h5⟩
    obtain ⟨c1, c2, c3, c4, c5, c6, c7⟩ := hc false
    refine ⟨by simp [copyList, nodesList, c1, h1], fun i p => ?_, by simp [copyList, endsList, c5, h3], by simp [copyList, skeletonList, c6, h4],
      fun dist p => by simp [copyList, heightList, c7, c4, h5]⟩
    simp only [copyList, kidsList, List.map_cons, List.map_append, c2, h2]
    simp [link, c3, c4]

/-! ## Prune -/

theorem height_nonneg {dist : P → P → Int} :
    (∀ t : Tree P, 0 ≤ t.height dist) ∧ ∀ (ts : List (Tree P)) (p : P), 0 ≤ heightList dist p ts := by
  refine Tree.ind ?_ ?_ ?_
  · intro i p g cs ih; rw [Tree.height]; exact ih p
  · intro p; exact Int.le_refl 0
  · intro c cs _ ih p
    rw [heightList]
    exact le_trans (ih p) (le_max_right _ _)

theorem kids_height {dist : P → P → Int} (hd : ∀ a b, 0 ≤ dist a b) :
    (∀ t : Tree P, ∀ x ∈ t.kids, x.2.2.height dist + dist x.2.1 x.2.2.loc ≤ t.height dist) ∧
    ∀ (ts : List (Tree P)) (i : Nat) (p : P), ∀ x ∈ kidsList i p ts, x.2.2.height dist + dist x.2.1 x.2.2.loc ≤ heightList dist p ts := by
  refine Tree.ind ?_ ?_ ?_
  · intro i p g cs ih x hx
    exact ih i p x hx
  · intro i p x hx; cases hx
  · intro c cs ihc ih i p x hx
    rw [kidsList, List.mem_cons, List.mem_append] at hx
    rw [heightList]
    rcases hx with rfl | hx | hx
    · exact le_max_left _ _
    · have := ihc x hx
      have := hd p c.loc
      exact le_trans (by linarith) (le_max_left _ _)
    · exact le_trans (ih i p x hx) (le_max_right _ _)

theorem setLoc_brief (q : P) (t : Tree P) : (t.setLoc q).kids.map brief = t.kids.map brief := by
  cases t with
  | node i p g cs =>
    show List.map brief (kidsList i q cs) = List.map brief (kidsList i p cs)
    induction cs with
    | nil => rfl
    | cons c cs ih => simp [kidsList, brief, ih]

theorem setLoc_id (q : P) (t : Tree P) : (t.setLoc q).id = t.id ∧ (t.setLoc q).loc = q := by cases t; exact ⟨rfl, rfl⟩

theorem prune_id (env : Env P K) (d : Int) (t : Tree P) : (t.prune env d).2.id = t.id ∧ (t.prune env d).2.loc = t.loc := by
  cases t; exact ⟨rfl, rfl⟩

theorem filter_keeps_nil {dist : P → P → Int} (hd : ∀ a b, 0 ≤ dist a b) {d : Int} {t : Tree P} (h : t.height dist < d) : t.kids.filter (keeps dist d) = [] := by
  rw [List.filter_eq_nil_iff]
  intro x hx
  have h1 := (kids_height hd).1 t x hx
  have h2 := hd x.2.1 x.2.2.loc
  simp only [keeps, Bool.or_eq_true, decide_eq_true_eq, not_or, not_le, not_lt]
  exact ⟨by linarith, by linarith⟩

theorem prune_spec {env : Env P K} (hd : ∀ a b, 0 ≤ env.dist a b) {d : Int} (h0 : 0 < d) :
    (∀ t : Tree P, (t.prune env d).1 = min d (t.height env.dist) ∧ (t.prune env d).2.kids.map brief = (t.kids.filter (keeps env.dist d)).map (cut env d)) ∧
    ∀ (ts : List (Tree P)) (i : Nat) (p : P) (b : Int), 0 ≤ b → b ≤ d →
      (pruneList env d p ts b).1 = max b (min d (heightList env.dist p ts)) ∧
      ∀ p', (kidsList i p' (pruneList env d p ts b).2).map brief = ((kidsList i p ts).filter (keeps env.dist d)).map (cut env d) := by
  refine Tree.ind ?_ ?_ ?_
  · intro i p g cs ih
    obtain ⟨h1, h2⟩ := ih i p 0 (Int.le_refl 0) (Int.le_of_lt h0)
    refine ⟨?_, h2 p⟩
    rw [Tree.prune, Tree.height]
    show (pruneList env d p cs 0).1 = _
    rw [h1]
    have := height_nonneg (dist := env.dist) |>.2 cs p
    omega
  · intro i p b hb hbd
    refine ⟨?_, fun _ => rfl⟩
    show b = max b (min d 0)
    omega
  · intro c cs ihc ih i p b hb hbd
    obtain ⟨c1, c2⟩ := ihc
    have hh := height_nonneg (dist := env.dist) |>.1 c
    have hl := hd p c.loc
    have hcid := prune_id env d c
    rw [pruneList]
    rw [c1]
    simp only [heightList, kidsList]
    generalize hH : c.height env.dist = H at *
    generalize hL : env.dist p c.loc = L at *
    split
    · rename_i hc
      have hdH : d ≤ H := by omega
      obtain ⟨h1, h2⟩ := ih i p (max b (min d H)) (by omega) (by omega)
      refine ⟨?_, fun p' => ?_⟩
      · show (pruneList env d p cs _).1 = _
        rw [h1]; omega
      · show List.map brief (kidsList i p' (_ :: (pruneList env d p cs _).2)) = _
        have hk : keeps env.dist d (i, p, c) = true := by simp [keeps, hH, hdH]
        rw [List.filter_cons_of_pos hk, kidsList, List.map_cons, List.map_cons, List.filter_append, List.map_append, List.map_append, c2, h2 p']
        have : ¬ H < d := by omega
        simp [brief, cut, hH, this, hcid]
    · rename_i hc
      have hdH : H < d := by omega
      have hm : min d H = H := by omega
      rw [hm]
      have hnil := filter_keeps_nil hd (t := c) (d := d) (by rw [hH]; exact hdH)
      split
      · rename_i he
        obtain ⟨h1, h2⟩ := ih i p (max b (H + L)) (by omega) (by omega)
        refine ⟨?_, fun p' => ?_⟩
        · rw [h1]; omega
        · have hk : ¬ keeps env.dist d (i, p, c) = true := by
            simp only [keeps, hH, hL, Bool.or_eq_true, decide_eq_true_eq, not_or]
            omega
          rw [List.filter_cons_of_neg hk, List.filter_append, hnil, List.nil_append, h2 p']
      · rename_i he
        obtain ⟨h1, h2⟩ := ih i p (max b d) (by omega) (by omega)
        refine ⟨?_, fun p' => ?_⟩
        · show (pruneList env d p cs _).1 = _
          rw [h1]; omega
        · show List.map brief (kidsList i p' (_ :: (pruneList env d p cs _).2)) = _
          have hk : keeps env.dist d (i, p, c) = true := by
            simp only [keeps, hH, hL, Bool.or_eq_true, decide_eq_true_eq]
            omega
          rw [List.filter_cons_of_pos hk, kidsList, List.map_cons, List.map_cons, List.filter_append, List.map_append, List.map_append, setLoc_brief, c2, h2 p']
          simp [brief, cut, hH, hdH, hcid, setLoc_id]

/-- What is not moved by pruning has its nodes among those of the tree. -/
theorem prune_ids (env : Env P K) (d : Int) :
    (∀ t : Tree P, ((t.prune env d).2.nodes.map (·.1)).Sublist (t.nodes.map (·.1))) ∧
    ∀ (ts : List (Tree P)) (p : P) (b : Int), (ids (pruneList env d p ts b).2).Sublist (ids ts) := by
  refine Tree.ind ?_ ?_ ?_
  · intro i p g cs ih
    rw [Tree.prune, Tree.nodes, Tree.nodes, List.map_cons, List.map_cons]
    exact List.Sublist.cons_cons _ (ih p 0)
  · intro p b; exact List.Sublist.refl _
  · intro c cs ihc ih p b
    rw [pruneList, ids, ids, nodesList, List.map_append]
    dsimp only
    have hset : ∀ q (t : Tree P), ((t.setLoc q).nodes.map (·.1)) = t.nodes.map (·.1) := by
      intro q t; cases t; rfl
    split
    · rw [nodesList, List.map_append]
      exact ihc.append (ih _ _)
    · split
      · exact (ih _ _).trans (List.sublist_append_right _ _)
      · rw [nodesList, List.map_append, hset]
        exact ihc.append (ih _ _)

/-! ## Straighten -/

variable [DecidableEq P]

theorem straighten_spec {env : Env P K} {s : Smooth P} {near : P → P → Prop} (hs : s.Ok near) :
    (∀ (t : Tree P) (par : Option P) (above : P) (acc : Int),
      ((t.straighten env s par above acc).2.nodes.map (·.1)).Sublist (t.nodes.map (·.1)) ∧
      Moved near t.nodes (t.straighten env s par above acc).2.nodes ∧
      (t.straighten env s par above acc).2.ends = t.ends ∧
      (t.straighten env s par above acc).2.skeleton = t.skeleton ∧
      (par = none → (t.straighten env s par above acc).2.id = t.id)) ∧
    ∀ (ts : List (Tree P)) (p : P),
      (ids (straightenList env s p ts).2).Sublist (ids ts) ∧
      Moved near (nodesList ts) (nodesList (straightenList env s p ts).2) ∧
      endsList (straightenList env s p ts).2 = endsList ts ∧
      skeletonList (straightenList env s p ts).2 = skeletonList ts ∧
      (straightenList env s p ts).2.length = ts.length := by
  have key : (∀ (t : Tree P), (∀ (par : Option P) (above : P) (acc : Int),
      ((t.straighten env s par above acc).2.nodes.map (·.1)).Sublist (t.nodes.map (·.1)) ∧
      Moved near t.nodes (t.straighten env s par above acc).2.nodes ∧
      (t.straighten env s par above acc).2.ends = t.ends ∧
      (t.straighten env s par above acc).2.skeleton = t.skeleton ∧
      (par = none → (t.straighten env s par above acc).2.id = t.id))) ∧
    ∀ (ts : List (Tree P)), (∀ (p : P),
      (ids (straightenList env s p ts).2).Sublist (ids ts) ∧
      Moved near (nodesList ts) (nodesList (straightenList env s p ts).2) ∧
      endsList (straightenList env s p ts).2 = endsList ts ∧
      skeletonList (straightenList env s p ts).2 = skeletonList ts ∧
      (straightenList env s p ts).2.length = ts.length) ∧
      ∀ c, ts = [c] → ∀ (par : Option P) (above : P) (acc : Int),
      ((c.straighten env s par above acc).2.nodes.map (·.1)).Sublist (c.nodes.map (·.1)) ∧
      Moved near c.nodes (c.straighten env s par above acc).2.nodes ∧
      (c.straighten env s par above acc).2.ends = c.ends ∧
      (c.straighten env s par above acc).2.skeleton = c.skeleton := by
    refine Tree.ind ?_ ?_ ?_
    · intro i p g cs ih par above acc
      match cs, ih with
      | [], _ =>
        rw [Tree.straighten]
        exact ⟨List.Sublist.refl _, fun n hn => ⟨n.2, hn, hs.refl _⟩, rfl, rfl, fun _ => rfl⟩
      | [c], ih =>
        rw [Tree.straighten.eq_def]
        dsimp only
        obtain ⟨h1, h2, h3, h4⟩ := ih.2 c rfl (some p) above (acc + env.dist p c.loc)
        generalize c.straighten env s (some p) above (acc + env.dist p c.loc) = r at h1 h2 h3 h4
        generalize hp' : (if above = r.1.2 then p else s.toward p (s.dest above r.1.2 acc (max 1 r.1.1))) = p'
        have hnear : near p p' := by
          rw [← hp']
          split
          · exact hs.refl _
          · exact hs.toward _ _
        have hstay : ((Tree.node i p' g [r.2]).nodes.map (·.1)).Sublist ((Tree.node i p g [c]).nodes.map (·.1)) ∧
            Moved near (Tree.node i p g [c]).nodes (Tree.node i p' g [r.2]).nodes ∧
            (Tree.node i p' g [r.2]).ends = (Tree.node i p g [c]).ends ∧
            (Tree.node i p' g [r.2]).skeleton = (Tree.node i p g [c]).skeleton := by
          refine ⟨?_, ?_, ?_, ?_⟩
          · simpa [Tree.nodes, nodesList] using h1
          · intro n hn
            simp only [Tree.nodes, nodesList, List.append_nil, List.mem_cons] at hn
            rcases hn with rfl | hn
            · exact ⟨p, by simp [Tree.nodes], hnear⟩
            · obtain ⟨q, hq, hqn⟩ := h2 n hn
              exact ⟨q, by simp [Tree.nodes, nodesList, hq], hqn⟩
          · simpa [Tree.ends, endsList] using h3
          · simpa [Tree.skeleton] using h4
        have hgone : (r.2.nodes.map (·.1)).Sublist ((Tree.node i p g [c]).nodes.map (·.1)) ∧
            Moved near (Tree.node i p g [c]).nodes r.2.nodes ∧
            r.2.ends = (Tree.node i p g [c]).ends ∧
            r.2.skeleton = (Tree.node i p g [c]).skeleton := by
          refine ⟨?_, ?_, ?_, ?_⟩
          · simp only [Tree.nodes, nodesList, List.append_nil, List.map_cons]
            exact List.Sublist.cons _ h1
          · intro n hn
            obtain ⟨q, hq, hqn⟩ := h2 n hn
            exact ⟨q, by simp [Tree.nodes, nodesList, hq], hqn⟩
          · simpa [Tree.ends, endsList] using h3
          · simpa [Tree.skeleton] using h4
        cases par with
        | none => exact ⟨hstay.1, hstay.2.1, hstay.2.2.1, hstay.2.2.2, fun _ => rfl⟩
        | some q =>
          dsimp only
          split
          · exact ⟨hgone.1, hgone.2.1, hgone.2.2.1, hgone.2.2.2, fun h => by cases h⟩
          · exact ⟨hstay.1, hstay.2.1, hstay.2.2.1, hstay.2.2.2, fun h => by cases h⟩
      | c :: c' :: cs, ih =>
        rw [Tree.straighten]
        dsimp only
        obtain ⟨h1, h2, h3, h4, h5⟩ := ih.1 p
        generalize straightenList env s p (c :: c' :: cs) = r at h1 h2 h3 h4 h5
        generalize hp' : (if par.isNone = true ∨ r.1.any (fun j => s.near j.1) = true then p else s.push p (above :: r.1.map (·.2))) = p'
        have hnear : near p p' := by
          rw [← hp']
          split
          · exact hs.refl _
          · exact hs.push _ _
        obtain ⟨r1, r2⟩ := r
        match r2, h5 with
        | d :: d' :: ds, _ =>
          refine ⟨?_, ?_, ?_, ?_, fun _ => rfl⟩
          · rw [Tree.nodes, Tree.nodes, List.map_cons, List.map_cons]
            exact List.Sublist.cons_cons _ h1
          · intro n hn
            rw [Tree.nodes, List.mem_cons] at hn
            rcases hn with rfl | hn
            · exact ⟨p, by simp [Tree.nodes], hnear⟩
            · obtain ⟨q, hq, hqn⟩ := h2 n hn
              exact ⟨q, by rw [Tree.nodes]; exact List.mem_cons_of_mem _ hq, hqn⟩
          · simpa [Tree.ends, endsList] using h3
          · show Tree.node i () none _ = Tree.node i () none _
            rw [h4]
    · refine ⟨fun p => ⟨List.Sublist.refl _, fun n hn => (by cases hn), rfl, rfl, rfl⟩, fun c hc => by cases hc⟩
    · intro c cs ihc ih
      refine ⟨fun p => ?_, fun x hx => ?_⟩
      · rw [straightenList]
        dsimp only
        obtain ⟨c1, c2, c3, c4, -⟩ := ihc (some p) p (env.dist p c.loc)
        obtain ⟨h1, h2, h3, h4, h5⟩ := ih.1 p
        refine ⟨?_, ?_, ?_, ?_, by simp [h5]⟩
        · rw [ids, ids, nodesList, nodesList, List.map_append, List.map_append]
          exact c1.append h1
        · intro n hn
          rw [nodesList, List.mem_append] at hn
          rw [nodesList]
          rcases hn with hn | hn
          · obtain ⟨q, hq, hqn⟩ := c2 n hn
            exact ⟨q, List.mem_append_left _ hq, hqn⟩
          · obtain ⟨q, hq, hqn⟩ := h2 n hn
            exact ⟨q, List.mem_append_right _ hq, hqn⟩
        · rw [endsList, endsList, c3, h3]
        · rw [skeletonList, skeletonList, c4, h4]
      · simp only [List.cons.injEq] at hx
        obtain ⟨rfl, rfl⟩ := hx
        intro par above acc
        obtain ⟨c1, c2, c3, c4, -⟩ := ihc par above acc
        exact ⟨c1, c2, c3, c4⟩
  exact ⟨fun t => key.1 t, fun ts p => (key.2 ts).1 p⟩

theorem straighten_root {env : Env P K} {s : Smooth P} {near : P → P → Prop} (hs : s.Ok near) (t : Tree P) :
    (t.straighten env s none t.loc 0).2.loc = t.loc := by
  match t with
  | .node i p g [] => rw [Tree.straighten]
  | .node i p g [c] =>
    rw [Tree.straighten.eq_def]
    dsimp only
    show (if _ then p else _) = p
    split
    · rfl
    · show s.toward p (s.dest p _ 0 _) = p
      rw [hs.start, hs.stay]
  | .node i p g (c :: c' :: cs) =>
    rw [Tree.straighten]
    dsimp only
    simp [Tree.loc]

end Verif.Lightning
