import Verif.Lightning.Below
import Verif.Lightning.Reconnect

/-! # The next layer: what is outside is left out -/

namespace Verif.Lightning

variable {P K : Type} [DecidableEq P] [DecidableEq K]

/-- The trees after `realign`. -/
def realigned (env : Env P K) (t : Tree P) : List (Tree P) := (t.realign env).2.2 ++ if (t.realign env).1 then [(t.realign env).2.1] else []

omit [DecidableEq P] [DecidableEq K] in
theorem links_append (a b : List (Tree P)) : links (a ++ b) = links a ++ links b := by simp [links]

omit [DecidableEq P] [DecidableEq K] in
theorem links_one (t : Tree P) : links [t] = t.kids.map link := by simp [links]

omit [DecidableEq P] [DecidableEq K] in
theorem links_cons (t : Tree P) (ts : List (Tree P)) : links (t :: ts) = t.kids.map link ++ links ts := by simp [links]

omit [DecidableEq P] [DecidableEq K] in
theorem setGround_same (g : Option P) (t : Tree P) : (t.setGround g).nodes = t.nodes ∧ (t.setGround g).kids = t.kids ∧ (t.setGround g).id = t.id ∧ (t.setGround g).loc = t.loc := by
  cases t; exact ⟨rfl, rfl, rfl, rfl⟩

omit [DecidableEq P] [DecidableEq K] in
theorem realign_empty {env : Env P K} (he : env.empty = true) (t : Tree P) : realigned env t = [] := by
  cases t with
  | node i p g cs =>
    unfold realigned
    rw [Tree.realign, if_pos he]
    rfl

omit [DecidableEq P] [DecidableEq K] in
theorem realign_spec {env : Env P K} (he : env.empty = false) :
    (∀ t : Tree P, (t.realign env).1 = env.inside t.loc ∧ (t.realign env).2.1.id = t.id ∧ (t.realign env).2.1.loc = t.loc ∧
      (nodesList (realigned env t)).Perm (t.nodes.filter fun n => env.inside n.2) ∧
      (links (realigned env t)).Perm ((t.kids.map link).filter (sound env))) ∧
    ∀ (ts : List (Tree P)) (i : Nat) (p : P),
      (env.inside p = true →
        (nodesList ((realignKids env p ts).2.1 ++ (realignKids env p ts).1)).Perm ((nodesList ts).filter fun n => env.inside n.2) ∧
        (links (realignKids env p ts).2.1 ++ (kidsList i p (realignKids env p ts).1).map link).Perm (((kidsList i p ts).map link).filter (sound env))) ∧
      (env.inside p = false →
        (nodesList (realignLift env p ts)).Perm ((nodesList ts).filter fun n => env.inside n.2) ∧
        (links (realignLift env p ts)).Perm (((kidsList i p ts).map link).filter (sound env))) := by
  refine Tree.ind ?_ ?_ ?_
  · intro i p g cs ih
    unfold realigned
    rw [Tree.realign, if_neg (by simp [he])]
    cases hp : env.inside p with
    | true =>
      obtain ⟨h1, h2⟩ := (ih i p).1 hp
      simp only [if_true]
      refine ⟨hp.symm, rfl, rfl, ?_, ?_⟩
      · rw [nodesList_append] at h1 ⊢
        rw [Tree.nodes, List.filter_cons_of_pos (by simpa using hp)]
        simp only [nodesList, Tree.nodes, List.append_nil]
        exact List.perm_middle.trans (List.Perm.cons _ h1)
      · rw [links_append, links_one]
        exact h2
    | false =>
      obtain ⟨h1, h2⟩ := (ih i p).2 hp
      simp only [Bool.false_eq_true, if_false, List.append_nil]
      refine ⟨hp.symm, rfl, rfl, ?_, h2⟩
      rw [Tree.nodes, List.filter_cons_of_neg (by simp [hp])]
      exact h1
  · intro i p
    exact ⟨fun _ => ⟨List.Perm.refl _, List.Perm.refl _⟩, fun _ => ⟨List.Perm.refl _, List.Perm.refl _⟩⟩
  · intro c cs ihc ih i p
    obtain ⟨c1, c2, c3, c4, c5⟩ := ihc
    unfold realigned at c4 c5
    rw [c1] at c4 c5
    refine ⟨fun hp => ?_, fun hp => ?_⟩
    · obtain ⟨h1, h2⟩ := (ih i p).1 hp
      rw [realignKids]
      rw [c1]
      generalize c.realign env = r at c1 c2 c3 c4 c5
      generalize realignKids env p cs = rest at h1 h2
      simp only [kidsList, nodesList, List.filter_append, List.map_cons, List.map_append]
      cases hc : env.inside c.loc with
      | true =>
        rw [hc] at c4 c5
        simp only [if_true] at c4 c5 ⊢
        rw [nodesList_append] at c4
        rw [links_append, links_one] at c5
        simp only [nodesList, List.append_nil] at c4
        rw [nodesList_append] at h1
        rw [c3]
        cases hx : env.crossing c.loc p with
        | some z =>
          simp only [Option.isSome_some, if_true]
          have hsnd : sound env (link (i, p, c)) = false := by simp [sound, link, hx]
          refine ⟨?_, ?_⟩
          · rw [nodesList_append, nodesList_append, nodesList, (setGround_same none r.2.1).1]
            refine List.Perm.trans ?_ (c4.append h1)
            simp only [List.append_assoc]
            exact List.Perm.refl _
          · rw [List.filter_cons_of_neg (by simp [hsnd]), List.filter_append]
            rw [links_append, links_cons, (setGround_same none r.2.1).2.1]
            refine List.Perm.trans ?_ (c5.append h2)
            simp only [List.append_assoc]
            exact List.Perm.refl _
        | none =>
          simp only [Option.isSome_none, Bool.false_eq_true, if_false]
          have hsnd : sound env (link (i, p, c)) = true := by simp [sound, link, hx, hp, hc]
          refine ⟨?_, ?_⟩
          · rw [nodesList_append, nodesList_append, nodesList]
            refine List.Perm.trans ?_ (c4.append h1)
            simp only [List.append_assoc]
            refine List.Perm.append_left _ ?_
            exact List.perm_append_comm_assoc _ _ _
          · rw [List.filter_cons_of_pos hsnd, List.filter_append, kidsList, List.map_cons, List.map_append, links_append]
            have hl : link (i, p, r.2.1) = link (i, p, c) := by simp [link, c2, c3]
            rw [hl]
            refine List.perm_middle.trans (List.Perm.cons _ ?_)
            refine List.Perm.trans ?_ (c5.append h2)
            simp only [List.append_assoc]
            refine List.Perm.append_left _ ?_
            exact List.perm_append_comm_assoc _ _ _
      | false =>
        rw [hc] at c4 c5
        simp only [Bool.false_eq_true, if_false, List.append_nil] at c4 c5 ⊢
        have hsnd : sound env (link (i, p, c)) = false := by simp [sound, link, hc]
        refine ⟨?_, ?_⟩
        · rw [nodesList_append] at h1
          rw [nodesList_append, nodesList_append, List.append_assoc]
          exact c4.append h1
        · rw [List.filter_cons_of_neg (by simp [hsnd]), List.filter_append, links_append, List.append_assoc]
          exact c5.append h2
    · obtain ⟨h1, h2⟩ := (ih i p).2 hp
      rw [realignLift]
      rw [c1]
      have hsnd : sound env (link (i, p, c)) = false := by simp [sound, link, hp]
      simp only [kidsList, nodesList, List.filter_append, List.map_cons, List.map_append]
      rw [List.filter_cons_of_neg (by simp [hsnd]), List.filter_append]
      generalize c.realign env = r at c1 c2 c3 c4 c5
      rw [nodesList_append, links_append]
      refine ⟨List.Perm.append ?_ h1, List.Perm.append ?_ h2⟩
      · refine List.Perm.trans (List.Perm.of_eq ?_) c4
        rw [nodesList_append, nodesList_append]
        cases env.inside c.loc <;> simp [nodesList, (setGround_same (some p) r.2.1).1]
      · refine List.Perm.trans (List.Perm.of_eq ?_) c5
        rw [links_append, links_append]
        cases env.inside c.loc <;> simp [links, (setGround_same (some p) r.2.1).2.1]

/-! ## All of it -/

/-- The tree before `realign`. -/
def smoothed (env : Env P K) (s : Smooth P) (d : Int) (t : Tree P) : Tree P :=
  ((if d ≤ 0 then t.copy true else ((t.copy true).prune env d).2).straighten env s none (if d ≤ 0 then t.copy true else ((t.copy true).prune env d).2).loc 0).2

omit [DecidableEq K] in
theorem propagate_eq (env : Env P K) (s : Smooth P) (d : Int) (t : Tree P) : propagate env s d t = realigned env (smoothed env s d t) := rfl

omit [DecidableEq K] in
theorem smoothed_ids {env : Env P K} {s : Smooth P} {near : P → P → Prop} (hs : s.Ok near) (d : Int) (t : Tree P) :
    ((smoothed env s d t).nodes.map (·.1)).Sublist (t.nodes.map (·.1)) := by
  unfold smoothed
  refine ((straighten_spec hs).1 _ none _ 0).1.trans ?_
  have hc := ((copy_spec (P := P)).1 t true).1
  split
  · rw [hc]
  · refine ((prune_ids env d).1 _).trans ?_
    rw [hc]

omit [DecidableEq K] in
theorem propagate_ids {env : Env P K} {s : Smooth P} {near : P → P → Prop} (hs : s.Ok near) (d : Int) (t : Tree P) :
    (ids (propagate env s d t)).Subperm (t.nodes.map (·.1)) := by
  rw [propagate_eq]
  cases he : env.empty with
  | true => rw [realign_empty he]; exact List.nil_subperm
  | false =>
    have h := ((realign_spec he).1 (smoothed env s d t)).2.2.2.1
    refine (h.map (·.1)).subperm.trans ?_
    exact ((List.filter_sublist.map _).trans (smoothed_ids hs d t)).subperm

omit [DecidableEq K] in
theorem below_ids {env : Env P K} {s : Smooth P} {near : P → P → Prop} (hs : s.Ok near) (d : Int) (ts : List (Tree P)) :
    (ids (ts.flatMap (propagate env s d))).Subperm (ids ts) := by
  induction ts with
  | nil => exact List.Subperm.refl _
  | cons t ts ih =>
    rw [List.flatMap_cons, ids, ids, nodesList_append, nodesList, List.map_append, List.map_append]
    exact ((List.subperm_append_right _).2 (propagate_ids hs d t)).trans ((List.subperm_append_left _).2 ih)

omit [DecidableEq K] in
theorem below_ok {env : Env P K} {s : Smooth P} {near : P → P → Prop} (hs : s.Ok near) (d : Int) {ts : List (Tree P)} {next : Nat} (h : IdsOk ts next) :
    IdsOk (ts.flatMap (propagate env s d)) next := by
  refine ⟨?_, fun i hi => h.2 i ((below_ids hs d ts).subset hi)⟩
  obtain ⟨l, hp, hl⟩ := below_ids (env := env) hs d ts
  exact hp.nodup_iff.1 (h.1.sublist hl)

omit [DecidableEq K] in
/-- The nodes of the next layer are inside. -/
theorem propagate_inside {env : Env P K} (s : Smooth P) (d : Int) (t : Tree P) : ∀ n ∈ nodesList (propagate env s d t), env.inside n.2 = true := by
  intro n hn
  rw [propagate_eq] at hn
  cases he : env.empty with
  | true => rw [realign_empty he] at hn; cases hn
  | false =>
    have h := ((realign_spec he).1 (smoothed env s d t)).2.2.2.1
    rw [h.mem_iff, List.mem_filter] at hn
    exact hn.2

/-- What is expected of each layer. -/
structure Good (l : Layer P K) (on : P → Prop) (forest : List (Tree P)) : Prop where
  ids : (ids forest).Nodup
  supported : Supported l.env l.dots forest
  grounded : ∀ t ∈ forest, on t.loc

theorem generate_spec {s : Smooth P} {near : P → P → Prop} (hs : s.Ok near) (d : Int) (on : Layer P K → P → Prop) (ls : List (Layer P K))
    (hl : ∀ l ∈ ls, l.Ok ∧ Outline l.env (on l)) (forest : List (Tree P)) (next : Nat) (h : IdsOk forest next) :
    ∃ res, generate s d ls forest next = some res ∧ List.Forall₂ (fun l f => Good l (on l) f) ls res := by
  induction ls generalizing forest next with
  | nil => exact ⟨[], rfl, List.Forall₂.nil⟩
  | cons l ls ih =>
    obtain ⟨h1, h2⟩ := hl l List.mem_cons_self
    obtain ⟨st, e1, e2, e3, e4, e5, e6, e7, e8⟩ := doLayer_spec h1 h2 h
    rw [generate, e1]
    simp only [Option.bind_eq_bind, Option.bind_some]
    have hb : IdsOk (lower s d ls st.forest) st.next := by
      cases ls with
      | nil => exact ⟨List.nodup_nil, fun i hi => (by cases hi)⟩
      | cons l' ls => exact below_ok hs d e2
    obtain ⟨res, r1, r2⟩ := ih (fun l hl' => hl l (List.mem_cons_of_mem _ hl')) _ st.next hb
    refine ⟨st.forest :: res, ?_, List.Forall₂.cons ⟨e2.1, e4, e5⟩ r2⟩
    rw [r1]
    rfl

end Verif.Lightning
