import Verif.Walls.NestLemmas
import Mathlib.Algebra.Order.Group.Nat

/-! # Lemmas on the requirements between nested walls -/

namespace Verif.Walls

open Verif.Order (Edges)

variable {S : Shapes} {ws : List Wall}

theorem way_of_walk {G : SimpleGraph Nat} {w v : Nat} (q : G.Walk w v) : ∃ l, Way G w l v ∧ l.length ≤ q.length := by
  classical
  have h1 : q.bypass.support = q.bypass.support.dropLast ++ [v] := by
    conv_lhs => rw [← List.dropLast_append_getLast q.bypass.support_ne_nil]
    rw [q.bypass.getLast_support]
  refine ⟨q.bypass.support.dropLast, ⟨?_, ?_, ?_⟩, ?_⟩
  · rw [← h1]; exact q.bypass.isChain_adj_support
  · rw [← h1, List.head?_eq_some_head q.bypass.support_ne_nil, q.bypass.head_support]
  · rw [← h1]; exact q.bypass_isPath.support_nodup
  · rw [List.length_dropLast, q.bypass.length_support]
    simpa using q.length_bypass_le_length

theorem mem_outerWalls {v : Nat} : v ∈ outerWalls ws ↔ ∃ w, ws[v]? = some w ∧ w.inset = 0 := by
  unfold outerWalls
  rw [List.mem_filter, List.mem_range]
  constructor
  · rintro ⟨h, h'⟩
    rw [List.getElem?_eq_getElem h] at h' ⊢
    exact ⟨_, rfl, by simpa using h'⟩
  · rintro ⟨w, hw, h⟩
    refine ⟨(List.getElem?_eq_some_iff.mp hw).1, ?_⟩
    rw [hw]; simp [h]

theorem steps_walk {d v : Nat} (h : Steps S ws d v) : ∃ w ∈ outerWalls ws, ∃ p : (wallGraph S ws).Walk w v, p.length = d := by
  induction h with
  | outer hw h0 => exact ⟨_, mem_outerWalls.mpr ⟨_, hw, h0⟩, .nil, rfl⟩
  | step h hn ih =>
    obtain ⟨w, hw, p, hp⟩ := ih
    exact ⟨w, hw, p.concat (show (wallGraph S ws).Adj _ _ from hn), by rw [SimpleGraph.Walk.length_concat, hp]⟩

theorem walk_steps {w v : Nat} (p : (wallGraph S ws).Walk w v) {d : Nat} (h : Steps S ws d w) : Steps S ws (d + p.length) v := by
  induction p generalizing d with
  | nil => exact h
  | cons hadj p ih =>
    have := ih (Steps.step h hadj)
    rw [SimpleGraph.Walk.length_cons]
    have e : d + (p.length + 1) = d + 1 + p.length := by omega
    rw [e]
    exact this

theorem way_steps {w v : Nat} {l : List Nat} (hw : w ∈ outerWalls ws) (h : Way (wallGraph S ws) w l v) : Steps S ws l.length v := by
  obtain ⟨p, hp⟩ := walk_of_chain l h.chain h.head
  obtain ⟨wl, h1, h2⟩ := mem_outerWalls.mp hw
  have := walk_steps p (Steps.outer h1 h2)
  have hl : p.length = l.length := by
    have := p.length_support
    rw [hp] at this
    simp at this
    omega
  rw [hl] at this
  simpa using this

theorem way_reachable {G : SimpleGraph Nat} {w v : Nat} {l : List Nat} (h : Way G w l v) : G.Reachable w v := by
  obtain ⟨p, -⟩ := walk_of_chain l h.chain h.head
  exact ⟨p⟩

theorem steps_way {d v : Nat} (h : Steps S ws d v) : ∃ w ∈ outerWalls ws, ∃ l, Way (wallGraph S ws) w l v ∧ l.length ≤ d := by
  obtain ⟨w, hw, p, hp⟩ := steps_walk h
  obtain ⟨l, hl, hle⟩ := way_of_walk p
  exact ⟨w, hw, l, hl, hp ▸ hle⟩

theorem stateAt_depth (l : List Nat) (d : Nat) : stateAt (fun _ d => d + 1) d l = d + l.length := by
  unfold stateAt
  induction l generalizing d with
  | nil => rfl
  | cons a l ih => rw [List.foldl_cons, ih, List.length_cons]; dsimp only; omega

theorem stateAt_parent (l : List Nat) (s : Option Nat) : stateAt (fun u _ => some u) s l = (l.getLast?).or s := by
  unfold stateAt
  induction l generalizing s with
  | nil => simp
  | cons a l ih =>
    rw [List.foldl_cons, ih]
    cases l with
    | nil => rfl
    | cons b l => simp [List.getLast?_cons]

/-! ## The closest outer wall -/

theorem update_fold (wall : Nat) (es : List (Nat × Nat)) (t : Closest) (x : Nat) :
    (∀ d W, es.foldl (update wall) t x = some (d, W) → t x = some (d, W) ∨ (W = wall ∧ (x, d) ∈ es)) ∧
    (∀ m V, t x = some (m, V) → ∃ d W, es.foldl (update wall) t x = some (d, W) ∧ d ≤ m) ∧
    (∀ m, (x, m) ∈ es → ∃ d W, es.foldl (update wall) t x = some (d, W) ∧ d ≤ m) := by
  induction es generalizing t with
  | nil => exact ⟨fun d W h => Or.inl h, fun m V h => ⟨m, V, h, le_refl _⟩, by simp⟩
  | cons e es ih =>
    obtain ⟨i1, i2, i3⟩ := ih (update wall t e)
    rw [List.foldl_cons]
    have hu : ∀ d W, update wall t e x = some (d, W) → t x = some (d, W) ∨ (W = wall ∧ (x, d) = e) := by
      intro d W h
      unfold update at h
      split at h
      · dsimp only at h
        split at h
        · rename_i hx
          simp only [Option.some.injEq, Prod.mk.injEq] at h
          exact Or.inr ⟨h.2.symm, by rw [hx, ← h.1]⟩
        · exact Or.inl h
      · exact Or.inl h
    have hm : ∀ m V, t x = some (m, V) → ∃ d W, update wall t e x = some (d, W) ∧ d ≤ m := by
      intro m V h
      unfold update
      split
      · rename_i hc
        dsimp only
        split
        · rename_i hx
          rw [← hx, h] at hc
          exact ⟨_, _, rfl, by simpa using Nat.le_of_lt (by simpa using hc)⟩
        · exact ⟨m, V, h, le_refl _⟩
      · exact ⟨m, V, h, le_refl _⟩
    have he : ∀ m, (x, m) = e → ∃ d W, update wall t e x = some (d, W) ∧ d ≤ m := by
      rintro m rfl
      unfold update
      dsimp only
      split
      · exact ⟨m, wall, by simp, le_refl _⟩
      · rename_i hc
        cases ht : t x with
        | none => rw [ht] at hc; simp at hc
        | some mv => rw [ht] at hc; exact ⟨mv.1, mv.2, rfl, by simpa using hc⟩
    refine ⟨?_, ?_, ?_⟩
    · intro d W h
      rcases i1 d W h with h | ⟨h, h'⟩
      · rcases hu d W h with h | ⟨h, h'⟩
        · exact Or.inl h
        · exact Or.inr ⟨h, by rw [h']; exact List.mem_cons_self⟩
      · exact Or.inr ⟨h, List.mem_cons_of_mem _ h'⟩
    · intro m V h
      obtain ⟨d, W, h1, h2⟩ := hm m V h
      obtain ⟨d', W', h3, h4⟩ := i2 d W h1
      exact ⟨d', W', h3, by omega⟩
    · intro m h
      rcases List.mem_cons.mp h with h | h
      · obtain ⟨d, W, h1, h2⟩ := he m h
        obtain ⟨d', W', h3, h4⟩ := i2 d W h1
        exact ⟨d', W', h3, by omega⟩
      · exact i3 m h

/-- The table holds the least distance to the outer walls so far. -/
structure Table (S : Shapes) (ws : List Wall) (done : List Nat) (t : Closest) : Prop where
  real : ∀ x d W, t x = some (d, W) → W ∈ done ∧ ∃ l, Way (wallGraph S ws) W l x ∧ d = l.length
  least : ∀ x, ∀ w ∈ done, ∀ l, Way (wallGraph S ws) w l x → ∃ d W, t x = some (d, W) ∧ d ≤ l.length

section
variable {nb : Nat → List Nat} (hnb : ∀ v, (nb v).Perm (neighbours (nest S ws).pairs v))

include hnb in
theorem nb_adj (v u : Nat) : u ∈ nb v ↔ (wallGraph S ws).Adj v u := by rw [(hnb v).mem_iff, mem_neighbours]

theorem outer_lt {w : Nat} (h : w ∈ outerWalls ws) : w < ws.length := by
  obtain ⟨_, h, -⟩ := mem_outerWalls.mp h
  exact (List.getElem?_eq_some_iff.mp h).1

include hnb in
theorem closest_table : ∃ t, closest nb (ws.length + 1) (outerWalls ws) = some t ∧ Table S ws (outerWalls ws) t := by
  unfold closest
  have key : ∀ (post done : List Nat) (t : Closest), (∀ w ∈ post, w ∈ outerWalls ws) → Table S ws done t →
      ∃ t', post.foldlM (fun t wall => (depths nb (ws.length + 1) wall).map fun es => es.foldl (update wall) t) t = some t' ∧
        Table S ws (done ++ post) t' := by
    intro post
    induction post with
    | nil => intro done t _ h; exact ⟨t, rfl, by simpa using h⟩
    | cons w post ih =>
      intro done t hp h
      obtain ⟨r, e, h1, h2⟩ := dfs_top (nb_adj hnb) (fun v u h => adj_lt h) (fun _ d => d + 1) 0 w (outer_lt (hp w (by simp)))
      have hd : depths nb (ws.length + 1) w = some r.1 := by unfold depths; rw [e]; rfl
      rw [List.foldlM_cons, hd]
      have ht : Table S ws (done ++ [w]) (r.1.foldl (update w) t) := by
        constructor
        · intro x d W hx
          rcases (update_fold w r.1 t x).1 d W hx with hy | ⟨rfl, hy⟩
          · obtain ⟨a, b⟩ := h.real x d W hy
            exact ⟨by simp [a], b⟩
          · obtain ⟨l, hl, hs⟩ := h1 _ hy
            refine ⟨by simp, l, hl, ?_⟩
            rw [stateAt_depth] at hs
            simpa using hs
        · intro x u hu l hl
          rcases List.mem_append.mp hu with hu | hu
          · obtain ⟨d, W, h3, h4⟩ := h.least x u hu l hl
            obtain ⟨d', W', h5, h6⟩ := (update_fold w r.1 t x).2.1 d W h3
            exact ⟨d', W', h5, by omega⟩
          · rw [List.mem_singleton] at hu
            subst hu
            obtain ⟨s, hs⟩ := h2 x (way_reachable hl)
            obtain ⟨l', hl', hs'⟩ := h1 _ hs
            have : l' = l := way_unique wallGraph_acyclic hl' hl
            rw [stateAt_depth, this] at hs'
            obtain ⟨d', W', h5, h6⟩ := (update_fold u r.1 t x).2.2 s hs
            exact ⟨d', W', h5, by dsimp only at hs'; omega⟩
      obtain ⟨t', h3, h4⟩ := ih (done ++ [w]) _ (fun u hu => hp u (by simp [hu])) ht
      exact ⟨t', h3, by simpa using h4⟩
  obtain ⟨t, h1, h2⟩ := key (outerWalls ws) [] (fun _ => none) (fun _ h => h) ⟨by simp, by simp⟩
  exact ⟨t, h1, by simpa using h2⟩

/-! ## The requirements -/

/-- A requirement on two walls in the direction that is set. -/
def edge (outerToInner : Bool) (u v : Nat) : Nat × Nat := if outerToInner then (u, v) else (v, u)

theorem way_last {l : List Nat} {w p x : Nat} (hl : Way (wallGraph S ws) w l x) (hp : l.getLast? = some p) :
    ∃ k, l = k ++ [p] ∧ Way (wallGraph S ws) w k p ∧ (wallGraph S ws).Adj p x := by
  obtain ⟨k, rfl⟩ := List.getLast?_eq_some_iff.mp hp
  refine ⟨k, rfl, ⟨?_, ?_, ?_⟩, ?_⟩
  · exact (List.isChain_append.mp hl.chain).1
  · have := hl.head
    cases k <;> simpa using this
  · exact (List.nodup_append.mp hl.nodup).1
  · have := (List.isChain_append.mp hl.chain).2.2
    simpa using this

include hnb in
theorem regionOrder_spec (outerToInner : Bool) : ∃ es, regionOrder nb ws outerToInner = some es ∧
    (∀ e ∈ es, ∃ d u v, e = edge outerToInner u v ∧ NextTo S ws u v ∧ Depth S ws d u ∧ Depth S ws (d + 1) v) ∧
    ∀ d v, Depth S ws (d + 1) v → ∃ u, Depth S ws d u ∧ NextTo S ws u v ∧ edge outerToInner u v ∈ es := by
  obtain ⟨t, ht, T⟩ := closest_table hnb
  unfold regionOrder
  rw [ht]
  have hdepth : ∀ x d W, t x = some (d, W) → Depth S ws d x := by
    intro x d W h
    obtain ⟨h1, l, h2, rfl⟩ := T.real x d W h
    refine ⟨way_steps h1 h2, ?_⟩
    intro d' hd'
    obtain ⟨w, hw, l', hl', hle⟩ := steps_way hd'
    obtain ⟨d, W', h3, h4⟩ := T.least x w hw l' hl'
    rw [h] at h3
    simp only [Option.some.injEq, Prod.mk.injEq] at h3
    omega
  have hprev : ∀ x d p, Depth S ws (d + 1) x → Steps S ws d p → NextTo S ws p x → Depth S ws d p := by
    intro x d p h hs hn
    refine ⟨hs, fun d' hd' => ?_⟩
    have := h.2 _ (Steps.step hd' hn)
    omega
  have hmem : ∀ u v, ∀ wall, ∀ e : Nat × Option Nat, edge outerToInner u v ∈ constraint t outerToInner wall e ↔
      e = (v, some u) ∧ (t v).map Prod.snd = some wall := by
    intro u v wall e
    obtain ⟨x, p⟩ := e
    unfold constraint edge
    cases p with
    | none => simp
    | some p =>
      dsimp only
      split
      · rename_i hc
        cases outerToInner <;> simp only [if_true, Bool.false_eq_true, if_false, List.mem_singleton, Prod.mk.injEq, Option.some.injEq]
        · constructor
          · rintro ⟨rfl, rfl⟩; exact ⟨⟨rfl, rfl⟩, hc⟩
          · rintro ⟨⟨rfl, rfl⟩, -⟩; exact ⟨rfl, rfl⟩
        · constructor
          · rintro ⟨rfl, rfl⟩; exact ⟨⟨rfl, rfl⟩, hc⟩
          · rintro ⟨⟨rfl, rfl⟩, -⟩; exact ⟨rfl, rfl⟩
      · rename_i hc
        simp only [List.not_mem_nil, false_iff, not_and, Prod.mk.injEq, Option.some.injEq]
        rintro ⟨rfl, rfl⟩; exact hc
  have key : ∀ (post : List Nat) (acc : Edges), (∀ w ∈ post, w ∈ outerWalls ws) →
      (∀ e ∈ acc, ∃ d u v, e = edge outerToInner u v ∧ NextTo S ws u v ∧ Depth S ws d u ∧ Depth S ws (d + 1) v) →
      ∃ es, post.foldlM (fun es wall => (parents nb (ws.length + 1) wall).map fun vs => es ++ vs.flatMap (constraint t outerToInner wall)) acc = some es ∧
        (∀ e ∈ es, ∃ d u v, e = edge outerToInner u v ∧ NextTo S ws u v ∧ Depth S ws d u ∧ Depth S ws (d + 1) v) ∧
        (∀ e ∈ acc, e ∈ es) ∧
        ∀ w ∈ post, ∀ d v, t v = some (d + 1, w) → ∃ u, Depth S ws d u ∧ NextTo S ws u v ∧ edge outerToInner u v ∈ es := by
    intro post
    induction post with
    | nil => intro acc _ h; exact ⟨acc, rfl, h, fun _ h => h, by simp⟩
    | cons w post ih =>
      intro acc hp h
      have hw := hp w (by simp)
      obtain ⟨r, e, h1, h2⟩ := dfs_top (nb_adj hnb) (fun v u h => adj_lt h) (fun u _ => some u) none w (outer_lt hw)
      have hd : parents nb (ws.length + 1) w = some r.1 := by unfold parents; rw [e]; rfl
      rw [List.foldlM_cons, hd]
      have hacc : ∀ e ∈ acc ++ r.1.flatMap (constraint t outerToInner w), ∃ d u v, e = edge outerToInner u v ∧ NextTo S ws u v ∧ Depth S ws d u ∧ Depth S ws (d + 1) v := by
        intro e he
        rcases List.mem_append.mp he with he | he
        · exact h e he
        · obtain ⟨xp, hxp, hc⟩ := List.mem_flatMap.mp he
          obtain ⟨x, p⟩ := xp
          have hc' := hc
          unfold constraint at hc'
          cases p with
          | none => simp at hc'
          | some p =>
            dsimp only at hc'
            split at hc'
            · rename_i htx
              simp only [List.mem_singleton] at hc'
              obtain ⟨l, hl, hs⟩ := h1 _ hxp
              dsimp only at hl hs
              rw [stateAt_parent, Option.or_none] at hs
              obtain ⟨k, rfl, hk, hadj⟩ := way_last hl hs.symm
              obtain ⟨⟨d, W⟩, htx', hW⟩ := Option.map_eq_some_iff.mp htx
              dsimp only at hW
              subst hW
              obtain ⟨-, l', hl', hdl⟩ := T.real x d W htx'
              have hll : l' = k ++ [p] := way_unique wallGraph_acyclic hl' hl
              have hdd : d = k.length + 1 := by rw [hdl, hll]; simp
              subst hdd
              have hx := hdepth x _ W htx'
              exact ⟨k.length, p, x, hc', hadj, hprev x _ p hx (way_steps hw hk) hadj, hx⟩
            · simp at hc'
      obtain ⟨es, h3, h4, h5, h6⟩ := ih _ (fun u hu => hp u (by simp [hu])) hacc
      refine ⟨es, h3, h4, fun e he => h5 e (by simp [he]), ?_⟩
      intro u hu d v hv
      rcases List.mem_cons.mp hu with rfl | hu
      · obtain ⟨-, l, hl, hdl⟩ := T.real v _ u hv
        have hlast : ∃ p, l.getLast? = some p := by
          cases l with
          | nil => simp at hdl
          | cons a l => exact ⟨_, List.getLast?_eq_some_getLast (by simp)⟩
        obtain ⟨p, hlp⟩ := hlast
        obtain ⟨s, hs⟩ := h2 v (way_reachable hl)
        obtain ⟨l', hl', hs'⟩ := h1 _ hs
        have hll : l' = l := way_unique wallGraph_acyclic hl' hl
        rw [stateAt_parent, hll, hlp] at hs'
        dsimp only [Option.or] at hs'
        obtain ⟨k, rfl, hk, hadj⟩ := way_last hl hlp
        have hdk : d = k.length := by simpa using hdl
        subst hdk
        refine ⟨p, hprev v _ p (hdepth v _ u hv) (way_steps hw hk) hadj, hadj, h5 _ ?_⟩
        rw [List.mem_append, List.mem_flatMap]
        right
        refine ⟨(v, s), hs, (hmem p v u (v, s)).mpr ⟨by rw [hs'], ?_⟩⟩
        rw [hv]; rfl
      · exact h6 u hu d v hv
  obtain ⟨es, h1, h2, -, h3⟩ := key (outerWalls ws) [] (fun _ h => h) (by simp)
  refine ⟨es, h1, h2, ?_⟩
  intro d v hv
  obtain ⟨w, hw, l, hl, hle⟩ := steps_way hv.1
  obtain ⟨d', W, h4, h5⟩ := T.least v w hw l hl
  have h6 := (hdepth v d' W h4).1
  have h7 := hv.2 d' h6
  have : d' = d + 1 := by omega
  subst this
  exact h3 W (T.real v _ W h4).1 d v h4

end

theorem depth_unique {d d' v : Nat} (h : Depth S ws d v) (h' : Depth S ws d' v) : d = d' :=
  Nat.le_antisymm (h.2 _ h'.1) (h'.2 _ h.1)

theorem region_acyclic {es : Edges} {outerToInner : Bool}
    (h : ∀ e ∈ es, ∃ d u v, e = edge outerToInner u v ∧ NextTo S ws u v ∧ Depth S ws d u ∧ Depth S ws (d + 1) v) : Order.Acyclic es := by
  intro v hv
  have key : ∀ a b, Relation.TransGen (fun a b => (a, b) ∈ es) a b →
      ∃ da db, Depth S ws da a ∧ Depth S ws db b ∧ if outerToInner then da < db else db < da := by
    intro a b hab
    have one : ∀ a b, (a, b) ∈ es → ∃ da db, Depth S ws da a ∧ Depth S ws db b ∧ if outerToInner then da < db else db < da := by
      intro a b hab
      obtain ⟨d, u, v, he, -, h1, h2⟩ := h _ hab
      unfold edge at he
      cases outerToInner
      · simp only [Bool.false_eq_true, if_false, Prod.mk.injEq] at he ⊢
        exact ⟨d + 1, d, he.1 ▸ h2, he.2 ▸ h1, by omega⟩
      · simp only [if_true, Prod.mk.injEq] at he ⊢
        exact ⟨d, d + 1, he.1 ▸ h1, he.2 ▸ h2, by omega⟩
    induction hab with
    | single h => exact one _ _ h
    | tail _ h ih =>
      obtain ⟨da, db, h1, h2, h3⟩ := ih
      obtain ⟨db', dc, h4, h5, h6⟩ := one _ _ h
      have := depth_unique h2 h4
      subst this
      refine ⟨da, dc, h1, h5, ?_⟩
      cases outerToInner
      · simp only [Bool.false_eq_true, if_false] at *; omega
      · simp only [if_true] at *; omega
  obtain ⟨da, db, h1, h2, h3⟩ := key v v hv
  have := depth_unique h1 h2
  subst this
  cases outerToInner <;> simp at h3

end Verif.Walls
