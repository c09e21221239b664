import Verif.Simplify.StepLemmas

/-! # The loops -/

namespace Verif.Simplify
open Relation
section
variable {V : Type} {P : Params V} {n : Nat} {closed : Bool}

theorem least_mem (x : Nat × Int) (rest : List (Nat × Int)) : least x rest ∈ x :: rest := by
  induction rest generalizing x with
  | nil => simp [least]
  | cons y rest ih =>
    rw [least]
    have := ih (if before x y then x else y)
    rw [List.mem_cons] at this
    rcases this with h | h
    · rw [h]
      split <;> simp
    · simp [h]

theorem importance_some {s : St V} {i : Nat} (hi : i ∈ alive n s) : ∃ imp, importance P n closed s i = some imp := by
  obtain ⟨A, B, h⟩ := split_mem hi
  exact ⟨_, importance_alive h⟩

/-- Entries of the queue that are not up to date. -/
def stale (P : Params V) (n : Nat) (closed : Bool) (s : St V) (q : List (Nat × Int)) : Nat :=
  q.countP fun x => decide (importance P n closed s x.1 ≠ some x.2)

structure Ok (n : Nat) (closed : Bool) (s : St V) (q : List (Nat × Int)) : Prop where
  ends : Ends n closed s
  nodup : (q.map (·.1)).Nodup
  live : ∀ x ∈ q, x.1 ∈ alive n s

theorem drain_spec (hdev : P.maxDev * P.maxDev < top) (minSize : Nat) (fuel : Nat) (s : St V) (q : List (Nat × Int)) (removed : Nat)
    (hok : Ok n closed s q) (hlen : q.length ≤ n) (hfuel : q.length * (n + 1) + stale P n closed s q ≤ fuel) :
    ∃ s' k, drain P n closed minSize fuel s q removed = some (s', removed + k) ∧ ReflTransGen (Step P closed) (path n s) (path n s') ∧
      Ends n closed s' ∧ (alive n s').length + k = (alive n s).length ∧
      (k = 0 → n - removed > minSize → s' = s ∧ ∀ x ∈ q, Stuck P n closed s x.1) := by
  induction fuel generalizing s q removed with
  | zero =>
    cases q with
    | nil => exact ⟨s, 0, rfl, .refl, hok.ends, rfl, fun _ _ => ⟨rfl, by simp⟩⟩
    | cons x rest =>
      exfalso
      rw [List.length_cons] at hfuel
      have : 0 < (rest.length + 1) * (n + 1) := by positivity
      omega
  | succ fuel ih =>
    cases q with
    | nil => exact ⟨s, 0, by rw [drain]; rfl, .refl, hok.ends, rfl, fun _ _ => ⟨rfl, by simp⟩⟩
    | cons x rest =>
      rw [drain]
      by_cases hmin : n - removed > minSize
      · rw [if_pos hmin]
        dsimp only
        have hv := least_mem x rest
        set v := least x rest with hvdef
        obtain ⟨imp, himp⟩ := importance_some (P := P) (closed := closed) (hok.live v hv)
        rw [himp, Option.bind_some]
        have hperm : (x :: rest).Perm (v :: (x :: rest).erase v) := List.perm_cons_erase hv
        have hnd := hok.nodup
        rw [(hperm.map (fun y : Nat × Int => y.1)).nodup_iff, List.map_cons, List.nodup_cons] at hnd
        have hlen' := hperm.length_eq
        rw [List.length_cons, List.length_cons] at hlen'
        have hst : stale P n closed s (x :: rest) = stale P n closed s (v :: (x :: rest).erase v) := hperm.countP_eq _
        have hmem' : ∀ y ∈ (x :: rest).erase v, y ∈ x :: rest := fun y hy => List.mem_of_mem_erase hy
        rw [List.length_cons] at hfuel hlen
        set q' := (x :: rest).erase v with hq'
        by_cases hne : imp ≠ v.2
        · rw [if_pos hne]
          have hok' : Ok n closed s (q' ++ [(v.1, imp)]) := by
            refine ⟨hok.ends, ?_, ?_⟩
            · rw [List.map_append, List.nodup_append]
              refine ⟨hnd.2, by simp, ?_⟩
              intro a ha b hb
              simp only [List.map_cons, List.map_nil, List.mem_singleton] at hb
              subst hb
              rintro rfl
              exact hnd.1 ha
            · intro y hy
              rw [List.mem_append, List.mem_singleton] at hy
              rcases hy with hy | rfl
              · exact hok.live y (hmem' y hy)
              · exact hok.live v hv
          obtain ⟨s', k, h1, h2, h3, h4, h5⟩ := ih s (q' ++ [(v.1, imp)]) removed hok'
            (by rw [List.length_append, List.length_singleton]; omega) (by
              have e1 : stale P n closed s (q' ++ [(v.1, imp)]) = stale P n closed s q' := by
                unfold stale
                rw [List.countP_append]
                simp [himp]
              have e2 : stale P n closed s (v :: q') = stale P n closed s q' + 1 := by
                unfold stale
                rw [List.countP_cons_of_pos]
                simp [himp, hne]
              rw [e1, List.length_append, List.length_singleton]
              rw [show q'.length + 1 = rest.length + 1 by omega]
              omega)
          refine ⟨s', k, h1, h2, h3, h4, fun hk hm => ?_⟩
          obtain ⟨g1, g2⟩ := h5 hk hm
          refine ⟨g1, fun y hy => ?_⟩
          rw [hperm.mem_iff, List.mem_cons] at hy
          rcases hy with rfl | hy
          · exact g2 (v.1, imp) (by simp)
          · exact g2 y (by simp [hy])
        · rw [if_neg hne]
          rw [not_not] at hne
          have hlenq : q'.length = rest.length := by omega
          have hokq : ∀ s' : St V, Ends n closed s' → (∀ j, j ∈ alive n s → j ≠ v.1 → j ∈ alive n s') → Ok n closed s' q' := by
            intro s' he hm
            refine ⟨he, hnd.2, fun y hy => hm _ (hok.live y (hmem' y hy)) ?_⟩
            intro e
            exact hnd.1 (by rw [← e]; exact List.mem_map_of_mem hy)
          have hfuelq : ∀ s', q'.length * (n + 1) + stale P n closed s' q' ≤ fuel := by
            intro s'
            have : stale P n closed s' q' ≤ q'.length := List.countP_le_length
            rw [hlenq] at this ⊢
            have e : (rest.length + 1) * (n + 1) = rest.length * (n + 1) + n + 1 := by ring
            rw [e] at hfuel
            omega
          by_cases hle : imp ≤ P.maxDev * P.maxDev
          · rw [if_pos hle]
            obtain ⟨s1, b, hr, hb0, hb1⟩ := remove_spec hok.ends hdev (hok.live v hv) himp hle
            rw [hr, Option.bind_some]
            dsimp only
            cases b with
            | false =>
              have e := hb0 rfl
              subst e
              obtain ⟨s', k, h1, h2, h3, h4, h5⟩ := ih s1 q' removed (hokq s1 hok.ends (fun j hj _ => hj)) (by omega) (hfuelq s1)
              refine ⟨s', k, h1, h2, h3, h4, fun hk hm => ?_⟩
              obtain ⟨g1, g2⟩ := h5 hk hm
              refine ⟨g1, fun y hy => ?_⟩
              rw [hperm.mem_iff, List.mem_cons] at hy
              rcases hy with rfl | hy
              · exact ⟨imp, himp, fun _ => ⟨_, hr⟩⟩
              · exact g2 y hy
            | true =>
              obtain ⟨hstep, hends', hl', hm'⟩ := hb1 rfl
              obtain ⟨s', k, h1, h2, h3, h4, -⟩ := ih s1 q' (removed + 1) (hokq s1 hends' (fun j hj hji => (hm' j).mpr ⟨hj, hji⟩)) (by omega) (hfuelq s1)
              refine ⟨s', k + 1, ?_, .head hstep h2, h3, by omega, fun hk => by omega⟩
              rw [if_pos rfl, h1]
              congr 2
              omega
          · rw [if_neg hle]
            obtain ⟨s', k, h1, h2, h3, h4, h5⟩ := ih s q' removed (hokq s hok.ends (fun j hj _ => hj)) (by omega) (hfuelq s)
            refine ⟨s', k, h1, h2, h3, h4, fun hk hm => ?_⟩
            obtain ⟨g1, g2⟩ := h5 hk hm
            refine ⟨g1, fun y hy => ?_⟩
            rw [hperm.mem_iff, List.mem_cons] at hy
            rcases hy with rfl | hy
            · exact ⟨imp, himp, fun h => absurd h hle⟩
            · exact g2 y hy
      · rw [if_neg hmin]
        exact ⟨s, 0, rfl, .refl, hok.ends, rfl, fun _ h => absurd h hmin⟩

theorem mapM_some {α β : Type} (f : α → Option β) (g : α → β) (l : List α) (h : ∀ a ∈ l, f a = some (g a)) : l.mapM f = some (l.map g) := by
  induction l with
  | nil => rfl
  | cons a l ih =>
    rw [List.mapM_cons, h a (by simp), ih (fun b hb => h b (by simp [hb]))]
    rfl

theorem alive_length (s : St V) : (alive n s).length ≤ n := by
  have := List.length_filter_le (fun i => !s.del i) (List.range n)
  rwa [List.length_range] at this

theorem round_spec (hdev : P.maxDev * P.maxDev < top) (minSize : Nat) (s : St V) (hends : Ends n closed s) :
    ∃ s' k, round P n closed minSize s = some (s', k) ∧ ReflTransGen (Step P closed) (path n s) (path n s') ∧
      Ends n closed s' ∧ (alive n s').length + k = (alive n s).length ∧
      (k = 0 → n > minSize → Simple P closed (path n s')) := by
  unfold round
  rw [mapM_some _ (fun i => (i, (importance P n closed s i).getD 0)) _ (by
    intro i hi
    obtain ⟨imp, h⟩ := importance_some (P := P) (closed := closed) hi
    rw [h]
    rfl), Option.bind_some]
  set q := (alive n s).map fun i => (i, (importance P n closed s i).getD 0) with hq
  have hqlen : q.length ≤ n := by rw [hq, List.length_map]; exact alive_length s
  have hok : Ok n closed s q := by
    refine ⟨hends, ?_, ?_⟩
    · rw [hq, List.map_map]
      have : ((fun y : Nat × Int => y.1) ∘ fun i => (i, (importance P n closed s i).getD 0)) = id := rfl
      rw [this, List.map_id]
      exact alive_nodup s
    · intro x hx
      rw [hq, List.mem_map] at hx
      obtain ⟨i, hi, rfl⟩ := hx
      exact hi
  have hst : stale P n closed s q ≤ q.length := List.countP_le_length
  obtain ⟨s', k, h1, h2, h3, h4, h5⟩ := drain_spec hdev minSize (n * (n + 1) + n) s q 0 hok hqlen (by
    have := Nat.mul_le_mul_right (n + 1) hqlen
    omega)
  refine ⟨s', k, by rw [h1, Nat.zero_add], h2, h3, h4, fun hk hn => ?_⟩
  obtain ⟨g1, g2⟩ := h5 hk (by omega)
  subst g1
  refine stuck_simple hends fun i hi => ?_
  exact g2 (i, (importance P n closed s' i).getD 0) (by rw [hq]; exact List.mem_map_of_mem hi)

theorem rounds_spec (hdev : P.maxDev * P.maxDev < top) (minSize : Nat) (hn : n > minSize) (fuel : Nat) (s : St V) (hends : Ends n closed s)
    (hfuel : (alive n s).length < fuel) :
    ∃ s', rounds P n closed minSize fuel s = some s' ∧ ReflTransGen (Step P closed) (path n s) (path n s') ∧ Ends n closed s' ∧
      ((alive n s').length ≤ minSize ∨ Simple P closed (path n s')) := by
  induction fuel generalizing s with
  | zero => omega
  | succ fuel ih =>
    obtain ⟨s1, k, h1, h2, h3, h4, h5⟩ := round_spec hdev minSize s hends
    rw [rounds, h1, Option.bind_some]
    dsimp only
    split
    · rename_i hc
      obtain ⟨s', g1, g2, g3, g4⟩ := ih s1 h3 (by omega)
      exact ⟨s', g1, h2.trans g2, g3, g4⟩
    · rename_i hc
      refine ⟨s1, rfl, h2, h3, ?_⟩
      by_cases hk : k = 0
      · exact .inr (h5 hk hn)
      · left
        have := alive_length (n := n) s
        rw [not_and_or] at hc
        omega

end
end Verif.Simplify
