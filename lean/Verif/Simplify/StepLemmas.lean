import Verif.Simplify.NeighbourLemmas
import Mathlib.Tactic.Ring

/-! # Removal of a vertex is a step -/

namespace Verif.Simplify
section
variable {V : Type} {P : Params V} {n : Nat} {closed : Bool}

/-- The ends of a line are not deleted. -/
def Ends (n : Nat) (closed : Bool) (s : St V) : Prop := closed = false → s.del 0 = false ∧ s.del (n - 1) = false

theorem first_of_alive {s : St V} (h0 : s.del 0 = false) {A B : List Nat} {i : Nat} (h : alive n s = A ++ i :: B) :
    (A = [] ↔ i = 0) ∧ (A ≠ [] → (A.getLastD i = 0 ↔ A.tail = [])) := by
  obtain ⟨hA, -⟩ := alive_split h
  have hA0 : 0 < i → ∃ A', A = 0 :: A' ∧ ∀ j ∈ A', 0 < j := by
    intro hi
    rw [hA, show i = (i - 1) + 1 by omega, List.range_succ_eq_map, List.filter_cons]
    simp only [h0, Bool.not_false, if_true]
    refine ⟨_, rfl, ?_⟩
    intro j hj
    rw [List.mem_filter, List.mem_map] at hj
    obtain ⟨⟨k, -, rfl⟩, -⟩ := hj
    omega
  refine ⟨⟨fun he => ?_, ?_⟩, fun hne => ?_⟩
  · by_contra hc
    obtain ⟨A', e, -⟩ := hA0 (by omega)
    rw [he] at e
    cases e
  · rintro rfl
    simpa using hA
  · have hi : 0 < i := by
      rcases Nat.eq_zero_or_pos i with rfl | h
      · exact absurd (by simpa using hA) hne
      · exact h
    obtain ⟨A', e, hpos⟩ := hA0 hi
    rw [e, List.tail_cons, List.getLastD_cons]
    constructor
    · intro hl
      rcases List.eq_nil_or_concat A' with rfl | ⟨L, b, rfl⟩
      · rfl
      · exfalso
        have hb := hpos b (by simp)
        rw [List.concat_eq_append] at hl
        simp only [List.getLastD_eq_getLast?, List.getLast?_concat, Option.getD_some] at hl
        omega
    · intro hl
      rw [hl]
      rfl

theorem last_of_alive {s : St V} (h0 : s.del (n - 1) = false) {A B : List Nat} {i : Nat} (h : alive n s = A ++ i :: B) :
    (B = [] ↔ i = n - 1) ∧ (B ≠ [] → (B.headD i = n - 1 ↔ B.tail = [])) := by
  have hi : i ∈ alive n s := by rw [h]; simp
  obtain ⟨hin, -⟩ := mem_alive.mp hi
  obtain ⟨-, hB⟩ := alive_split h
  have hB0 : i < n - 1 → ∃ B', B = B' ++ [n - 1] ∧ ∀ j ∈ B', j < n - 1 := by
    intro hlt
    have e : List.range' (i + 1) (n - 1 - i) = List.range' (i + 1) (n - 2 - i) ++ [n - 1] := by
      rw [show n - 1 - i = (n - 2 - i) + 1 by omega, List.range'_concat]
      congr 2
      omega
    rw [hB, e, List.filter_append]
    simp only [List.filter_cons, h0, Bool.not_false, if_true, List.filter_nil]
    refine ⟨_, rfl, ?_⟩
    intro j hj
    rw [List.mem_filter, List.mem_range'] at hj
    obtain ⟨⟨k, h1, h2⟩, -⟩ := hj
    omega
  refine ⟨⟨fun he => ?_, ?_⟩, fun hne => ?_⟩
  · by_contra hc
    obtain ⟨B', e, -⟩ := hB0 (by omega)
    rw [he] at e
    simp at e
  · intro he
    rw [hB, he]
    simp
  · have hlt : i < n - 1 := by
      by_contra hc
      have : n - 1 - i = 0 := by omega
      rw [this] at hB
      exact hne (by simpa using hB)
    obtain ⟨B', e, hpos⟩ := hB0 hlt
    rw [e]
    cases B' with
    | nil => simp
    | cons b B' =>
      have := hpos b (by simp)
      simp only [List.cons_append, List.headD_cons, List.tail_cons, List.append_eq_nil_iff, List.cons_ne_self, and_false, iff_false]
      omega

theorem split_mem {α : Type} {l : List α} {a : α} (h : a ∈ l) : ∃ A B, l = A ++ a :: B := List.append_of_mem h

theorem importance_alive {s : St V} {i : Nat} {A B : List Nat} (h : alive n s = A ++ i :: B) :
    importance P n closed s i = some (if closed = false ∧ (i = 0 ∨ i = n - 1) then top
      else weigh P (s.poly ((B ++ A).getLastD i)) (s.poly i) (s.poly ((B ++ A).headD i))) := by
  unfold importance
  by_cases hc : closed = false ∧ (i = 0 ∨ i = n - 1)
  · rw [if_pos hc, if_pos (by simpa using hc)]
  · rw [if_neg hc, if_neg (by simpa using hc), prev_eq h, next_eq h]
    rfl

theorem weigh_small {b v a : V} (hdev : P.maxDev * P.maxDev < top) (h : weigh P b v a ≤ P.maxDev * P.maxDev) :
    P.area b v a ≤ P.maxArea ∧ weigh P b v a = dist2 (P.pos v) (P.pos b) (P.pos a) ∧
      (tiny2 < dist2 (P.pos v) (P.pos b) (P.pos a) → Short P b v ∨ Short P a v) := by
  unfold weigh at h ⊢
  dsimp only at h ⊢
  split at h
  · omega
  · rename_i h1
    rw [if_neg h1]
    split at h
    · rename_i h2
      rw [if_pos h2]
      exact ⟨not_lt.mp h1, rfl, fun h3 => by omega⟩
    · rename_i h2
      rw [if_neg h2]
      split at h
      · omega
      · rename_i h3
        rw [if_neg h3]
        refine ⟨not_lt.mp h1, rfl, fun _ => ?_⟩
        rw [not_and_or, not_lt, not_lt] at h3
        exact h3

theorem size2_comm (p q : Pt) : size2 p q = size2 q p := by unfold size2; ring

/-- What becomes of a vertex whose importance is small enough. -/
theorem remove_spec {s : St V} (hends : Ends n closed s) (hdev : P.maxDev * P.maxDev < top) {i : Nat} (hi : i ∈ alive n s) {imp : Int}
    (himp : importance P n closed s i = some imp) (hle : imp ≤ P.maxDev * P.maxDev) :
    ∃ s' b, remove P n closed s i imp = some (s', b) ∧ (b = false → s' = s) ∧
      (b = true → Step P closed (path n s) (path n s') ∧ Ends n closed s' ∧ (alive n s').length + 1 = (alive n s).length ∧
        ∀ j, j ∈ alive n s' ↔ j ∈ alive n s ∧ j ≠ i) := by
  obtain ⟨A, B, h⟩ := split_mem hi
  have hnd := alive_nodup (n := n) s
  rw [importance_alive h, Option.some.injEq] at himp
  have hnend : ¬ (closed = false ∧ (i = 0 ∨ i = n - 1)) := by
    intro hc
    rw [if_pos hc] at himp
    omega
  rw [if_neg hnend] at himp
  subst himp
  obtain ⟨harea, hw, hshort⟩ := weigh_small hdev hle
  set b := (B ++ A).getLastD i with hb
  set a := (B ++ A).headD i with ha
  have hat : At closed (path n s) (A.map (lab s)) (lab s i) (B.map (lab s)) := by
    refine ⟨by unfold path; rw [h]; simp, fun hc => ?_⟩
    obtain ⟨h0, h1⟩ := hends hc
    rw [not_and_or, not_or] at hnend
    rcases hnend with hn | ⟨hn0, hn1⟩
    · exact absurd hc hn
    · simp only [ne_eq, List.map_eq_nil_iff]
      exact ⟨fun e => hn0 ((first_of_alive h0 h).1.mp e), fun e => hn1 ((last_of_alive h1 h).1.mp e)⟩
  have hun : Unimportant P (prevOf (A.map (lab s)) (lab s i) (B.map (lab s))).2 (lab s i).2 (nextOf (A.map (lab s)) (lab s i) (B.map (lab s))).2 := by
    rw [prevOf_map, nextOf_map]
    exact ⟨le_of_eq_of_le hw.symm hle, harea⟩
  have hdropEnds : Ends n closed (s.drop i) := by
    intro hc
    obtain ⟨h0, h1⟩ := hends hc
    rw [not_and_or, not_or] at hnend
    rcases hnend with hn | ⟨hn0, hn1⟩
    · exact absurd hc hn
    · unfold St.drop
      simp only
      rw [Function.update_of_ne (Ne.symm hn0), Function.update_of_ne (Ne.symm hn1)]
      exact ⟨h0, h1⟩
  have hdropLen : (alive n (s.drop i)).length + 1 = (alive n s).length := by
    rw [alive_drop h, h]
    simp only [List.length_append, List.length_cons]
    omega
  have hdropMem : ∀ j, j ∈ alive n (s.drop i) ↔ j ∈ alive n s ∧ j ≠ i := by
    intro j
    rw [mem_alive, mem_alive]
    unfold St.drop
    by_cases hj : j = i
    · subst hj; simp
    · simp [hj]
  have hdropStep : Straight P (s.poly b) (s.poly i) (s.poly a) ∨ (Short P (s.poly i) (s.poly b) ∧ Short P (s.poly i) (s.poly a)) →
      Step P closed (path n s) (path n (s.drop i)) := by
    intro hs
    rw [path_drop h]
    refine Step.drop hat hun ?_
    rw [prevOf_map, nextOf_map]
    exact hs
  unfold remove
  by_cases ht : weigh P (s.poly b) (s.poly i) (s.poly a) ≤ tiny2
  · rw [if_pos ht]
    exact ⟨_, _, rfl, by simp, fun _ => ⟨hdropStep (.inl (by unfold Straight; rw [← hw]; exact ht)), hdropEnds, hdropLen, hdropMem⟩⟩
  · rw [if_neg ht, prev_eq h, next_eq h]
    simp only [Option.bind_eq_bind, Option.bind_some]
    rw [← hb, ← ha]
    by_cases hboth : size2 (P.pos (s.poly i)) (P.pos (s.poly b)) ≤ P.maxRes * P.maxRes ∧ size2 (P.pos (s.poly i)) (P.pos (s.poly a)) ≤ P.maxRes * P.maxRes
    · rw [if_pos hboth]
      exact ⟨_, _, rfl, by simp, fun _ => ⟨hdropStep (.inr hboth), hdropEnds, hdropLen, hdropMem⟩⟩
    · rw [if_neg hboth]
      have hone := hshort (by rw [← hw]; exact not_le.mp ht)
      unfold Short at hone
      rw [size2_comm (P.pos (s.poly b)), size2_comm (P.pos (s.poly a))] at hone
      have hreplace : ∀ (target : Nat) (f1 t1 f2 t2 : V),
          (∀ x, P.meet (P.pos f1) (P.pos t1) (P.pos f2) (P.pos t2) = some x → segDist2 (P.pos t1) x (P.pos f2) ≤ P.maxDev * P.maxDev →
            Step P closed (path n s) (replace (A.map (lab s) ++ B.map (lab s)) target (P.cross (s.poly b) x (s.poly a)))) →
          ∃ s' bl, replaceEdge P s i b a target f1 t1 f2 t2 = (s', bl) ∧ (bl = false → s' = s) ∧
            (bl = true → Step P closed (path n s) (path n s') ∧ Ends n closed s' ∧ (alive n s').length + 1 = (alive n s).length ∧
              ∀ j, j ∈ alive n s' ↔ j ∈ alive n s ∧ j ≠ i) := by
        intro target f1 t1 f2 t2 hstep
        unfold replaceEdge
        cases hm : P.meet (P.pos f1) (P.pos t1) (P.pos f2) (P.pos t2) with
        | none => exact ⟨_, _, rfl, fun _ => rfl, by simp⟩
        | some x =>
          dsimp only
          by_cases hd : segDist2 (P.pos t1) x (P.pos f2) ≤ P.maxDev * P.maxDev
          · rw [if_pos hd]
            refine ⟨_, _, rfl, by simp, fun _ => ⟨?_, hdropEnds, hdropLen, hdropMem⟩⟩
            rw [path_move, path_drop h]
            exact hstep x hm hd
          · rw [if_neg hd]
            exact ⟨_, _, rfl, fun _ => rfl, by simp⟩
      unfold shortEdge
      by_cases hle2 : size2 (P.pos (s.poly i)) (P.pos (s.poly b)) ≤ size2 (P.pos (s.poly i)) (P.pos (s.poly a))
      · rw [if_pos hle2]
        by_cases hc : closed = false ∧ b = 0
        · rw [if_pos (by simpa using hc)]
          exact ⟨_, _, rfl, fun _ => rfl, by simp⟩
        · rw [if_neg (by simpa using hc), prev_prev h, Option.map_some]
          obtain ⟨s', bl, e, g1, g2⟩ := hreplace b (s.poly ((i :: (B ++ A).dropLast).getLastD i)) (s.poly b) (s.poly i) (s.poly a) (by
            intro x hm hd
            have hbs : size2 (P.pos (s.poly i)) (P.pos (s.poly b)) ≤ P.maxRes * P.maxRes := by
              rcases hone with h' | h'
              · exact h'
              · exact hle2.trans h'
            have := Step.back hat hun (x := x) (by rw [prevOf_map]; exact hbs)
              (by rw [nextOf_map]; exact fun h' => hboth ⟨hbs, h'⟩)
              (by
                intro hcl
                obtain ⟨h0, -⟩ := hends hcl
                have hA : A ≠ [] := by simpa using (hat.inner hcl).1
                have hlast : b = A.getLastD i := by
                  rw [hb]
                  rcases List.eq_nil_or_concat A with rfl | ⟨L, c, rfl⟩
                  · exact absurd rfl hA
                  · simp [List.getLastD_eq_getLast?]
                rw [← List.map_tail]
                simp only [ne_eq, List.map_eq_nil_iff]
                intro ht'
                exact hc ⟨hcl, by rw [hlast]; exact ((first_of_alive h0 h).2 hA).mpr ht'⟩)
              (by rw [prevPrevOf_map, prevOf_map, nextOf_map]; exact hm) (by rw [prevOf_map]; exact hd)
            rw [prevOf_map, nextOf_map] at this
            exact this)
          exact ⟨s', bl, by rw [e], g1, g2⟩
      · rw [if_neg hle2]
        by_cases hc : closed = false ∧ a = n - 1
        · rw [if_pos (by simpa using hc)]
          exact ⟨_, _, rfl, fun _ => rfl, by simp⟩
        · rw [if_neg (by simpa using hc), next_next h, Option.map_some]
          obtain ⟨s', bl, e, g1, g2⟩ := hreplace a (s.poly b) (s.poly i) (s.poly a) (s.poly (((B ++ A).tail ++ [i]).headD i)) (by
            intro x hm hd
            have has : size2 (P.pos (s.poly i)) (P.pos (s.poly a)) ≤ P.maxRes * P.maxRes := by
              rcases hone with h' | h'
              · exact (not_le.mp hle2).le.trans h'
              · exact h'
            have := Step.forth hat hun (x := x) (by rw [prevOf_map]; exact fun h' => hboth ⟨h', has⟩)
              (by rw [nextOf_map]; exact has)
              (by
                intro hcl
                obtain ⟨-, h0⟩ := hends hcl
                have hB : B ≠ [] := by simpa using (hat.inner hcl).2
                have hlast : a = B.headD i := by
                  rw [ha]
                  cases hBB : B with
                  | nil => exact absurd hBB hB
                  | cons c L => rfl
                rw [← List.map_tail]
                simp only [ne_eq, List.map_eq_nil_iff]
                intro ht'
                exact hc ⟨hcl, by rw [hlast]; exact ((last_of_alive h0 h).2 hB).mpr ht'⟩)
              (by rw [nextNextOf_map, prevOf_map, nextOf_map]; exact hm) (by rw [nextOf_map]; exact hd)
            rw [prevOf_map, nextOf_map] at this
            exact this)
          exact ⟨s', bl, by rw [e], g1, g2⟩

/-- The vertex stays. -/
def Stuck (P : Params V) (n : Nat) (closed : Bool) (s : St V) (i : Nat) : Prop :=
  ∃ imp, importance P n closed s i = some imp ∧ (imp ≤ P.maxDev * P.maxDev → ∃ s', remove P n closed s i imp = some (s', false))

theorem stuck_simple {s : St V} (hends : Ends n closed s) (h : ∀ i ∈ alive n s, Stuck P n closed s i) : Simple P closed (path n s) := by
  intro path' hstep
  have key : ∀ {l v r}, At closed (path n s) l v r → Unimportant P (prevOf l v r).2 v.2 (nextOf l v r).2 →
      (Straight P (prevOf l v r).2 v.2 (nextOf l v r).2 ∨ Short P v.2 (prevOf l v r).2 ∨ Short P v.2 (nextOf l v r).2) →
      ∃ A B, alive n s = A ++ v.1 :: B ∧ l = A.map (lab s) ∧ v = lab s v.1 ∧ r = B.map (lab s) ∧
        ∃ s', remove P n closed s v.1 (dist2 (P.pos v.2) (P.pos (prevOf l v r).2) (P.pos (nextOf l v r).2)) = some (s', false) := by
    intro l v r hat hun hs
    obtain ⟨A, B, hal, rfl, hv, rfl⟩ := split_path hat.eq
    refine ⟨A, B, hal, rfl, hv, rfl, ?_⟩
    rw [hv] at hun hs ⊢
    rw [prevOf_map, nextOf_map] at hun hs ⊢
    obtain ⟨imp, himp, hrem⟩ := h v.1 (by rw [hal]; simp)
    rw [importance_alive hal, Option.some.injEq] at himp
    have hnend : ¬ (closed = false ∧ (v.1 = 0 ∨ v.1 = n - 1)) := by
      rintro ⟨hc, he⟩
      obtain ⟨h0, h1⟩ := hends hc
      obtain ⟨i1, i2⟩ := hat.inner hc
      simp only [ne_eq, List.map_eq_nil_iff] at i1 i2
      rcases he with he | he
      · exact i1 ((first_of_alive h0 hal).1.mpr he)
      · exact i2 ((last_of_alive h1 hal).1.mpr he)
    rw [if_neg hnend] at himp
    have hwe : weigh P (s.poly ((B ++ A).getLastD v.1)) (s.poly v.1) (s.poly ((B ++ A).headD v.1)) =
        dist2 (P.pos (s.poly v.1)) (P.pos (s.poly ((B ++ A).getLastD v.1))) (P.pos (s.poly ((B ++ A).headD v.1))) := by
      unfold weigh
      dsimp only
      have hu2 : P.area (s.poly ((B ++ A).getLastD v.1)) (s.poly v.1) (s.poly ((B ++ A).headD v.1)) ≤ P.maxArea := hun.2
      rw [if_neg (not_lt.mpr hu2)]
      split
      · rfl
      · rename_i hst
        rw [if_neg]
        rintro ⟨h1, h2⟩
        rw [size2_comm] at h1 h2
        rcases hs with hs | hs | hs
        · exact hst hs
        · exact absurd hs (not_le.mpr h1)
        · exact absurd hs (not_le.mpr h2)
    rw [hwe] at himp
    subst himp
    exact hrem hun.1
  have hdrop : ∀ {A B : List Nat} {i : Nat}, alive n s = A ++ i :: B →
      (∃ s', remove P n closed s i (dist2 (P.pos (lab s i).2) (P.pos (prevOf (A.map (lab s)) (lab s i) (B.map (lab s))).2)
        (P.pos (nextOf (A.map (lab s)) (lab s i) (B.map (lab s))).2)) = some (s', false)) →
      ¬ Straight P (s.poly ((B ++ A).getLastD i)) (s.poly i) (s.poly ((B ++ A).headD i)) ∧
      ¬ (Short P (s.poly i) (s.poly ((B ++ A).getLastD i)) ∧ Short P (s.poly i) (s.poly ((B ++ A).headD i))) ∧
      ∃ s', shortEdge P n closed s i ((B ++ A).getLastD i) ((B ++ A).headD i) = some (s', false) := by
    rintro A B i hal ⟨s', hr⟩
    rw [prevOf_map, nextOf_map] at hr
    unfold remove at hr
    split at hr
    · simp at hr
    · rename_i hst
      rw [prev_eq hal, next_eq hal] at hr
      simp only [Option.bind_eq_bind, Option.bind_some] at hr
      split at hr
      · simp at hr
      · rename_i hsh
        exact ⟨hst, hsh, s', hr⟩
  cases hstep with
  | @drop l v r hat hun hs =>
    obtain ⟨A, B, hal, rfl, hv, rfl, hr⟩ := key hat hun (by rcases hs with hs | hs; exacts [.inl hs, .inr (.inl hs.1)])
    rw [hv] at hr hs
    obtain ⟨g1, g2, -⟩ := hdrop hal hr
    rw [prevOf_map, nextOf_map] at hs
    rcases hs with hs | hs
    · exact g1 hs
    · exact g2 hs
  | @back l v r x hat hun hb ha hend hx hd =>
    obtain ⟨A, B, hal, rfl, hv, rfl, hr⟩ := key hat hun (.inr (.inl hb))
    have hin := hat.inner
    rw [hv] at hr hb ha hx hd
    obtain ⟨g1, g2, s', g3⟩ := hdrop hal hr
    rw [prevOf_map] at hb hd
    rw [nextOf_map] at ha
    rw [prevPrevOf_map, prevOf_map, nextOf_map] at hx
    unfold shortEdge at g3
    have hcond : size2 (P.pos (s.poly v.1)) (P.pos (s.poly ((B ++ A).getLastD v.1))) ≤ size2 (P.pos (s.poly v.1)) (P.pos (s.poly ((B ++ A).headD v.1))) :=
      le_trans (show size2 _ _ ≤ P.maxRes * P.maxRes from hb) (not_le.mp ha).le
    rw [if_pos hcond, if_neg, prev_prev hal, Option.map_some] at g3
    · unfold replaceEdge at g3
      have hx' : P.meet (P.pos (s.poly ((v.1 :: (B ++ A).dropLast).getLastD v.1))) (P.pos (s.poly ((B ++ A).getLastD v.1))) (P.pos (s.poly v.1))
        (P.pos (s.poly ((B ++ A).headD v.1))) = some x := hx
      rw [hx'] at g3
      dsimp only at g3
      rw [if_pos (show segDist2 (P.pos (s.poly ((B ++ A).getLastD v.1))) x (P.pos (s.poly v.1)) ≤ _ from hd)] at g3
      simp at g3
    · simp only [Bool.and_eq_true, Bool.not_eq_true', decide_eq_true_eq, not_and]
      intro hcl h0
      obtain ⟨i1, -⟩ := hin hcl
      simp only [ne_eq, List.map_eq_nil_iff] at i1
      have := hend hcl
      rw [← List.map_tail] at this
      simp only [ne_eq, List.map_eq_nil_iff] at this
      apply this
      refine ((first_of_alive (hends hcl).1 hal).2 i1).mp ?_
      rw [← h0]
      rcases List.eq_nil_or_concat A with rfl | ⟨L, c, rfl⟩
      · exact absurd rfl i1
      · simp [List.getLastD_eq_getLast?]
  | @forth l v r x hat hun hb ha hend hx hd =>
    obtain ⟨A, B, hal, rfl, hv, rfl, hr⟩ := key hat hun (.inr (.inr ha))
    have hin := hat.inner
    rw [hv] at hr hb ha hx hd
    obtain ⟨g1, g2, s', g3⟩ := hdrop hal hr
    rw [prevOf_map] at hb
    rw [nextOf_map] at ha hd
    rw [nextNextOf_map, prevOf_map, nextOf_map] at hx
    unfold shortEdge at g3
    have hcond : ¬ size2 (P.pos (s.poly v.1)) (P.pos (s.poly ((B ++ A).getLastD v.1))) ≤ size2 (P.pos (s.poly v.1)) (P.pos (s.poly ((B ++ A).headD v.1))) :=
      not_le.mpr (lt_of_le_of_lt (show size2 _ _ ≤ P.maxRes * P.maxRes from ha) (not_le.mp hb))
    rw [if_neg hcond, if_neg, next_next hal, Option.map_some] at g3
    · unfold replaceEdge at g3
      have hx' : P.meet (P.pos (s.poly ((B ++ A).getLastD v.1))) (P.pos (s.poly v.1)) (P.pos (s.poly ((B ++ A).headD v.1)))
        (P.pos (s.poly (((B ++ A).tail ++ [v.1]).headD v.1))) = some x := hx
      rw [hx'] at g3
      dsimp only at g3
      rw [if_pos (show segDist2 (P.pos (s.poly v.1)) x (P.pos (s.poly ((B ++ A).headD v.1))) ≤ _ from hd)] at g3
      simp at g3
    · simp only [Bool.and_eq_true, Bool.not_eq_true', decide_eq_true_eq, not_and]
      intro hcl h0
      obtain ⟨-, i1⟩ := hin hcl
      simp only [ne_eq, List.map_eq_nil_iff] at i1
      have := hend hcl
      rw [← List.map_tail] at this
      simp only [ne_eq, List.map_eq_nil_iff] at this
      apply this
      refine ((last_of_alive (hends hcl).2 hal).2 i1).mp ?_
      rw [← h0]
      cases B with
      | nil => exact absurd rfl i1
      | cons c L => rfl

end
end Verif.Simplify
