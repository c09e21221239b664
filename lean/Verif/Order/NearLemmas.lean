import Verif.Order.Lemmas
import Mathlib.Tactic.Ring

/-! # Lemmas: the chosen path is the nearest one -/

namespace Verif.Order

variable {env : Env}

/-- The points where a path may be entered: both ends of an open path, the seam of a closed one, which is
kept from before if it is fixed. -/
def Entry (env : Env) (pos : Pt) (st : St) (i : Nat) (e : Pt) : Prop :=
  ∃ p, env.paths[i]? = some p ∧
    ((p.closed = false ∧ (p.points[0]? = some e ∨ p.points[p.points.length - 1]? = some e)) ∨
     (p.closed = true ∧ p.fixedSeam = false ∧ p.points[env.seam i pos]? = some e) ∨
     (p.closed = true ∧ p.fixedSeam = true ∧ p.points[st.start i]? = some e))

theorem direct_comm (a b : Pt) : direct a b = direct b a := by unfold direct; ring

theorem refresh_entry (hcomb : env.combing = none) {pos : Pt} {i : Nat} {p : PathIn}
    (hp : env.paths[i]? = some p) (hne : p.points ≠ []) {st st' : St}
    (h : refreshStart env pos i p st = .ok st') {q : Pt} (hq : p.points[st'.start i]? = some q) :
    (∀ j, j ≠ i → st'.start j = st.start j) ∧ Entry env pos st i q ∧
      ∀ e, Entry env pos st i e → direct pos q ≤ direct pos e := by
  unfold refreshStart at h
  have hent : ∀ e, Entry env pos st i e → ((p.closed = false ∧ (p.points[0]? = some e ∨ p.points[p.points.length - 1]? = some e)) ∨
     (p.closed = true ∧ p.fixedSeam = false ∧ p.points[env.seam i pos]? = some e) ∨
     (p.closed = true ∧ p.fixedSeam = true ∧ p.points[st.start i]? = some e)) := by
    rintro e ⟨p', h1, h2⟩
    rw [hp] at h1
    obtain rfl := Option.some.inj h1
    exact h2
  by_cases hc : p.closed = false ∨ p.fixedSeam = false
  · rw [if_pos hc] at h
    cases hcl : p.closed with
    | true =>
      have hf : p.fixedSeam = false := by simpa [hcl] using hc
      unfold findStartLocation at h
      simp only [hcl, if_true, Outcome.bind_ok, Bool.true_eq_false, if_false] at h
      obtain rfl := Outcome.ok.inj h
      simp only [setAt, if_true] at hq
      refine ⟨fun j hj => by simp only [setAt, if_neg hj], ⟨p, hp, .inr (.inl ⟨hcl, hf, hq⟩)⟩, ?_⟩
      intro e he
      have := hent e he
      simp only [hcl, hf, hq, Bool.true_eq_false, false_and, true_and, Bool.false_eq_true, or_false,
        false_or, Option.some.injEq] at this
      rw [this]
    | false =>
      unfold findStartLocation at h
      have hlen : 0 < p.points.length := List.length_pos_iff.2 hne
      have hl : p.points.length - 1 < p.points.length := by omega
      have hb : back p.points = .ok (p.points[p.points.length - 1]) := by
        unfold back
        rw [if_neg hne]
        exact Outcome.index_eq_ok.2 (List.getElem?_eq_getElem hl)
      have hf : front p.points = .ok (p.points[0]) :=
        Outcome.index_eq_ok.2 (List.getElem?_eq_getElem hlen)
      simp only [hcl, Bool.false_eq_true, if_false, hb, hf, Outcome.bind_ok, if_true] at h
      have hbc : backIsCloser env p.points[0] p.points[p.points.length - 1] pos =
          decide (direct p.points[p.points.length - 1] pos < direct p.points[0] pos) := by
        unfold backIsCloser backDistance
        rw [hcomb]
        simp
      rw [hbc] at h
      have hents : ∀ e, Entry env pos st i e → e = p.points[0] ∨ e = p.points[p.points.length - 1] := by
        intro e he
        have := hent e he
        rw [List.getElem?_eq_getElem hlen, List.getElem?_eq_getElem hl] at this
        simp only [hcl, true_and, Bool.false_eq_true, false_and, or_false, Option.some.injEq] at this
        rcases this with h | h
        · exact .inl h.symm
        · exact .inr h.symm
      by_cases hlt : direct p.points[p.points.length - 1] pos < direct p.points[0] pos
      · rw [decide_eq_true hlt, if_pos rfl] at h
        simp only [Outcome.bind_ok] at h
        obtain rfl := Outcome.ok.inj h
        simp only [setAt, if_true] at hq
        refine ⟨fun j hj => by simp only [setAt, if_neg hj], ⟨p, hp, .inl ⟨hcl, .inr hq⟩⟩, ?_⟩
        intro e he
        rw [List.getElem?_eq_getElem hl] at hq
        obtain rfl := Option.some.inj hq
        rw [direct_comm pos, direct_comm pos]
        rcases hents e he with rfl | rfl
        · exact hlt.le
        · exact le_rfl
      · rw [decide_eq_false hlt, if_neg (by simp)] at h
        simp only [Outcome.bind_ok] at h
        obtain rfl := Outcome.ok.inj h
        simp only [setAt, if_true] at hq
        refine ⟨fun j hj => by simp only [setAt, if_neg hj], ⟨p, hp, .inl ⟨hcl, .inl hq⟩⟩, ?_⟩
        intro e he
        rw [List.getElem?_eq_getElem hlen] at hq
        obtain rfl := Option.some.inj hq
        rw [direct_comm pos, direct_comm pos]
        rcases hents e he with rfl | rfl
        · exact le_rfl
        · exact not_lt.1 hlt
  · rw [if_neg hc] at h
    obtain rfl := Outcome.ok.inj h
    push Not at hc
    have h1 : p.closed = true := by simpa using hc.1
    have h2 : p.fixedSeam = true := by simpa using hc.2
    refine ⟨fun j hj => rfl, ⟨p, hp, .inr (.inr ⟨h1, h2, hq⟩)⟩, ?_⟩
    intro e he
    have := hent e he
    simp only [h1, h2, hq, Bool.true_eq_false, false_and, true_and, Option.some.injEq, false_or] at this
    rw [this]

/-- What is known after the candidates `done`: the best distance is that of the best candidate and no larger
than that of any entry of a candidate. -/
structure Near (env : Env) (pos : Pt) (st0 : St) (done : List Nat) (acc : Int × Option Nat × St) : Prop where
  rest : ∀ j, j ∉ done → acc.2.2.start j = st0.start j
  least : ∀ j ∈ done, ∀ e, Entry env pos st0 j e → acc.1 ≤ direct pos e
  best : ∀ b, acc.2.1 = some b → b ∈ done ∧ ∃ p q, env.paths[b]? = some p ∧
    p.points[acc.2.2.start b]? = some q ∧ Entry env pos st0 b q ∧ acc.1 = direct pos q

theorem entry_congr {pos : Pt} {st st' : St} {i : Nat} (h : st'.start i = st.start i) (e : Pt) :
    Entry env pos st' i e ↔ Entry env pos st i e := by
  unfold Entry
  rw [h]

theorem near_fold (hs : env.Sane) (hcomb : env.combing = none) {pos : Pt} (hpos : InRange pos) {st0 : St}
    {cands : List Nat} (hc : ∀ i ∈ cands, i < env.paths.length)
    (hpts : ∀ i ∈ cands, ∀ p, env.paths[i]? = some p → p.points ≠ []) :
    ∀ (rest done : List Nat) (acc : Int × Option Nat × St), cands = done ++ rest → cands.Nodup →
      Closest env st0 cands acc → Near env pos st0 done acc →
      ∃ acc', rest.foldlM (closestStep env pos) acc = .ok acc' ∧ Closest env st0 cands acc' ∧
        Near env pos st0 cands acc' := by
  intro rest
  induction rest with
  | nil =>
    intro done acc h _ h2 h3
    rw [List.append_nil] at h
    subst h
    exact ⟨acc, rfl, h2, h3⟩
  | cons i rest ih =>
    intro done acc h hnd h2 h3
    have hi : i ∈ cands := by rw [h]; simp
    have hid : i ∉ done := by
      rw [h] at hnd
      intro hd
      exact (List.nodup_append.1 hnd).2.2 i hd i (by simp) rfl
    obtain ⟨acc1, e1, c1, -⟩ := closestStep_ok hs hpos hc h2 hi
    obtain ⟨p, hp⟩ : ∃ p, env.paths[i]? = some p := ⟨_, List.getElem?_eq_getElem (hc i hi)⟩
    have hne := hpts i hi p hp
    have hn : Near env pos st0 (done ++ [i]) acc1 := by
      have e := e1
      unfold closestStep at e
      rw [path_ok hp] at e
      simp only [Outcome.bind_ok] at e
      rw [if_neg hne] at e
      obtain ⟨st', k1, k2, k3⟩ := refresh_ok hs hp hne pos acc.2.2 h2.wf
      rw [k1] at e
      simp only [Outcome.bind_ok] at e
      have hv := (k2 i p hp hne).1
      dsimp only at hv
      have hq : p.points[st'.start i]? = some (p.points[st'.start i]) := List.getElem?_eq_getElem hv
      rw [Outcome.index_eq_ok.2 hq] at e
      simp only [Outcome.bind_ok] at e
      obtain ⟨r1, r2, r3⟩ := refresh_entry hcomb hp hne k1 hq
      have hcd : candidateDistance env pos p.points[st'.start i] acc.1 = direct pos p.points[st'.start i] := by
        unfold candidateDistance
        rw [hcomb]
      rw [hcd] at e
      have hst : acc.2.2.start i = st0.start i := h3.rest i hid
      by_cases hlt : direct pos p.points[st'.start i] < acc.1
      · rw [if_pos hlt] at e
        obtain rfl := Outcome.ok.inj e
        refine ⟨?_, ?_, ?_⟩
        · intro j hj
          dsimp only
          rw [List.mem_append, not_or] at hj
          rw [r1 j (by simpa using hj.2), h3.rest j hj.1]
        · intro j hj e' he'
          dsimp only
          rcases List.mem_append.1 hj with hj | hj
          · exact hlt.le.trans (h3.least j hj e' he')
          · rw [List.mem_singleton] at hj
            subst hj
            exact r3 e' ((entry_congr hst e').2 he')
        · intro b hb
          dsimp only at hb ⊢
          obtain rfl := Option.some.inj hb
          exact ⟨by simp, p, _, hp, hq, (entry_congr hst _).1 r2, rfl⟩
      · rw [if_neg hlt] at e
        obtain rfl := Outcome.ok.inj e
        refine ⟨?_, ?_, ?_⟩
        · intro j hj
          dsimp only
          rw [List.mem_append, not_or] at hj
          rw [r1 j (by simpa using hj.2), h3.rest j hj.1]
        · intro j hj e' he'
          dsimp only
          rcases List.mem_append.1 hj with hj | hj
          · exact h3.least j hj e' he'
          · rw [List.mem_singleton] at hj
            subst hj
            exact (not_lt.1 hlt).trans (r3 e' ((entry_congr hst e').2 he'))
        · intro b hb
          dsimp only at hb ⊢
          obtain ⟨b1, p', q', b2, b3, b4, b5⟩ := h3.best b hb
          refine ⟨by simp [b1], p', q', b2, ?_, b4, b5⟩
          rw [r1 b (by rintro rfl; exact hid b1)]
          exact b3
    obtain ⟨acc2, e2, c2, n2⟩ := ih (done ++ [i]) acc1 (by rw [h]; simp) hnd c1 hn
    refine ⟨acc2, ?_, c2, n2⟩
    rw [List.foldlM_cons, e1]
    exact e2

end Verif.Order
