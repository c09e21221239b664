import Verif.Order.Spec
import Mathlib.Tactic.Linarith
import Mathlib.Data.List.Forall2

/-! # Lemmas: the choice of the next path -/

namespace Verif.Order

theorem foldlM_ok {σ α : Type} (f : σ → α → Outcome σ) (P : σ → Prop) (l : List α) (s : σ) (hs : P s)
    (h : ∀ s a, a ∈ l → P s → ∃ s', f s a = .ok s' ∧ P s') :
    ∃ s', l.foldlM f s = .ok s' ∧ P s' := by
  induction l generalizing s with
  | nil => exact ⟨s, rfl, hs⟩
  | cons a l ih =>
    obtain ⟨s1, h1, h2⟩ := h s a (by simp) hs
    obtain ⟨s2, h3, h4⟩ := ih s1 h2 (fun s b hb => h s b (by simp [hb]))
    refine ⟨s2, ?_, h4⟩
    rw [List.foldlM_cons, h1]
    exact h3

theorem mapM_ok {α β : Type} (f : α → Outcome β) (Q : α → β → Prop) (l : List α)
    (h : ∀ a ∈ l, ∃ b, f a = .ok b ∧ Q a b) :
    ∃ bs, l.mapM f = .ok bs ∧ List.Forall₂ Q l bs := by
  induction l with
  | nil => exact ⟨[], by simp, .nil⟩
  | cons a l ih =>
    obtain ⟨b, h1, h2⟩ := h a (by simp)
    obtain ⟨bs, h3, h4⟩ := ih (fun a ha => h a (by simp [ha]))
    exact ⟨b :: bs, by simp [List.mapM_cons, h1, h3], .cons h2 h4⟩

/-- The start vertices are vertices; an open path starts at an end. -/
def WF (env : Env) (st : St) : Prop :=
  ∀ i, GoodStart env ⟨i, st.start i, st.back i⟩

variable {env : Env}

theorem direct_lt {a b : Pt} (ha : InRange a) (hb : InRange b) : direct a b < COORD_MAX := by
  unfold InRange at ha hb
  have key : ∀ z : Int, -(2 * 10 ^ 9) ≤ z → z ≤ 2 * 10 ^ 9 → z * z ≤ 4 * 10 ^ 18 := by
    intro z h1 h2
    nlinarith
  have k1 := key (a.x - b.x) (by omega) (by omega)
  have k2 := key (a.y - b.y) (by omega) (by omega)
  unfold direct COORD_MAX
  omega

theorem path_ok {i : Nat} {p : PathIn} (h : env.paths[i]? = some p) : env.path i = .ok p :=
  Outcome.index_eq_ok.2 h

theorem back_ok {ps : List Pt} (h : ps ≠ []) : ∃ q, back ps = .ok q ∧ q ∈ ps := by
  unfold back
  rw [if_neg h]
  have hl : ps.length - 1 < ps.length := by
    have := List.length_pos_iff.2 h; omega
  exact ⟨ps[ps.length - 1], Outcome.index_eq_ok.2 (List.getElem?_eq_getElem hl), List.getElem_mem _⟩

theorem front_ok {ps : List Pt} (h : ps ≠ []) : ∃ q, front ps = .ok q ∧ q ∈ ps := by
  unfold front
  have hl : 0 < ps.length := List.length_pos_iff.2 h
  exact ⟨ps[0], Outcome.index_eq_ok.2 (List.getElem?_eq_getElem hl), List.getElem_mem _⟩

theorem refresh_ok (hs : env.Sane) {i : Nat} {p : PathIn} (hp : env.paths[i]? = some p)
    (hne : p.points ≠ []) (pos : Pt) (st : St) (hw : WF env st) :
    ∃ st', refreshStart env pos i p st = .ok st' ∧ WF env st' ∧ st'.longest = st.longest := by
  unfold refreshStart
  by_cases hc : p.closed = false ∨ p.fixedSeam = false
  · rw [if_pos hc]
    cases hcl : p.closed with
    | true =>
      unfold findStartLocation
      simp only [hcl, if_true, Outcome.bind_ok, Bool.true_eq_false, if_false]
      refine ⟨_, rfl, ?_, rfl⟩
      intro j q hq hqn
      dsimp only at hq
      by_cases hj : j = i
      · subst hj
        rw [hp] at hq
        obtain rfl := Option.some.inj hq
        refine ⟨?_, ?_⟩
        · simp only [setAt, if_true]
          exact hs.seam j p pos hp hqn
        · rw [hcl]; intro h; cases h
      · have := hw j q hq hqn
        simpa only [setAt, if_neg hj] using this
    | false =>
      unfold findStartLocation
      obtain ⟨b, hb, -⟩ := back_ok hne
      obtain ⟨f, hf, -⟩ := front_ok hne
      have hlen : 0 < p.points.length := List.length_pos_iff.2 hne
      obtain ⟨v, hv, hv'⟩ : ∃ v, (if backIsCloser env f b pos then (Outcome.ok (p.points.length - 1))
          else .ok 0 : Outcome Nat) = .ok v ∧ (v = 0 ∨ v = p.points.length - 1) := by
        split_ifs
        · exact ⟨_, rfl, .inr rfl⟩
        · exact ⟨_, rfl, .inl rfl⟩
      simp only [hcl, Bool.false_eq_true, if_false, hb, hf, Outcome.bind_ok, hv, if_true]
      refine ⟨_, rfl, ?_, rfl⟩
      intro j q hq hqn
      dsimp only at hq
      by_cases hj : j = i
      · subst hj
        rw [hp] at hq
        obtain rfl := Option.some.inj hq
        simp only [setAt, if_true]
        refine ⟨by omega, fun _ => ?_⟩
        by_cases h0 : v = 0
        · left; simp [h0]
        · right; exact ⟨by omega, by simp; omega⟩
      · have := hw j q hq hqn
        simpa only [setAt, if_neg hj] using this
  · rw [if_neg hc]
    exact ⟨st, rfl, hw, rfl⟩

theorem candidateDistance_lt (hs : env.Sane) {pos q : Pt} (h1 : InRange pos) (h2 : InRange q) (best : Int) :
    candidateDistance env pos q best < COORD_MAX := by
  unfold candidateDistance
  cases hc : env.combing with
  | none => exact direct_lt h1 h2
  | some c =>
    dsimp only
    split_ifs
    · exact hs.comb c hc _ _ h1 h2
    · exact direct_lt h1 h2

/-- Loop invariant of the search for the closest path. -/
structure Closest (env : Env) (st0 : St) (cands : List Nat) (acc : Int × Option Nat × St) : Prop where
  wf : WF env acc.2.2
  longest : acc.2.2.longest = st0.longest
  le : acc.1 ≤ COORD_MAX
  found : acc.1 < COORD_MAX → acc.2.1.isSome
  mem : ∀ b, acc.2.1 = some b → b ∈ cands

theorem closestStep_ok (hs : env.Sane) {pos : Pt} (hpos : InRange pos) {st0 : St} {cands : List Nat}
    (hc : ∀ i ∈ cands, i < env.paths.length) {acc : Int × Option Nat × St} (ha : Closest env st0 cands acc)
    {i : Nat} (hi : i ∈ cands) :
    ∃ acc', closestStep env pos acc i = .ok acc' ∧ Closest env st0 cands acc' ∧ acc'.2.1.isSome := by
  obtain ⟨p, hp⟩ : ∃ p, env.paths[i]? = some p := ⟨_, List.getElem?_eq_getElem (hc i hi)⟩
  unfold closestStep
  rw [path_ok hp]
  simp only [Outcome.bind_ok]
  by_cases hne : p.points = []
  · rw [if_pos hne]
    split_ifs with h
    · exact ⟨_, rfl, ⟨ha.wf, ha.longest, ha.le, fun _ => rfl, fun b hb => by
        obtain rfl := Option.some.inj hb; exact hi⟩, rfl⟩
    · exact ⟨_, rfl, ha, ha.found (lt_of_le_of_ne ha.le h)⟩
  · rw [if_neg hne]
    obtain ⟨st', h1, h2, h3⟩ := refresh_ok hs hp hne pos acc.2.2 ha.wf
    rw [h1]
    simp only [Outcome.bind_ok]
    have hv := (h2 i p hp hne).1
    dsimp only at hv
    have hq : Outcome.index p.points (st'.start i) = .ok (p.points[st'.start i]) :=
      Outcome.index_eq_ok.2 (List.getElem?_eq_getElem hv)
    rw [hq]
    simp only [Outcome.bind_ok]
    have hr : InRange (p.points[st'.start i]) :=
      hs.points p (List.mem_of_getElem? hp) _ (List.getElem_mem _)
    have hd := candidateDistance_lt hs hpos hr acc.1
    split_ifs with h
    · exact ⟨_, rfl, ⟨h2, h3.trans ha.longest, hd.le, fun _ => rfl, fun b hb => by
        obtain rfl := Option.some.inj hb; exact hi⟩, rfl⟩
    · have : acc.1 < COORD_MAX := by omega
      exact ⟨_, rfl, ⟨h2, h3.trans ha.longest, ha.le, ha.found, ha.mem⟩, ha.found this⟩

theorem findClosest_ok (hs : env.Sane) {pos : Pt} (hpos : InRange pos) {st : St} (hw : WF env st)
    {cands : List Nat} (hc : ∀ i ∈ cands, i < env.paths.length) (hne : cands ≠ []) :
    ∃ b st', findClosest env pos cands st = .ok (some b, st') ∧ b ∈ cands ∧ WF env st' := by
  have h0 : Closest env st cands (COORD_MAX, none, st) :=
    ⟨hw, rfl, le_rfl, fun h => absurd h (lt_irrefl _), fun b hb => by cases hb⟩
  obtain ⟨a, l, rfl⟩ := List.exists_cons_of_ne_nil hne
  obtain ⟨acc1, e1, c1, s1⟩ := closestStep_ok hs hpos hc h0 (List.mem_cons_self (a := a) (l := l))
  obtain ⟨acc, e, c, s⟩ := foldlM_ok (closestStep env pos)
    (fun acc => Closest env st (a :: l) acc ∧ acc.2.1.isSome) l acc1 ⟨c1, s1⟩
    (fun acc i hi h => by
      obtain ⟨acc', h1, h2, h3⟩ := closestStep_ok hs hpos hc h.1 (List.mem_cons_of_mem a hi)
      exact ⟨acc', h1, h2, h3⟩)
  obtain ⟨b, hb⟩ := Option.isSome_iff_exists.1 s
  refine ⟨b, acc.2.2, ?_, c.mem b hb, c.wf⟩
  unfold findClosest
  rw [List.foldlM_cons, e1]
  simp only [Outcome.bind_ok, e, hb]

theorem findLongest_ok (env : Env) {cands : List Nat} (hne : cands ≠ []) :
    ∃ b, findLongest env cands = some b ∧ b ∈ cands := by
  induction cands with
  | nil => exact absurd rfl hne
  | cons i l ih =>
    unfold findLongest
    by_cases hl : l = []
    · subst hl
      exact ⟨i, rfl, by simp⟩
    · obtain ⟨b, hb, hm⟩ := ih hl
      rw [hb]
      dsimp only
      split_ifs
      · exact ⟨b, rfl, by simp [hm]⟩
      · exact ⟨i, rfl, by simp⟩

theorem findBest_ok (hs : env.Sane) {pos : Pt} (hpos : InRange pos) {st : St} (hw : WF env st)
    {cands : List Nat} (hc : ∀ i ∈ cands, i < env.paths.length) (hne : cands ≠ []) :
    ∃ b st', findBest env pos cands st = .ok (some b, st') ∧ b ∈ cands ∧ WF env st' := by
  unfold findBest
  split_ifs
  · obtain ⟨b, hb, hm⟩ := findLongest_ok env hne
    exact ⟨b, { st with longest := false }, by rw [hb], hm, fun i => hw i⟩
  · exact findClosest_ok hs hpos hw hc hne

theorem find_ok {id : Nat} (h : id ∈ env.paths.map (·.id)) :
    ∃ i p, env.paths.findIdx? (fun p => decide (p.id = id)) = some i ∧ env.paths[i]? = some p ∧ p.id = id := by
  obtain ⟨p, hp, rfl⟩ := List.mem_map.1 h
  have hs : (env.paths.findIdx? (fun q => decide (q.id = p.id))).isSome := by
    rw [List.findIdx?_isSome]
    exact List.any_eq_true.2 ⟨p, hp, by simp⟩
  obtain ⟨i, hi⟩ := Option.isSome_iff_exists.1 hs
  obtain ⟨hl, h1, -⟩ := List.findIdx?_eq_some_iff_getElem.1 hi
  exact ⟨i, _, hi, List.getElem?_eq_getElem hl, by simpa using h1⟩

theorem findBestVertices_ok (hs : env.Sane) {pos : Pt} (hpos : InRange pos) {st : St} (hw : WF env st)
    {cands : List Nat} (hc : ∀ v ∈ cands, v ∈ env.paths.map (·.id)) (hne : cands ≠ []) :
    ∃ b st', findBestVertices env pos cands st = .ok (b, st') ∧ b ∈ cands ∧ WF env st' := by
  have hp := hs.hash cands
  obtain ⟨idx, h1, h2⟩ := mapM_ok env.find
    (fun v i => ∃ p, env.paths[i]? = some p ∧ p.id = v) (env.hashOrder cands) (fun v hv => by
      obtain ⟨i, p, a, b, c⟩ := find_ok (hc v (hp.mem_iff.1 hv))
      exact ⟨i, by unfold Env.find; rw [a], p, b, c⟩)
  have hidx : ∀ i ∈ idx, ∃ v ∈ env.hashOrder cands, ∃ p, env.paths[i]? = some p ∧ p.id = v := by
    intro i hi
    obtain ⟨k, hk, rfl⟩ := List.mem_iff_getElem.1 hi
    have hl := h2.length_eq
    refine ⟨(env.hashOrder cands)[k], List.getElem_mem _, ?_⟩
    exact h2.get (by omega) hk
  have hne' : idx ≠ [] := by
    intro h
    rw [h] at h2
    have := List.forall₂_nil_right_iff.1 h2
    rw [this] at hp
    exact hne hp.symm.eq_nil
  obtain ⟨i, st', e, hm, hw'⟩ := findBest_ok hs hpos hw
    (fun i hi => by
      obtain ⟨v, -, p, hp, -⟩ := hidx i hi
      exact (List.getElem?_eq_some_iff.1 hp).1) hne'
  obtain ⟨v, hv, p, hp', hid⟩ := hidx i hm
  refine ⟨p.id, st', ?_, ?_, hw'⟩
  · unfold findBestVertices
    rw [h1]
    simp only [Outcome.bind_ok, e, path_ok hp']
  · rw [hid]; exact hp.mem_iff.1 hv

theorem endPosition_ok (hs : env.Sane) {i : Nat} {p : PathIn} (hp : env.paths[i]? = some p)
    (hne : p.points ≠ []) {st : St} (hw : WF env st) :
    ∃ q, endPosition p (st.start i) = .ok q ∧ InRange q := by
  have hr : ∀ q ∈ p.points, InRange q := hs.points p (List.mem_of_getElem? hp)
  unfold endPosition
  split_ifs with h1 h2
  · have hv := (hw i p hp hne).1
    dsimp only at hv
    exact ⟨_, Outcome.index_eq_ok.2 (List.getElem?_eq_getElem hv), hr _ (List.getElem_mem _)⟩
  · obtain ⟨q, a, b⟩ := back_ok hne
    exact ⟨q, a, hr q b⟩
  · obtain ⟨q, a, b⟩ := front_ok hne
    exact ⟨q, a, hr q b⟩

end Verif.Order
