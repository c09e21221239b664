import Verif.Heat.Model
import Mathlib.Tactic.Linarith

/-! # Lemmas: what the temperature commands do not change -/

namespace Verif.Heat

theorem bind_eq_ok {α β} {x : Outcome α} {f : α → Outcome β} {r : β} :
    (x >>= f) = .ok r ↔ ∃ a, x = .ok a ∧ f a = .ok r := by
  cases x with
  | ok a => simp
  | ub => simp
  | diverge => simp

/-- A plan without what the plan buffer writes into it. -/
def EPlan.base (p : EPlan) : EPlan :=
  { ext := p.ext, initial := p.initial, factor := p.factor, paths := p.paths, time := p.time,
    unretracted := p.unretracted }

@[simp] theorem base_insert (p : EPlan) (path ext : Nat) (temp after : ℚ) :
    (p.insert path ext temp after).base = p.base := rfl

theorem base_standby (p : EPlan) (t : Option ℚ) : ({ p with standby := t } : EPlan).base = p.base := rfl

@[simp] theorem base_insertPreheat (p : EPlan) (t : ℚ) (ext : Nat) (temp : ℚ) :
    (p.insertPreheat t ext temp).base = p.base := rfl

@[simp] theorem base_single (s : ExtSettings) (p : EPlan) (ext : Nat) (temp : ℚ) :
    (p.single s ext temp).base = p.base := by
  unfold EPlan.single; split_ifs <;> rfl

@[simp] theorem base_printTemp (s : ExtSettings) (p : EPlan) : (p.printTemp s).base = p.base := by
  unfold EPlan.printTemp
  cases p.extrusionTemp with
  | none => rfl
  | some t => dsimp only; split_ifs <;> rfl

@[simp] theorem base_setTemps (s : ExtSettings) (u : Bool) (p : EPlan) (q : Option EPlan) :
    (setTemps s u p q).base = p.base := by
  unfold setTemps; split_ifs <;> rfl

@[simp] theorem base_laterStandby (job : Job) (p : EPlan) : (laterStandby job p).base = p.base := by
  unfold laterStandby
  cases ((List.range job.extruders).filter (· ≠ p.ext)).getLast? <;> rfl

theorem base_inLayerFrom (normal : ℚ) : ∀ (paths : List PathT) (i : Nat) (a : ℚ) (p : EPlan),
    (inLayerFrom normal paths i a p).base = p.base
  | [], _, _, _ => rfl
  | x :: rest, i, a, p => by
    unfold inLayerFrom
    by_cases h1 : x.travel = true
    · rw [if_pos h1]; exact base_inLayerFrom normal rest _ _ _
    · rw [if_neg h1]
      by_cases h2 : |normal + x.delta - a| ≤ 1 / 10
      · rw [if_pos h2]; exact base_inLayerFrom normal rest _ _ _
      · rw [if_neg h2, base_inLayerFrom normal rest]; rfl

@[simp] theorem base_inLayer (p : EPlan) : p.inLayer.base = p.base := base_inLayerFrom _ _ _ _ _

theorem base_eraseCmd {p q : EPlan} (h : p.eraseCmd = .ok q) : q.base = p.base := by
  unfold EPlan.eraseCmd at h
  cases hc : p.cmd with
  | none => rw [hc] at h; cases h; rfl
  | some id =>
    rw [hc] at h
    dsimp only at h
    split_ifs at h
    · cases h; rfl

theorem base_rememberLast {p q : EPlan} (h : p.rememberLast = .ok q) : q.base = p.base := by
  unfold EPlan.rememberLast at h
  cases hc : p.inserts.getLast? with
  | none => rw [hc] at h; cases h
  | some i => rw [hc] at h; cases h; rfl

/-- Plans without what the plan buffer writes. -/
def bases (plans : List EPlan) : List EPlan := plans.map EPlan.base

theorem bases_modify (f : EPlan → EPlan) (hf : ∀ p, (f p).base = p.base) :
    ∀ (plans : List EPlan) (k : Nat), bases (plans.modify k f) = bases plans
  | [], k => by cases k <;> rfl
  | p :: ps, 0 => by simp [bases, hf]
  | p :: ps, k + 1 => by
    have := bases_modify f hf ps k
    simp only [bases, List.modify_succ_cons, List.map_cons] at this ⊢
    rw [this]

theorem bases_setPlan (f : EPlan → EPlan) (hf : ∀ p, (f p).base = p.base) (plans : List EPlan) (k : Nat) :
    bases (setPlan plans k f) = bases plans := bases_modify f hf plans k

theorem bases_set {plans : List EPlan} {k : Nat} {p q : EPlan} (hp : plans[k]? = some p) (h : q.base = p.base) :
    bases (plans.set k q) = bases plans := by
  obtain ⟨hk, rfl⟩ := List.getElem?_eq_some_iff.1 hp
  unfold bases
  rw [List.map_set, h]
  apply List.ext_getElem
  · simp
  · intro i h1 h2
    rw [List.getElem_set]
    split_ifs with hi
    · subst hi; simp
    · rfl

theorem bases_length {a b : List EPlan} (h : bases a = bases b) : a.length = b.length := by
  have := congrArg List.length h
  simpa [bases] using this

theorem bases_handleStandby (plans : List EPlan) (idx ext : Nat) (temp : ℚ) :
    bases (handleStandby plans idx ext temp) = bases plans := by
  unfold handleStandby
  split
  · apply bases_setPlan; intro p; rfl
  · apply bases_setPlan; intro p; rfl

theorem bases_placePreheat (ext : Nat) (temp : ℚ) (plans : List EPlan) : ∀ (k : Nat) (t : ℚ),
    bases (placePreheat ext temp plans k t) = bases plans
  | 0, _ => by apply bases_setPlan; intro p; rfl
  | k + 1, t => by
    unfold placePreheat
    cases plans[k]? with
    | none => rfl
    | some p =>
      dsimp only
      split_ifs
      · apply bases_setPlan; intro p; rfl
      · exact bases_placePreheat ext temp plans k _

theorem bases_multi (s : ExtSettings) (plans : List EPlan) (idx : Nat) (p : EPlan) :
    bases (multi s plans idx p) = bases plans := by
  unfold multi
  dsimp only
  by_cases h : s.enabled = true
  · rw [if_pos h]
    by_cases h1 : (standbyPlan s p.ext p.required (plansBefore plans idx) 0).window < s.minWindow
    · rw [if_pos h1]; exact bases_handleStandby _ _ _ _
    · rw [if_neg h1, bases_placePreheat]
      split_ifs
      · exact bases_handleStandby _ _ _ _
      · rfl
  · rw [if_neg h]

theorem index_ok {α} {l : List α} {k : Nat} {x : α} (h : Outcome.index l k = .ok x) : l[k]? = some x := by
  rwa [Outcome.index_eq_ok] at h

theorem bases_findPrecool : ∀ (k : Nat) (plans : List EPlan) (found : Nat) (t : ℚ) (r : List EPlan × Nat × ℚ),
    findPrecool plans k found t = .ok r → bases r.1 = bases plans
  | 0, plans, found, t, r, h => by
    unfold findPrecool at h; cases h; rfl
  | k + 1, plans, found, t, r, h => by
    unfold findPrecool at h
    obtain ⟨p, hp, h⟩ := bind_eq_ok.1 h
    obtain ⟨q, hq, h⟩ := bind_eq_ok.1 h
    have hb := bases_set (index_ok hp) (base_eraseCmd hq)
    by_cases hc : t < q.time
    · rw [if_pos hc] at h
      cases h
      exact hb
    · rw [if_neg hc] at h
      rw [bases_findPrecool k _ _ _ _ h, hb]

theorem bases_finalPrint {s : ExtSettings} {plans r : List EPlan} {last : Nat}
    (h : finalPrint s plans last = .ok r) : bases r = bases plans := by
  unfold finalPrint at h
  obtain ⟨lp, hlp, h⟩ := bind_eq_ok.1 h
  by_cases h1 : s.enabled = false
  · rw [if_pos h1] at h; cases h; rfl
  rw [if_neg h1] at h
  by_cases h2 : s.final = 0
  · rw [if_pos h2] at h; cases h; rfl
  rw [if_neg h2] at h
  dsimp only at h
  by_cases h3 : (statistics lp.ext (plansBefore plans (last + 1)) (0, 0, none, -1)).1 ≤ 0
  · rw [if_pos h3] at h; cases h; rfl
  rw [if_neg h3] at h
  cases h4 : (statistics lp.ext (plansBefore plans (last + 1)) (0, 0, none, -1)).2.2.1 with
  | none => rw [h4] at h; cases h; rfl
  | some first =>
    rw [h4] at h
    dsimp only at h
    obtain ⟨r', hr', h⟩ := bind_eq_ok.1 h
    obtain ⟨plans', k, t⟩ := r'
    cases h
    rw [bases_setPlan _ (fun p => base_insert p _ _ _ _)]
    exact bases_findPrecool _ _ _ _ _ hr'

theorem bases_insertTemp {cfg : Nat → ExtSettings} {plans r : List EPlan} {idx : Nat}
    (h : insertTemp cfg plans idx = .ok r) : bases r = bases plans := by
  unfold insertTemp at h
  obtain ⟨p, hp, h⟩ := bind_eq_ok.1 h
  by_cases h0 : idx = 0
  · rw [if_pos h0] at h; cases h
  rw [if_neg h0] at h
  obtain ⟨prev, hprev, h⟩ := bind_eq_ok.1 h
  by_cases h1 : prev.ext = p.ext
  · rw [if_pos h1] at h
    obtain ⟨q, hq, h⟩ := bind_eq_ok.1 h
    cases h
    refine bases_set (index_ok hprev) ?_
    rw [base_rememberLast hq, base_single]
  · rw [if_neg h1] at h
    dsimp only at h
    by_cases h2 : (cfg p.ext).shareHeater = true
    · rw [if_pos h2] at h
      cases h
      rw [bases_setPlan _ (fun _ => base_single _ _ _ _), bases_setPlan _ (fun p => base_standby p _)]
    · rw [if_neg h2] at h
      obtain ⟨q, hq, h⟩ := bind_eq_ok.1 h
      cases h
      rw [bases_setPlan _ (fun _ => base_printTemp _ _), bases_finalPrint hq, bases_multi,
        bases_setPlan _ (fun p => base_standby p _)]

theorem bases_tempsFor {job : Job} {first : Bool} {st r : List EPlan × (Nat → Bool) × List (Nat × ℚ)} {idx : Nat}
    (h : tempsFor job first st idx = .ok r) : bases r.1 = bases st.1 := by
  unfold tempsFor at h
  obtain ⟨p, hp, h⟩ := bind_eq_ok.1 h
  dsimp only at h
  generalize hprev : (if idx = 0 then none else st.1[idx - 1]?) = prev at h
  have hb : bases (st.1.set idx (setTemps (job.cfg p.ext) (st.2.1 p.ext) p prev)) = bases st.1 :=
    bases_set (index_ok hp) (base_setTemps _ _ _ _)
  by_cases h1 : first = true
  · rw [if_pos h1] at h
    by_cases h2 : job.firstGroup = true
    · rw [if_pos h2] at h; cases h; exact hb
    · rw [if_neg h2] at h
      cases h
      dsimp only
      rw [List.set_set]
      exact bases_set (index_ok hp) (by rw [base_laterStandby, base_setTemps])
  · rw [if_neg h1] at h
    obtain ⟨q, hq, h⟩ := bind_eq_ok.1 h
    cases h
    rw [bases_insertTemp hq, hb]

theorem bases_tempsForAll {job : Job} {only : Bool} : ∀ (l : List Nat) (isFirst : Bool)
    (st r : List EPlan × (Nat → Bool) × List (Nat × ℚ)), tempsForAll job only isFirst l st = .ok r →
    bases r.1 = bases st.1
  | [], _, st, r, h => by unfold tempsForAll at h; cases h; rfl
  | idx :: rest, isFirst, st, r, h => by
    unfold tempsForAll at h
    obtain ⟨st', h1, h⟩ := bind_eq_ok.1 h
    rw [bases_tempsForAll rest _ _ _ h, bases_tempsFor h1]

/-- The layers without what the plan buffer writes. -/
def Layer.base (l : Layer) : Layer := ⟨l.nr, bases l.plans⟩

theorem regroup_base : ∀ (layers : List Layer) (ps : List EPlan), bases ps = bases (allPlans layers) →
    (regroup layers ps).map Layer.base = layers.map Layer.base
  | [], _, _ => rfl
  | l :: ls, ps, h => by
    have h' : bases ps = bases l.plans ++ bases (allPlans ls) := by
      rw [h]; simp [bases, allPlans]
    have hl : (bases l.plans).length = l.plans.length := by simp [bases]
    have e1 : bases (ps.take l.plans.length) = bases l.plans := by
      unfold bases at h' hl ⊢
      rw [List.map_take, h', List.take_append_of_le_length (by omega), ← hl, List.take_length]
    have e2 : bases (ps.drop l.plans.length) = bases (allPlans ls) := by
      unfold bases at h' hl ⊢
      rw [List.map_drop, h', ← hl, List.drop_left]
    unfold regroup
    rw [List.map_cons, List.map_cons, regroup_base ls _ e2]
    simp [Layer.base, e1]

theorem insertAll_base {job : Job} {b b' : Buf} (h : insertAll job b = .ok b') :
    b'.layers.map Layer.base = b.layers.map Layer.base ∧ b'.written = b.written := by
  unfold insertAll at h
  cases hl : b.layers.getLast? with
  | none => rw [hl] at h; cases h
  | some l =>
    rw [hl] at h
    dsimp only at h
    by_cases h1 : l.empty = true
    · rw [if_pos h1] at h; cases h; exact ⟨rfl, rfl⟩
    · rw [if_neg h1] at h
      obtain ⟨st, hst, h⟩ := bind_eq_ok.1 h
      cases h
      refine ⟨?_, rfl⟩
      dsimp only
      apply regroup_base
      have := bases_tempsForAll _ _ _ _ hst
      dsimp only at this
      rw [← this]
      conv_rhs => rw [← List.take_append_drop ((allPlans b.layers).length - l.plans.length) st.1]
      simp [bases, Function.comp_def]

end Verif.Heat
