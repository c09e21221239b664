import Verif.Travel.Inv

/-! # What was planned stays -/

namespace Verif.Travel

variable {C M : Type}

/-- A path may have become longer, if it was not finished. -/
def Grown (p p' : Path C M) : Prop := p'.kind = p.kind ∧ p.points <+: p'.points ∧ (p.done = true → p' = p)

/-- Only the last path of the list may have grown, and others are added. -/
def Ext (l l' : List (Nat × Path C M)) : Prop :=
  l = [] ∨ ∃ front n p p' more, l = front ++ [(n, p)] ∧ l' = front ++ (n, p') :: more ∧ Grown p p'

theorem Grown.refl (p : Path C M) : Grown p p := ⟨rfl, List.prefix_refl _, fun _ => rfl⟩

theorem Grown.trans {p q r : Path C M} (h1 : Grown p q) (h2 : Grown q r) : Grown p r := by
  refine ⟨h2.1.trans h1.1, h1.2.1.trans h2.2.1, fun h => ?_⟩
  have hq := h1.2.2 h
  rw [h2.2.2 (by rw [hq]; exact h), hq]

theorem Ext.append (l more : List (Nat × Path C M)) : Ext l (l ++ more) := by
  rcases List.eq_nil_or_concat l with rfl | ⟨front, ⟨n, p⟩, rfl⟩
  · exact Or.inl rfl
  · exact Or.inr ⟨front, n, p, p, more, by simp, by simp, Grown.refl p⟩

theorem Ext.refl (l : List (Nat × Path C M)) : Ext l l := by
  simpa using Ext.append l []

theorem Ext.trans {a b c : List (Nat × Path C M)} (h1 : Ext a b) (h2 : Ext b c) : Ext a c := by
  rcases h1 with rfl | ⟨front, n, p, p', more, rfl, rfl, hg⟩
  · exact Or.inl rfl
  · rcases h2 with h | ⟨f2, n2, q, q', m2, e1, rfl, hg2⟩
    · simp at h
    · right
      rcases List.eq_nil_or_concat more with rfl | ⟨m, x, rfl⟩
      · have e1 : front ++ [(n, p')] = f2 ++ [(n2, q)] := e1
        have := List.append_inj' e1 rfl
        obtain ⟨rfl, h⟩ := this
        simp only [List.cons.injEq, Prod.mk.injEq, and_true] at h
        obtain ⟨rfl, rfl⟩ := h
        exact ⟨front, n, p, q', m2, rfl, rfl, hg.trans hg2⟩
      · have e1 : (front ++ (n, p') :: m) ++ [x] = f2 ++ [(n2, q)] := by simpa using e1
        have := List.append_inj' e1 rfl
        obtain ⟨rfl, -⟩ := this
        exact ⟨front, n, p, p', m ++ (n2, q') :: m2, rfl, by simp, hg⟩

/-- The paths before the ones of the last extruder. -/
def State.front (st : State C M) : List (Nat × Path C M) := st.earlier.reverse.flatMap fun pl => pl.paths.reverse.map fun p => (pl.extruder, p)

theorem paths_eq (st : State C M) : st.paths = st.front ++ st.cur.paths.reverse.map fun p => (st.cur.extruder, p) := by
  unfold State.paths State.front
  rw [List.flatMap_append]
  simp

/-- The last path grows. -/
theorem Ext.replace (st st' : State C M) (p p' : Path C M) (rest : List (Path C M)) (h1 : st.cur.paths = p :: rest) (h2 : st'.cur.paths = p' :: rest)
    (h3 : st'.cur.extruder = st.cur.extruder) (h4 : st'.earlier = st.earlier) (hg : Grown p p') : Ext st.paths st'.paths := by
  right
  rw [paths_eq, paths_eq, h1, h2, h3]
  refine ⟨st.front ++ rest.reverse.map fun p => (st.cur.extruder, p), st.cur.extruder, p, p', [], by simp, ?_, hg⟩
  simp [State.front, h4]

/-- A path is added. -/
theorem Ext.push (st st' : State C M) (p' : Path C M) (h2 : st'.cur.paths = p' :: st.cur.paths)
    (h3 : st'.cur.extruder = st.cur.extruder) (h4 : st'.earlier = st.earlier) : Ext st.paths st'.paths := by
  have : st'.paths = st.paths ++ [(st.cur.extruder, p')] := by
    rw [paths_eq, paths_eq, h2, h3]
    simp [State.front, h4]
  rw [this]
  exact Ext.append _ _

variable [DecidableEq C] [DecidableEq M]

/-- Points are added to the path that is looked for. -/
theorem Ext.latest (st st' : State C M) (k : Kind C M) (fill : Nat) (spiral toZ : Bool) (base path : Path C M) (rest : List (Path C M)) (more : List P3)
    (hb : latest st.cur.paths k fill spiral toZ = (base, rest)) (hk : path.kind = base.kind) (hp : path.points = base.points ++ more)
    (h2 : st'.cur.paths = path :: rest) (h3 : st'.cur.extruder = st.cur.extruder) (h4 : st'.earlier = st.earlier) : Ext st.paths st'.paths := by
  rcases latest_cases st.cur.paths k fill spiral toZ with h | ⟨b, r, h1, h2', h3', h4'⟩
  · rw [h] at hb
    simp only [Prod.mk.injEq] at hb
    obtain ⟨rfl, rfl⟩ := hb
    exact Ext.push st st' path h2 h3 h4
  · rw [h4'] at hb
    simp only [Prod.mk.injEq] at hb
    obtain ⟨rfl, rfl⟩ := hb
    exact Ext.replace st st' b path r h1 h2 h3 h4 ⟨hk, by rw [hp]; exact List.prefix_append _ _, fun h => by rw [h3'] at h; cases h⟩

omit [DecidableEq C] [DecidableEq M] in
theorem forceNew_ext (st : State C M) : Ext st.paths (forceNew st).paths := by
  unfold forceNew
  split
  · exact Ext.refl _
  · rename_i p ps hp
    exact Ext.replace st _ p _ ps hp rfl rfl rfl ⟨rfl, List.prefix_refl _, fun h => by rw [← h]⟩

omit [DecidableEq C] [DecidableEq M] in
theorem enter_paths (env : Env C M) (nr : Nat) (st : State C M) : (enter env nr st).paths = st.paths := by
  rw [enter_spec, paths_eq, paths_eq]
  unfold State.front
  dsimp only
  cases hp : st.cur.paths with
  | nil => simp [hp]
  | cons p ps => simp [hp]

theorem leave_ext (env : Env C M) (st : State C M) (h : Ready st) : Ext st.paths (leave env st).paths := by
  rcases leave_spec env st h with ⟨_, _, l3⟩ | ⟨p, base, path, rest, d, _, l2, l3, l4, _, l6⟩
  · rw [l3]
    exact Ext.refl _
  · rw [l3]
    exact Ext.latest st _ _ _ _ _ base path rest _ l2 l4 (by rw [l6, List.append_assoc]) rfl rfl rfl

theorem step_ext (env : Env C M) (st : State C M) (h : Ready st) (op : Op C M) : Ext st.paths (step env st op).paths := by
  cases op with
  | travel p f z =>
    obtain ⟨base, rest, hb⟩ : ∃ base rest, latest st.cur.paths (travelKind env st z) 0 false true = (base, rest) := ⟨_, _, rfl⟩
    obtain ⟨path, d, g1, g2, g3, g4, _⟩ := addTravel_landed env p f z st h base rest hb
    show Ext st.paths (addTravel env p f z st).paths
    rw [g1]
    exact Ext.latest st _ _ _ _ _ base path rest _ hb g2 (by rw [g4, List.append_assoc]) rfl rfl rfl
  | simple p =>
    obtain ⟨base, rest, hb⟩ : ∃ base rest, latest st.cur.paths (travelKind env st 0) 0 false true = (base, rest) := ⟨_, _, rfl⟩
    show Ext st.paths (addSimple env p st).paths
    unfold addSimple
    rw [hb]
    exact Ext.latest st _ _ _ _ _ base _ rest _ hb (by rfl) (by rfl) rfl rfl rfl
  | extrude e =>
    obtain ⟨base, rest, hb⟩ : ∃ base rest, latest st.cur.paths ⟨e.config, env.zOf e.config, st.mesh, e.flow, e.width, e.speed⟩ e.fill e.spiral e.toZ = (base, rest) :=
      ⟨_, _, rfl⟩
    show Ext st.paths (addExtrusion env e st).paths
    unfold addExtrusion
    rw [hb]
    exact Ext.latest st _ _ _ _ _ base _ rest _ hb (by rfl) (by rfl) rfl rfl rfl
  | newPath => exact forceNew_ext st
  | prime l =>
    show Ext st.paths (planPrime env l st).paths
    refine (forceNew_ext st).trans ?_
    unfold planPrime addSimple
    dsimp only
    obtain ⟨base, rest, hb⟩ : ∃ base rest, latest (forceNew st).cur.paths (travelKind env (forceNew st) 0) 0 false true = (base, rest) := ⟨_, _, rfl⟩
    rw [hb]
    exact Ext.latest (forceNew st) _ _ _ _ _ base _ rest _ hb (by rfl) (by rfl) rfl rfl rfl
  | inside b => exact Ext.refl _
  | mesh m => exact Ext.refl _
  | extruder n =>
    show Ext st.paths (setExtruder env n st).paths
    rw [setExtruder_eq]
    split
    · exact Ext.refl _
    · rw [enter_paths]
      exact leave_ext env st h

theorem run_ext (env : Env C M) (ops : List (Op C M)) : ∀ st : State C M, Ready st → Ext st.paths (run env ops st).paths := by
  induction ops with
  | nil => intro st _; exact Ext.refl _
  | cons op ops ih => intro st h; exact (step_ext env st h op).trans (ih _ (h.step env st op))

/-- Once it is known where it starts it stays. -/
theorem step_first (env : Env C M) (st : State C M) (h : Ready st) (op : Op C M) (hl : st.last.isSome = true) :
    (step env st op).last.isSome = true ∧ (step env st op).firstDest = st.firstDest := by
  have hn : st.last.isNone = false := by
    cases hl' : st.last with
    | none => rw [hl'] at hl; cases hl
    | some q => rfl
  cases op with
  | travel p f z =>
    obtain ⟨base, rest, hb⟩ : ∃ base rest, latest st.cur.paths (travelKind env st z) 0 false true = (base, rest) := ⟨_, _, rfl⟩
    obtain ⟨path, d, g1, _⟩ := addTravel_landed env p f z st h base rest hb
    show (addTravel env p f z st).last.isSome = true ∧ (addTravel env p f z st).firstDest = _
    rw [g1]
    exact ⟨rfl, by simp [landed, hn]⟩
  | simple p => exact ⟨rfl, by simp [step, addSimple, addTo, hn]⟩
  | extrude e => exact ⟨rfl, rfl⟩
  | newPath =>
    show (forceNew st).last.isSome = true ∧ (forceNew st).firstDest = _
    unfold forceNew
    split
    · exact ⟨hl, rfl⟩
    · exact ⟨hl, rfl⟩
  | prime l =>
    have hf : (forceNew st).last = st.last ∧ (forceNew st).firstDest = st.firstDest := by
      unfold forceNew
      split <;> exact ⟨rfl, rfl⟩
    show (planPrime env l st).last.isSome = true ∧ (planPrime env l st).firstDest = _
    unfold planPrime addSimple
    dsimp only
    refine ⟨rfl, ?_⟩
    simp only [addTo]
    rw [hf.1, hn, hf.2]
    rfl
  | inside b => exact ⟨hl, rfl⟩
  | mesh m => exact ⟨hl, rfl⟩
  | extruder n =>
    show (setExtruder env n st).last.isSome = true ∧ (setExtruder env n st).firstDest = _
    rw [setExtruder_eq]
    split
    · exact ⟨hl, rfl⟩
    · rw [enter_spec]
      dsimp only
      rcases leave_spec env st h with ⟨_, l2, _⟩ | ⟨p, base, path, rest, d, _, _, l3, _⟩
      · rw [l2] at hl; cases hl
      · rw [l3]
        refine ⟨?_, by simp [landed, hn]⟩
        unfold entered
        split <;> rfl

theorem run_first (env : Env C M) (ops : List (Op C M)) : ∀ st : State C M, Ready st → st.last.isSome = true →
    (run env ops st).last.isSome = true ∧ (run env ops st).firstDest = st.firstDest := by
  induction ops with
  | nil => intro st _ h; exact ⟨h, rfl⟩
  | cons op ops ih =>
    intro st h hl
    obtain ⟨g1, g2⟩ := step_first env st h op hl
    obtain ⟨k1, k2⟩ := ih _ (h.step env st op) g1
    exact ⟨k1, k2.trans g2⟩

end Verif.Travel
