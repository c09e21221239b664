import Verif.Travel.Shape

/-! # What holds of every plan -/

namespace Verif.Travel

variable {C M : Type} [DecidableEq C] [DecidableEq M]

theorem latest_cases (paths : List (Path C M)) (k : Kind C M) (fill : Nat) (spiral toZ : Bool) :
    latest paths k fill spiral toZ = (fresh k fill spiral toZ, paths) ∨
      ∃ base rest, paths = base :: rest ∧ base.kind = k ∧ base.done = false ∧ latest paths k fill spiral toZ = (base, rest) := by
  unfold latest
  split
  · exact Or.inl rfl
  · rename_i p ps
    split
    · rename_i h
      exact Or.inr ⟨p, ps, rfl, h.1, h.2, rfl⟩
    · exact Or.inl rfl

/-- A path that is not finished is not retracted yet. -/
def Ready (st : State C M) : Prop := ∀ p rest, st.cur.paths = p :: rest → p.done = false → p.retract = false ∧ p.hop = false

omit [DecidableEq C] [DecidableEq M] in
theorem Ready.initial (nr : Nat) : Ready (initial nr : State C M) := by
  intro p rest h
  simp [Verif.Travel.initial] at h

theorem Ready.base {st : State C M} (h : Ready st) (k : Kind C M) (fill : Nat) (spiral toZ : Bool) (base : Path C M) (rest : List (Path C M))
    (hb : latest st.cur.paths k fill spiral toZ = (base, rest)) : base.retract = false ∧ base.hop = false := by
  rcases latest_cases st.cur.paths k fill spiral toZ with h' | ⟨b, r, h1, _, h3, h4⟩
  · rw [h'] at hb
    simp only [Prod.mk.injEq] at hb
    rw [← hb.1]
    exact ⟨rfl, rfl⟩
  · rw [h4] at hb
    simp only [Prod.mk.injEq] at hb
    obtain ⟨rfl, rfl⟩ := hb
    exact h b r h1 h3

/-- What a travel does, in short. -/
theorem addTravel_landed (env : Env C M) (p : P2) (force : Force) (z : Int) (st : State C M) (h : Ready st) (base : Path C M) (rest : List (Path C M))
    (hb : latest st.cur.paths (travelKind env st z) 0 false true = (base, rest)) :
    ∃ (path : Path C M) (detour : List P2), addTravel env p force z st = landed st path rest p ∧ path.kind = base.kind ∧ path.done = true ∧
      path.points = base.points ++ detour.map P2.up ++ [p.up] ∧ (st.last = none → detour = []) := by
  have h0 := h.base _ _ _ _ _ _ hb
  cases hq : st.last with
  | none =>
    obtain ⟨path, h1, h2, h3, h4, _⟩ := addTravel_none env p force z st base rest hb hq h0
    exact ⟨path, [], h1, h2, h3, by simpa using h4, fun _ => rfl⟩
  | some q =>
    obtain ⟨path, d, h1, h2, h3, h4, _⟩ := addTravel_some env p force z st base rest q hb hq h0
    exact ⟨path, d, h1, h2, h3, h4, fun h => by cases h⟩

/-- The parts of a switch of extruders. -/
def leave (env : Env C M) (st : State C M) : State C M :=
  let st := { st with inside := false }
  let t := env.tool st.cur.extruder
  let endPos := if t.endAbs then t.endPos.add t.offset else t.endPos.add (position env st)
  if t.endAbs ∨ st.last.isSome then
    let st := addTravel env endPos .automatic 0 st
    match st.cur.paths with
    | [] => st
    | p :: ps => { st with cur := { st.cur with paths := { p with nozzleSwitch := true } :: ps } }
  else st

def enter (env : Env C M) (nr : Nat) (st : State C M) : State C M :=
  let cur := if st.cur.paths.isEmpty then { st.cur with extruder := nr } else st.cur
  let st := { st with cur := ⟨nr, []⟩, earlier := cur :: st.earlier }
  let t := env.tool nr
  let startPos := if t.startAbs then t.startPos.add t.offset else t.startPos.add (position env st)
  if t.startAbs ∨ st.last.isSome then { st with last := some startPos.up } else st

theorem setExtruder_eq (env : Env C M) (nr : Nat) (st : State C M) :
    setExtruder env nr st = if nr = st.cur.extruder then st else enter env nr (leave env st) := rfl

omit [DecidableEq C] [DecidableEq M] in
theorem enter_spec (env : Env C M) (nr : Nat) (st : State C M) :
    enter env nr st = { st with
      cur := ⟨nr, []⟩
      earlier := (if st.cur.paths.isEmpty then { st.cur with extruder := nr } else st.cur) :: st.earlier
      last := entered (env.tool nr) st.last } := by
  unfold enter entered position
  dsimp only
  cases hs : (env.tool nr).startAbs <;> cases hl : st.last <;> simp_all

/-- What is done when an extruder is left. -/
theorem leave_spec (env : Env C M) (st : State C M) (h : Ready st) :
    (env.tool st.cur.extruder).endAbs = false ∧ st.last = none ∧ leave env st = { st with inside := false } ∨
    ∃ (p : P2) (base path : Path C M) (rest : List (Path C M)) (detour : List P2), leftAt (env.tool st.cur.extruder) st.last = some p.up ∧
      latest st.cur.paths (travelKind env st 0) 0 false true = (base, rest) ∧ leave env st = landed { st with inside := false } path rest p ∧
      path.kind = base.kind ∧ path.done = true ∧ path.points = base.points ++ detour.map P2.up ++ [p.up] := by
  unfold leave
  dsimp only
  split
  · rename_i hc
    right
    obtain ⟨base, rest, hb⟩ : ∃ base rest, latest st.cur.paths (travelKind env st 0) 0 false true = (base, rest) := ⟨_, _, rfl⟩
    have h' : Ready { st with inside := false } := h
    have hb' : latest ({ st with inside := false } : State C M).cur.paths (travelKind env { st with inside := false } 0) 0 false true = (base, rest) := hb
    generalize he : (if (env.tool st.cur.extruder).endAbs = true then (env.tool st.cur.extruder).endPos.add (env.tool st.cur.extruder).offset
      else (env.tool st.cur.extruder).endPos.add (position env { st with inside := false })) = e
    obtain ⟨path, d, h1, h2, h3, h4, _⟩ := addTravel_landed env e .automatic 0 _ h' base rest hb'
    refine ⟨e, base, { path with nozzleSwitch := true }, rest, d, ?_, hb, ?_, h2, h3, h4⟩
    · rw [← he]
      unfold leftAt position
      cases hs : (env.tool st.cur.extruder).endAbs <;> cases hl : st.last <;> simp_all
    · rw [h1]
      rfl
  · rename_i hc
    left
    rw [not_or] at hc
    exact ⟨by simpa using hc.1, by simpa using hc.2, rfl⟩

omit [DecidableEq C] [DecidableEq M] in
theorem Ready.landed (st : State C M) (path : Path C M) (rest : List (Path C M)) (p : P2) (hd : path.done = true) : Ready (landed st path rest p) := by
  intro x r hx hx'
  simp only [Verif.Travel.landed, List.cons.injEq] at hx
  rw [← hx.1, hd] at hx'
  cases hx'

omit [DecidableEq C] [DecidableEq M] in
theorem Ready.done {st : State C M} (p : Path C M) (rest : List (Path C M)) (hp : st.cur.paths = p :: rest) (hd : p.done = true) : Ready st := by
  intro x r hx hx'
  rw [hp] at hx
  simp only [List.cons.injEq] at hx
  rw [← hx.1, hd] at hx'
  cases hx'

theorem Ready.step (env : Env C M) (st : State C M) (h : Ready st) (op : Op C M) : Ready (step env st op) := by
  cases op with
  | travel p f z =>
    obtain ⟨base, rest, hb⟩ : ∃ base rest, latest st.cur.paths (travelKind env st z) 0 false true = (base, rest) := ⟨_, _, rfl⟩
    obtain ⟨path, d, h1, h2, h3, _⟩ := addTravel_landed env p f z st h base rest hb
    show Ready (addTravel env p f z st)
    rw [h1]
    exact Ready.landed _ _ _ _ h3
  | simple p =>
    obtain ⟨base, rest, hb⟩ : ∃ base rest, latest st.cur.paths (travelKind env st 0) 0 false true = (base, rest) := ⟨_, _, rfl⟩
    have h0 := h.base _ _ _ _ _ _ hb
    show Ready (addSimple env p st)
    unfold addSimple
    rw [hb]
    intro x r hx _
    simp only [addTo, List.cons.injEq] at hx
    rw [← hx.1]
    exact h0
  | extrude e =>
    obtain ⟨base, rest, hb⟩ : ∃ base rest, latest st.cur.paths ⟨e.config, env.zOf e.config, st.mesh, e.flow, e.width, e.speed⟩ e.fill e.spiral e.toZ = (base, rest) :=
      ⟨_, _, rfl⟩
    have h0 := h.base _ _ _ _ _ _ hb
    show Ready (addExtrusion env e st)
    unfold addExtrusion
    rw [hb]
    intro x r hx _
    simp only [List.cons.injEq] at hx
    rw [← hx.1]
    exact h0
  | newPath =>
    show Ready (forceNew st)
    unfold forceNew
    split
    · exact h
    · exact Ready.done _ _ rfl rfl
  | prime l =>
    show Ready (planPrime env l st)
    unfold planPrime
    dsimp only
    split
    · rename_i hx
      intro p rest hp
      rw [hx] at hp
      cases hp
    · exact Ready.done _ _ rfl rfl
  | inside b => exact h
  | mesh m => exact h
  | extruder n =>
    show Ready (setExtruder env n st)
    rw [setExtruder_eq]
    split
    · exact h
    · rw [enter_spec]
      intro p rest hp
      cases hp

theorem Ready.run (env : Env C M) (ops : List (Op C M)) : ∀ st : State C M, Ready st → Ready (run env ops st) := by
  induction ops with
  | nil => intro st h; exact h
  | cons op ops ih => intro st h; exact ih _ (h.step env st op)

end Verif.Travel
