import Verif.Travel.Route
import Verif.Travel.Kept

/-! # C112: what is planned is what was asked for, and travels are retracted when they need to be -/

namespace Verif.Travel

variable {C M : Type} [DecidableEq C] [DecidableEq M]

/-- Whatever moves a plan is asked for: if its paths are followed, exactly the lines are printed that were asked for, each from the place where the nozzle was
to be at that time, with the extruder, the mesh, the flow, the width and the speed that were asked for, in that order; and the nozzle ends where it should. -/
theorem C112_route (isTravel : C → Bool) (env : Env C M) (ht : ∀ n, isTravel (env.travel n) = true) (nr : Nat) (ops : List (Op C M))
    (ho : ∀ op ∈ ops, op.Ok isTravel) (st : State C M) (hst : run env ops (initial nr) = st) :
    walkPlans isTravel env.tool (st.cur :: st.earlier) =
        ((ops.foldl (ask env) ⟨none, nr, none, []⟩).pos, (ops.foldl (ask env) ⟨none, nr, none, []⟩).segs) ∧
      st.last = (ops.foldl (ask env) ⟨none, nr, none, []⟩).pos ∧ st.cur.extruder = (ops.foldl (ask env) ⟨none, nr, none, []⟩).extruder := by
  have h := Agrees.run isTravel env ht ops (initial nr) ⟨none, nr, none, []⟩ (Ready.initial nr) ⟨rfl, rfl, rfl, rfl⟩ ho
  rw [hst] at h
  exact ⟨by rw [h.walk, h.pos], h.pos.symm, h.extruder.symm⟩

/-- A travel from a known place is added to the end of the last path, if that is a travel that is not finished, or is a new path. A short one is not retracted.
Without a way inside of the model it is retracted if retraction is on, with a hop if that is on as well. With such a way it is never done with a hop, and it is
retracted if that is forced; or, unless that is ruled out, if retraction is on and the way leaves the model or is too long. The way follows the one that was
found, but for points that are close to others. Without one it goes at most by the point inside of the model. -/
theorem C112_retract (env : Env C M) (nr : Nat) (ops : List (Op C M)) (st : State C M) (hst : run env ops (initial nr) = st) (p : P2) (force : Force)
    (z : Int) (q : P3) (hq : st.last = some q) (s : Sets) (hs : env.sets st.mesh st.cur.extruder = s) (r : CombRes)
    (hr : env.combCalc st.wasInside st.inside q.flat p st.mesh st.cur.extruder = r) :
    ∃ (path : Path C M) (rest : List (Path C M)) (points : List P3) (detour : List P2),
      (step env st (.travel p force z)).cur = ⟨st.cur.extruder, path :: rest⟩ ∧ (step env st (.travel p force z)).earlier = st.earlier ∧
      (st.cur.paths = rest ∧ points = [] ∨
        ∃ base, st.cur.paths = base :: rest ∧ base.kind = path.kind ∧ base.done = false ∧ base.retract = false ∧ points = base.points) ∧
      path.kind = ⟨env.travel st.cur.extruder, z, st.mesh, 1, 1, 1⟩ ∧ path.done = true ∧ path.points = points ++ detour.map P2.up ++ [p.up] ∧
      (Short q.flat p s.minTravel → path.retract = false ∧ path.hop = false) ∧
      (¬ Short q.flat p s.minTravel → ¬ Combed env st rest.isEmpty q.flat p → path.retract = s.enable ∧ path.hop = (s.enable && s.hop)) ∧
      (¬ Short q.flat p s.minTravel → Combed env st rest.isEmpty q.flat p → path.hop = false ∧
        (path.retract = true ↔ force ≠ .notRetracted ∧
          (force = .retracted ∨ s.enable = true ∧ r.Leads ∧ (r.Leaves ∨ 0 < s.maxComb ∧ s.maxComb < routeLen env.len q.flat detour p)))) ∧
      (Combed env st rest.isEmpty q.flat p → List.Sublist detour (r.paths.flatMap (·.1)) ∧
        ∀ c ∈ r.paths.flatMap (·.1), ∃ b ∈ points ++ detour.map P2.up, (b.x - c.x) ^ 2 + (b.y - c.y) ^ 2 + b.z ^ 2 ≤ s.resolution ^ 2) ∧
      (¬ Combed env st rest.isEmpty q.flat p → detour = [] ∨ st.wasInside = true ∧ ¬ Short q.flat p s.minTravel ∧
        ∃ i, env.moveIn st.mesh st.cur.extruder q.flat = some i ∧ detour = [i]) := by
  subst hs hr
  have hR : Ready st := hst ▸ Ready.run env ops _ (Ready.initial nr)
  obtain ⟨base, rest, hb⟩ : ∃ base rest, latest st.cur.paths (travelKind env st z) 0 false true = (base, rest) := ⟨_, _, rfl⟩
  have h0 := hR.base _ _ _ _ _ _ hb
  obtain ⟨path, d, h1, h2, h3, h4, h5⟩ := addTravel_some env p force z st base rest q hb hq h0
  have hk : base.kind = travelKind env st z := (walk_latest (fun _ => true) 0 _ _ _ _ _ _ _ hb (none, [])).1
  refine ⟨path, rest, base.points, d, ?_, ?_, ?_, h2.trans hk, h3, h4, h5⟩
  · show (addTravel env p force z st).cur = _
    rw [h1]
    rfl
  · show (addTravel env p force z st).earlier = _
    rw [h1]
    rfl
  · rcases latest_cases st.cur.paths (travelKind env st z) 0 false true with h | ⟨b, r, g1, g2, g3, g4⟩
    · rw [h] at hb
      simp only [Prod.mk.injEq] at hb
      obtain ⟨rfl, rfl⟩ := hb
      exact Or.inl ⟨rfl, rfl⟩
    · rw [g4] at hb
      simp only [Prod.mk.injEq] at hb
      obtain ⟨rfl, rfl⟩ := hb
      exact Or.inr ⟨b, g1, h2.symm, g3, h0.1, rfl⟩

/-- What was planned stays: whatever is asked for later, the paths that are there are the first ones in the end, but that the last one may have got more
points, unless it was finished. -/
theorem C112_kept (env : Env C M) (nr : Nat) (ops more : List (Op C M)) (st : State C M) (hst : run env ops (initial nr) = st)
    (front : List (Nat × Path C M)) (n : Nat) (p : Path C M) (hp : st.paths = front ++ [(n, p)]) :
    ∃ p' rest, (run env more st).paths = front ++ (n, p') :: rest ∧ p'.kind = p.kind ∧ p.points <+: p'.points ∧ (p.done = true → p' = p) := by
  have hR : Ready st := hst ▸ Ready.run env ops _ (Ready.initial nr)
  rcases run_ext env more st hR with h | ⟨f, m, x, x', rest, h1, h2, hg⟩
  · rw [hp] at h
    simp at h
  · rw [hp] at h1
    obtain ⟨rfl, h⟩ := List.append_inj' h1 rfl
    simp only [List.cons.injEq, Prod.mk.injEq, and_true] at h
    obtain ⟨rfl, rfl⟩ := h
    exact ⟨x', rest, h2, hg⟩

theorem step_still (env : Env C M) (nr : Nat) (ops : List (Op C M)) : ∀ st : State C M, (∀ op ∈ ops, op.Still) → st.last = none → st.cur = ⟨nr, []⟩ →
    st.earlier = [] → (run env ops st).last = none ∧ (run env ops st).cur = ⟨nr, []⟩ ∧ (run env ops st).earlier = [] := by
  induction ops with
  | nil => intro st _ h1 h2 h3; exact ⟨h1, h2, h3⟩
  | cons op ops ih =>
    intro st ho h1 h2 h3
    have hop := ho op (by simp)
    refine ih (step env st op) (fun o h => ho o (by simp [h])) ?_ ?_ ?_ <;> cases op <;> simp_all [Op.Still, step, forceNew]

/-- If a plan starts with a travel, its first path is that travel alone, however it goes on, and the place where it starts is known as such. It is retracted
only on the first layer, with a hop, where both are on. -/
theorem C112_first (env : Env C M) (nr : Nat) (still more : List (Op C M)) (hs : ∀ op ∈ still, op.Still) (p : P2) (force : Force) (z : Int) (st : State C M)
    (hst : run env (still ++ .travel p force z :: more) (initial nr) = st) (before : State C M) (hb : run env still (initial nr) = before) :
    ∃ path rest, st.paths = (nr, path) :: rest ∧ path.points = [p.up] ∧ path.kind = ⟨env.travel nr, z, before.mesh, 1, 1, 1⟩ ∧
      st.firstDest = some (p, before.inside) ∧
      (path.hop = true ↔ env.layer = 0 ∧ (env.sets before.mesh nr).enable = true ∧ (env.sets before.mesh nr).hop = true) ∧
      (path.retract = true ↔ path.hop = true ∧ force ≠ .notRetracted) := by
  have hR : Ready before := hb ▸ Ready.run env still _ (Ready.initial nr)
  obtain ⟨s1, s2, s3⟩ := step_still env nr still (initial nr) hs rfl rfl rfl
  rw [hb] at s1 s2 s3
  have hl : latest before.cur.paths (travelKind env before z) 0 false true = (fresh (travelKind env before z) 0 false true, []) := by
    rw [s2]
    rfl
  obtain ⟨path, h1, h2, h3, h4, h5, h6⟩ := addTravel_none env p force z before _ [] hl s1 ⟨rfl, rfl⟩
  have hrun : st = run env more (step env before (.travel p force z)) := by
    rw [← hst, ← hb]
    simp [run]
  have hR' : Ready (step env before (.travel p force z)) := hR.step env before _
  have h1' : step env before (.travel p force z) = landed before path [] p := h1
  have hpaths : (step env before (.travel p force z)).paths = [] ++ [(nr, path)] := by
    rw [h1', paths_eq]
    simp [landed, State.front, s3, s2]
  rw [s2] at h5
  refine ⟨path, ?_⟩
  rcases run_ext env more _ hR' with h | ⟨f, m, x, x', rest, g1, g2, hg⟩
  · rw [hpaths] at h
    simp at h
  · rw [hpaths] at g1
    obtain ⟨rfl, h⟩ := List.append_inj' g1 rfl
    simp only [List.cons.injEq, Prod.mk.injEq, and_true] at h
    obtain ⟨rfl, rfl⟩ := h
    refine ⟨rest, ?_, by rw [h4]; rfl, ?_, ?_, h5, h6⟩
    · rw [hrun, g2, hg.2.2 h3]
      rfl
    · rw [h2]
      show travelKind env before z = _
      unfold travelKind
      rw [s2]
    · rw [hrun, (run_first env more _ hR' (by rw [h1']; rfl)).2, h1']
      simp [landed, s1]

/-- The travel at the end of a layer leads to where the next one begins, and only if it is not there yet. What was planned stays, and nothing more is printed.
If it is forced it is retracted, even when it is short. -/
theorem C112_connect (isTravel : C → Bool) (env : Env C M) (ht : ∀ n, isTravel (env.travel n) = true) (nr : Nat) (ops : List (Op C M)) (st : State C M)
    (hst : run env ops (initial nr) = st) (ho : ∀ op ∈ ops, op.Ok isTravel) (p : P2) (inside force : Bool) :
    ((connect env (some (p, inside)) force st).last.map P3.flat = some p) ∧
      (walkPlans isTravel env.tool ((connect env (some (p, inside)) force st).cur :: (connect env (some (p, inside)) force st).earlier)).2 =
        (ops.foldl (ask env) ⟨none, nr, none, []⟩).segs ∧
      (st.last.map P3.flat = some p → connect env (some (p, inside)) force st = st) ∧
      (st.last.map P3.flat ≠ some p → ∃ path rest, (connect env (some (p, inside)) force st).cur.paths = path :: rest ∧
        path.points.getLast? = some p.up ∧ (force = true → path.retract = true)) := by
  have hR : Ready st := hst ▸ Ready.run env ops _ (Ready.initial nr)
  have h := Agrees.run isTravel env ht ops (initial nr) ⟨none, nr, none, []⟩ (Ready.initial nr) ⟨rfl, rfl, rfl, rfl⟩ ho
  rw [hst] at h
  by_cases hq : st.last.map P3.flat = some p
  · have hc : connect env (some (p, inside)) force st = st := by
      unfold connect
      dsimp only
      rw [if_pos hq]
    rw [hc]
    exact ⟨hq, by rw [h.walk], fun _ => rfl, fun h' => absurd hq h'⟩
  · have hR' : Ready { st with inside := inside } := hR
    have hA : Agrees isTravel env { st with inside := inside } (ops.foldl (ask env) ⟨none, nr, none, []⟩) := ⟨h.pos, h.extruder, h.mesh, h.walk⟩
    have hA' := Agrees.step isTravel env ht _ hR' _ hA (.travel p (if force then .retracted else .automatic) 0) trivial
    obtain ⟨base, rest, hb⟩ : ∃ base rest, latest ({ st with inside := inside } : State C M).cur.paths (travelKind env { st with inside := inside } 0) 0 false true = (base, rest) :=
      ⟨_, _, rfl⟩
    obtain ⟨path, d, g1, g2, g3, g4, _⟩ := addTravel_landed env p (if force then .retracted else .automatic) 0 _ hR' base rest hb
    have hstep : step env { st with inside := inside } (.travel p (if force then .retracted else .automatic) 0) =
      landed { st with inside := inside } path rest p := g1
    rw [hstep] at hA'
    have hc : connect env (some (p, inside)) force st =
        landed { st with inside := inside } { path with retract := path.retract || force } rest p := by
      unfold connect
      dsimp only
      rw [if_neg hq, g1]
      rfl
    rw [hc]
    refine ⟨rfl, ?_, fun h' => absurd h' hq, fun _ => ⟨_, rest, rfl, ?_, fun hf => by simp [hf]⟩⟩
    · have hw := hA'.walk
      rw [walkPlans_cons] at hw ⊢
      have : walkPaths isTravel (landed { st with inside := inside } { path with retract := path.retract || force } rest p).cur.extruder
          (landed { st with inside := inside } { path with retract := path.retract || force } rest p).cur.paths =
          walkPaths isTravel (landed { st with inside := inside } path rest p).cur.extruder (landed { st with inside := inside } path rest p).cur.paths := rfl
      rw [this]
      have he : (landed { st with inside := inside } { path with retract := path.retract || force } rest p).cur.extruder =
        (landed { st with inside := inside } path rest p).cur.extruder := rfl
      have he' : (landed { st with inside := inside } { path with retract := path.retract || force } rest p).earlier =
        (landed { st with inside := inside } path rest p).earlier := rfl
      rw [he, he', hw]
      rfl
    · dsimp only
      rw [g4]
      simp

end Verif.Travel
