import Verif.Travel.Inv

/-! # Where the nozzle goes -/

namespace Verif.Travel

variable {C M : Type}

theorem walkPoints_append (t : Bool) (nr : Nat) (k : Kind C M) (ps qs : List P3) : ∀ a : Acc C M,
    walkPoints t nr k (ps ++ qs) a = walkPoints t nr k qs (walkPoints t nr k ps a) := by
  induction ps with
  | nil => intro a; rfl
  | cons p ps ih => intro a; exact ih _

theorem walkPoints_travel (nr : Nat) (k : Kind C M) (ps : List P3) : ∀ a : Acc C M, (walkPoints true nr k ps a).2 = a.2 := by
  induction ps with
  | nil => intro a; rfl
  | cons p ps ih => intro a; exact ih _

/-- Where it is when the paths of an extruder begin. -/
def begins (isTravel : C → Bool) (tool : Nat → Tool) (nr : Nat) : List (Plan C M) → Acc C M
  | [] => (none, [])
  | q :: ps => (entered (tool nr) (walkPlans isTravel tool (q :: ps)).1, (walkPlans isTravel tool (q :: ps)).2)

theorem walkPlans_cons (isTravel : C → Bool) (tool : Nat → Tool) (p : Plan C M) (ps : List (Plan C M)) :
    walkPlans isTravel tool (p :: ps) = walkPaths isTravel p.extruder p.paths (begins isTravel tool p.extruder ps) := by
  cases ps <;> rfl

variable [DecidableEq C] [DecidableEq M]

/-- Nothing changes when the path is looked for to which is added. -/
theorem walk_latest (isTravel : C → Bool) (nr : Nat) (paths : List (Path C M)) (k : Kind C M) (fill : Nat) (spiral toZ : Bool) (base : Path C M)
    (rest : List (Path C M)) (hb : latest paths k fill spiral toZ = (base, rest)) (a : Acc C M) :
    base.kind = k ∧ walkPoints (isTravel base.kind.config) nr base.kind base.points (walkPaths isTravel nr rest a) = walkPaths isTravel nr paths a := by
  rcases latest_cases paths k fill spiral toZ with h | ⟨b, r, h1, h2, _, h4⟩
  · rw [h] at hb
    simp only [Prod.mk.injEq] at hb
    obtain ⟨rfl, rfl⟩ := hb
    exact ⟨rfl, rfl⟩
  · rw [h4] at hb
    simp only [Prod.mk.injEq] at hb
    obtain ⟨rfl, rfl⟩ := hb
    rw [h1]
    exact ⟨h2, rfl⟩

/-- What was asked for is what is done. -/
structure Agrees (isTravel : C → Bool) (env : Env C M) (st : State C M) (a : Asked C M) : Prop where
  pos : a.pos = st.last
  extruder : a.extruder = st.cur.extruder
  mesh : a.mesh = st.mesh
  walk : walkPlans isTravel env.tool (st.cur :: st.earlier) = (st.last, a.segs)

omit [DecidableEq C] [DecidableEq M] in
/-- A path by which the nozzle travels ends where it is asked to. -/
theorem walk_travel (isTravel : C → Bool) (tool : Nat → Tool) (nr : Nat) (path : Path C M) (paths rest : List (Path C M)) (earlier : List (Plan C M))
    (points : List P3) (more : List P3) (to' : P3) (ht : isTravel path.kind.config = true) (hp : path.points = points ++ more ++ [to'])
    (hw : ∀ a, walkPoints (isTravel path.kind.config) nr path.kind points (walkPaths isTravel nr rest a) = walkPaths isTravel nr paths a) :
    walkPlans isTravel tool (⟨nr, path :: rest⟩ :: earlier) = (some to', (walkPlans isTravel tool (⟨nr, paths⟩ :: earlier)).2) := by
  rw [walkPlans_cons, walkPlans_cons]
  dsimp only
  rw [walkPaths, hp, walkPoints_append, walkPoints_append, hw, ht]
  refine Prod.ext rfl ?_
  show (walkPoints true nr path.kind more _).2 = _
  rw [walkPoints_travel]

omit [DecidableEq C] [DecidableEq M] in
theorem entered_twice (t : Tool) : entered t (entered t none) = entered t none := by
  unfold entered
  cases t.startAbs <;> rfl

theorem Agrees.step (isTravel : C → Bool) (env : Env C M) (ht : ∀ n, isTravel (env.travel n) = true) (st : State C M) (hr : Ready st) (a : Asked C M)
    (h : Agrees isTravel env st a) (op : Op C M) (ho : op.Ok isTravel) : Agrees isTravel env (step env st op) (ask env a op) := by
  obtain ⟨h1, h2, h3, h4⟩ := h
  have hst : (⟨st.cur.extruder, st.cur.paths⟩ : Plan C M) = st.cur := rfl
  -- a path that ends at a point is put at the end
  have key : ∀ (z : Int) (base path : Path C M) (rest : List (Path C M)) (more : List P3) (to' : P3),
      latest st.cur.paths (travelKind env st z) 0 false true = (base, rest) → path.kind = base.kind → path.points = base.points ++ more ++ [to'] →
      walkPlans isTravel env.tool (⟨st.cur.extruder, path :: rest⟩ :: st.earlier) = (some to', a.segs) := by
    intro z base path rest more to' hb hk hp
    have hk' : isTravel path.kind.config = true := by
      rw [hk, (walk_latest isTravel st.cur.extruder _ _ _ _ _ _ _ hb (none, [])).1]
      exact ht _
    rw [walk_travel isTravel env.tool st.cur.extruder path st.cur.paths rest st.earlier base.points more to' hk' hp, hst, h4]
    intro acc
    rw [hk]
    exact (walk_latest isTravel st.cur.extruder _ _ _ _ _ _ _ hb acc).2
  cases op with
  | travel p f z =>
    obtain ⟨base, rest, hb⟩ : ∃ base rest, latest st.cur.paths (travelKind env st z) 0 false true = (base, rest) := ⟨_, _, rfl⟩
    obtain ⟨path, d, g1, g2, g3, g4, _⟩ := addTravel_landed env p f z st hr base rest hb
    show Agrees isTravel env (addTravel env p f z st) _
    rw [g1]
    exact ⟨rfl, h2, h3, key z base path rest _ _ hb g2 g4⟩
  | simple p =>
    obtain ⟨base, rest, hb⟩ : ∃ base rest, latest st.cur.paths (travelKind env st 0) 0 false true = (base, rest) := ⟨_, _, rfl⟩
    show Agrees isTravel env (addSimple env p st) _
    unfold addSimple
    rw [hb]
    exact ⟨rfl, h2, h3, key 0 base _ rest [] _ hb rfl (by simp)⟩
  | extrude e =>
    obtain ⟨base, rest, hb⟩ : ∃ base rest, latest st.cur.paths ⟨e.config, env.zOf e.config, st.mesh, e.flow, e.width, e.speed⟩ e.fill e.spiral e.toZ = (base, rest) :=
      ⟨_, _, rfl⟩
    show Agrees isTravel env (addExtrusion env e st) _
    unfold addExtrusion
    rw [hb]
    refine ⟨rfl, h2, h3, ?_⟩
    show walkPlans isTravel env.tool (⟨st.cur.extruder, _ :: rest⟩ :: st.earlier) = _
    have hw := walk_latest isTravel st.cur.extruder _ _ _ _ _ _ _ hb (begins isTravel env.tool st.cur.extruder st.earlier)
    rw [walkPlans_cons]
    dsimp only [ask]
    rw [walkPaths]
    dsimp only
    rw [walkPoints_append, hw.2]
    have h4' := h4
    rw [walkPlans_cons] at h4'
    rw [h4', hw.1]
    have : isTravel e.config = false := ho
    simp [walkPoints, this, h1, h2, h3]
  | newPath =>
    show Agrees isTravel env (forceNew st) _
    unfold forceNew
    split
    · exact ⟨h1, h2, h3, h4⟩
    · rename_i p ps hp
      refine ⟨h1, h2, h3, ?_⟩
      rw [walkPlans_cons, hp] at h4
      rw [walkPlans_cons]
      exact h4
  | prime l =>
    have hf : (forceNew st).last = st.last ∧ (forceNew st).cur.extruder = st.cur.extruder ∧ (forceNew st).mesh = st.mesh ∧ (forceNew st).earlier = st.earlier ∧
        walkPlans isTravel env.tool ((forceNew st).cur :: st.earlier) = (st.last, a.segs) := by
      unfold forceNew
      split
      · exact ⟨rfl, rfl, rfl, rfl, h4⟩
      · rename_i p ps hp
        refine ⟨rfl, rfl, rfl, rfl, ?_⟩
        rw [← h4, walkPlans_cons, walkPlans_cons]
        dsimp only
        rw [hp]
        rfl
    obtain ⟨f1, f2, f3, f4, f5⟩ := hf
    show Agrees isTravel env (planPrime env l st) _
    unfold planPrime addSimple
    dsimp only
    obtain ⟨base, rest, hb⟩ : ∃ base rest, latest (forceNew st).cur.paths (travelKind env (forceNew st) 0) 0 false true = (base, rest) := ⟨_, _, rfl⟩
    have hpos : position env (forceNew st) = (a.pos.map P3.flat).getD (env.start a.extruder) := by
      unfold position
      rw [f1, f2, h1, h2]
    rw [hb]
    simp only [addTo]
    have hw := fun acc => walk_latest isTravel st.cur.extruder _ _ _ _ _ _ _ hb acc
    refine ⟨?_, by simp [ask, h2, f2], by simp [ask, h3, f3], ?_⟩
    · simp only [ask]
      rw [hpos]
    · dsimp only
      rw [f2, f4]
      rw [walk_travel isTravel env.tool st.cur.extruder _ (forceNew st).cur.paths rest st.earlier base.points [] ((position env (forceNew st)).add ⟨0, l⟩).up
        ?_ (by simp) ?_]
      · have : (⟨st.cur.extruder, (forceNew st).cur.paths⟩ : Plan C M) = (forceNew st).cur := by rw [← f2]
        rw [this, f5]
        rfl
      · dsimp only
        rw [(hw (none, [])).1]
        exact ht _
      · exact fun acc => (hw acc).2
  | inside b => exact ⟨h1, h2, h3, h4⟩
  | mesh m => exact ⟨h1, h2, rfl, h4⟩
  | extruder n =>
    show Agrees isTravel env (setExtruder env n st) _
    rw [setExtruder_eq]
    simp only [ask, h2]
    by_cases hn : n = st.cur.extruder
    · rw [if_pos hn, if_pos hn]
      exact ⟨h1, h2, h3, h4⟩
    · rw [if_neg hn, if_neg hn, enter_spec]
      rcases leave_spec env st hr with ⟨l1, l2, l3⟩ | ⟨p, base, path, rest, d, l1, l2, l3, l4, l5, l6⟩
      · rw [l3]
        dsimp only
        have hleft : leftAt (env.tool st.cur.extruder) a.pos = none := by
          unfold leftAt
          rw [h1, l1, l2]
          rfl
        refine ⟨by rw [hleft, l2], rfl, h3, ?_⟩
        dsimp only
        rw [l2] at h4 ⊢
        rw [walkPlans_cons]
        dsimp only
        rw [walkPaths, begins]
        by_cases he : st.cur.paths = []
        · rw [if_pos (by simp [he])]
          have hwalk : walkPlans isTravel env.tool ({ st.cur with extruder := n } :: st.earlier) = begins isTravel env.tool n st.earlier := by
            rw [walkPlans_cons, he]
            rfl
          rw [hwalk]
          rw [walkPlans_cons, he] at h4
          have h4 : begins isTravel env.tool st.cur.extruder st.earlier = (none, a.segs) := h4
          cases hE : st.earlier with
          | nil =>
            rw [hE] at h4
            rw [show begins isTravel env.tool n ([] : List (Plan C M)) = begins isTravel env.tool st.cur.extruder [] from rfl, h4]
          | cons e es =>
            rw [hE] at h4
            rw [begins] at h4 ⊢
            simp only [Prod.mk.injEq] at h4
            have hnone : (walkPlans isTravel env.tool (e :: es)).1 = none := by
              have := h4.1
              unfold entered at this
              split at this
              · cases this
              · simpa using this
            rw [hnone, entered_twice, h4.2]
        · rw [if_neg (by simp [he]), h4]
      · rw [l3]
        have hw := key 0 base path rest (d.map P2.up) p.up l2 l4 l6
        refine ⟨?_, rfl, h3, ?_⟩
        · dsimp only [landed]
          rw [h1, l1]
        · dsimp only [landed]
          rw [walkPlans_cons]
          show begins isTravel env.tool n (_ :: st.earlier) = _
          simp only [List.isEmpty_cons, Bool.false_eq_true, if_false]
          rw [begins, hw]

theorem Agrees.run (isTravel : C → Bool) (env : Env C M) (ht : ∀ n, isTravel (env.travel n) = true) (ops : List (Op C M)) :
    ∀ (st : State C M) (a : Asked C M), Ready st → Agrees isTravel env st a → (∀ op ∈ ops, op.Ok isTravel) →
      Agrees isTravel env (run env ops st) (ops.foldl (ask env) a) := by
  induction ops with
  | nil => intro st a _ h _; exact h
  | cons op ops ih =>
    intro st a hr h ho
    exact ih _ _ (hr.step env st op) (h.step isTravel env ht st hr a op (ho op (by simp))) fun o h => ho o (by simp [h])

end Verif.Travel
