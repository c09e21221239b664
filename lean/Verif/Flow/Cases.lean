import Verif.Flow.Props

/-! # C60, C61: concrete runs and counterexamples -/

namespace Verif.Flow

/-- A distance for the examples, whose moves are parallel to the axes: for these it is the length of the move. -/
def manhattan (a b : Pt) : ℚ := |(b.x - a.x : ℚ)| + |(b.y - a.y : ℚ)| + |(b.z - a.z : ℚ)|

theorem manhattan_dist : IsDist manhattan where
  nonneg a b := by unfold manhattan; positivity
  symm a b := by
    unfold manhattan
    rw [abs_sub_comm, abs_sub_comm (b.y : ℚ), abs_sub_comm (b.z : ℚ)]

/-- An extrusion of 0.4 mm x 0.2 mm. -/
def line : Data := ⟨1, 400, 200, 1, 1, false, 0⟩

/-- A travel. -/
def hop : Data := ⟨0, 400, 200, 1, 1, false, 1⟩

def pt (x : Int) : Pt := ⟨x, 0, 0⟩

/-- A slow line (0.8 mm³/s), a short travel, a fast line (4 mm³/s), and a slow line again. -/
def plan : List GPath :=
  [⟨line, 10, [pt 0, pt 10000]⟩, ⟨hop, 100, [pt 11000]⟩, ⟨line, 50, [pt 31000]⟩, ⟨line, 20, [pt 41000]⟩]

/-- Flow acceleration 1 mm³/s², step 0.8 s: the flow of the fast line climbs and is held down by the end. -/
def planOut : List GPath :=
  [⟨line, 10, [pt 0, pt 10000]⟩, ⟨hop, 100, [pt 11000]⟩, ⟨line, 20, [pt 27000]⟩, ⟨line, 30, [pt 31000]⟩,
   ⟨line, 20, [pt 41000]⟩]

theorem plan_run : Run manhattan 1 (8 / 10) 2 20 plan planOut where
  dist := manhattan_dist
  step_pos := by norm_num
  limit_nonneg := by norm_num
  sane := by unfold GPath.Sane volume; decide +kernel
  first := by decide +kernel
  run := by decide +kernel

/-- `plan_run` meets the hypotheses of `C60_route`, and the result differs from the plan. -/
example : (∃ groups : List (List Move), moves none planOut = groups.flatten ∧
    List.Forall₂ Pieces (moves none plan) groups) ∧ planOut ≠ plan := ⟨C60_route plan_run, by decide +kernel⟩

/-- `plan_run` meets the hypotheses of `C61_rise_partial` with a travel between the two extrusions, and the bound is sharp. -/
example : GPath.flow ⟨line, 20, [pt 27000]⟩ ≤ GPath.flow ⟨line, 10, [pt 0, pt 10000]⟩ + 1 * 1000000000 * (8 / 10) ∧
    GPath.flow ⟨line, 20, [pt 27000]⟩ = GPath.flow ⟨line, 10, [pt 0, pt 10000]⟩ + 1 * 1000000000 * (8 / 10) := by
  refine ⟨C61_rise_partial plan_run [] [(some (pt 10000), ⟨hop, 100, [pt 11000]⟩)] _ (none, _) (some (pt 11000), _) rfl ?_ ?_ ?_,
    ?_⟩
  · decide +kernel
  · decide +kernel
  · unfold Interrupts; decide +kernel
  · decide +kernel

/-- `plan_run` meets the hypotheses of `C61_fall_partial`. -/
example : GPath.flow ⟨line, 30, [pt 31000]⟩ ≤ GPath.flow ⟨line, 20, [pt 41000]⟩ + 1 * 1000000000 * (8 / 10) := by
  refine C61_fall_partial plan_run (starts none (planOut.take 3)) [] [] (some (pt 27000), _) (some (pt 31000), _) rfl ?_ ?_ ?_
  all_goals decide +kernel

/-- `plan_run` meets the hypotheses of `C61_end_partial`. -/
example : GPath.flow ⟨line, 20, [pt 41000]⟩ ≤ GPath.flow ⟨line, 10, [pt 0, pt 10000]⟩ + 1 * 1000000000 * (8 / 10) := by
  refine C61_end_partial plan_run (planOut.take 4) [] _ rfl ?_ ?_ [] _ _ rfl ?_ ?_
  all_goals decide +kernel

/-- A plan that meets the hypotheses of `C60_defined`. -/
example : ∃ n, ∀ fuel, n ≤ fuel → ∃ out, process manhattan (1 / 10) (1 / 5) 2 fuel plan = .ok out :=
  C60_defined manhattan_dist (by norm_num) (by norm_num) plan_run.sane plan_run.first

/-- A plan that meets the hypotheses of `C60_constant`. -/
example : process manhattan 1 1 2 0 (plan.take 2 ++ [⟨line, 10, [pt 31000]⟩]) =
    .ok (plan.take 2 ++ [⟨line, 10, [pt 31000]⟩]) := by
  refine C60_constant 0 800000000 ?_ ?_ ?_
  · unfold GPath.Sane volume; decide +kernel
  · decide +kernel
  · decide +kernel

/-- Without the duration of a step the code does not end. -/
theorem C60_zero_step : ∀ fuel, process manhattan 1 0 2 fuel plan = .diverge := by
  intro fuel
  have aux : ∀ (n : Nat) (done : List FPath), ramp manhattan true 0 0 4000000000 80000 n
      ⟨line, 50, [pt 11000, pt 31000], 50000, 4000000000⟩ done ⟨800000000, 0, .stable⟩ = .diverge := by
    intro n
    induction n with
    | zero => intro done; rfl
    | succ n ih =>
      intro done
      have e : FPath.partition manhattan 0 (800000000 / 80000) true ⟨line, 50, [pt 11000, pt 31000], 50000, 4000000000⟩ =
          .ok (⟨line, 50, [pt 11000, pt 11000], 10000, 800000000⟩,
            some ⟨line, 50, [pt 11000, pt 31000], 50000, 4000000000⟩, 0) := by decide +kernel
      rw [ramp]
      rw [if_pos (by norm_num)]
      simp only [add_zero]
      rw [min_eq_right (by norm_num), if_neg (by norm_num)]
      simp only [e]
      exact ih _
  have h1 : convertAll plan = .ok [⟨line, 10, [pt 0, pt 10000], 10000, 800000000⟩,
      ⟨hop, 100, [pt 10000, pt 11000], 100000, 0⟩, ⟨line, 50, [pt 11000, pt 31000], 50000, 4000000000⟩,
      ⟨line, 20, [pt 31000, pt 41000], 20000, 1600000000⟩] := by decide +kernel
  have h2 : firstFlow [⟨line, 10, [pt 0, pt 10000], 10000, 800000000⟩,
      ⟨hop, 100, [pt 10000, pt 11000], 100000, 0⟩, ⟨line, 50, [pt 11000, pt 31000], 50000, 4000000000⟩,
      ⟨line, 20, [pt 31000, pt 41000], 20000, 1600000000⟩] = 800000000 := by decide +kernel
  unfold process
  rw [h1]
  simp only [Outcome.bind_ok, h2]
  unfold processPaths
  have p1 : ∀ c : Config, processPath manhattan c true fuel ⟨line, 10, [pt 0, pt 10000], 10000, 800000000⟩
      ⟨800000000, 0, .undefined⟩ = .ok ([⟨line, 10, [pt 0, pt 10000], 10000, 800000000⟩], ⟨800000000, 0, .stable⟩) := by
    intro c
    unfold processPath
    rw [if_neg (by decide +kernel)]
    dsimp only
    rw [if_pos (by decide +kernel)]
  have p2 : processPath manhattan ⟨1 * 1000000000, 1 * 1000000000, 0, 2⟩ true fuel
      ⟨hop, 100, [pt 10000, pt 11000], 100000, 0⟩ ⟨800000000, 0, .stable⟩ =
      .ok ([⟨hop, 100, [pt 10000, pt 11000], 100000, 0⟩], ⟨800000000, 0, .stable⟩) := by
    unfold processPath
    rw [if_pos (by decide +kernel), if_neg (by decide +kernel)]
  have p3 : processPath manhattan ⟨1 * 1000000000, 1 * 1000000000, 0, 2⟩ true fuel
      ⟨line, 50, [pt 11000, pt 31000], 50000, 4000000000⟩ ⟨800000000, 0, .stable⟩ = .diverge := by
    unfold processPath
    rw [if_neg (by decide +kernel)]
    dsimp only
    rw [if_neg (by decide +kernel)]
    unfold raise
    have hv : line.vol = 80000 := by decide +kernel
    simp only [reduceCtorEq, false_and, if_false, gt_iff_lt, lt_irrefl, mul_zero, hv]
    exact aux fuel []
  simp only [pass, p1, p2, p3, Outcome.bind_ok]
  rfl

/-- A first path without points followed by another one is undefined behaviour. -/
theorem C60_empty_first : ∀ len limit step reset fuel,
    process len limit step reset fuel [⟨hop, 100, []⟩, ⟨line, 10, [pt 0]⟩] = .ub := by
  intros; rfl

/-- The duration of a path with its start. -/
def lasts (x : Option Pt × GPath) : ℚ :=
  routeLength manhattan (x.1.toList ++ x.2.points) / (x.2.speed * x.2.data.factor * 1000)

/-- A slow line, two fast lines that are over before the step is, and a long fast line. -/
def early : List GPath :=
  [⟨line, 10, [pt 0, pt 10000]⟩, ⟨line, 50, [pt 12000]⟩, ⟨line, 50, [pt 13000]⟩, ⟨line, 50, [pt 33000]⟩,
   ⟨line, 20, [pt 63000]⟩]

/-- The flow is raised again after a fraction of the step: when a path is shorter than what is left of the step, the
time it takes, and not the time that is left then, is what the code keeps as the rest of the step. So the flow rises
faster than the maximum flow acceleration, even if one step more is granted. -/
theorem C61_rate_counterexample : ∃ (paths out : List GPath) (pre mid post : List (Option Pt × GPath))
    (a b : Option Pt × GPath), Run manhattan 1 (8 / 10) 2 20 paths out ∧ starts none out = pre ++ a :: (mid ++ b :: post) ∧
      (∀ x ∈ a :: b :: mid, 0 < x.2.flow) ∧
      a.2.flow + 1 * 1000000000 * ((mid.map lasts).sum + 8 / 10) < b.2.flow := by
  refine ⟨early, [⟨line, 10, [pt 0, pt 10000]⟩, ⟨line, 20, [pt 12000]⟩, ⟨line, 20, [pt 13000]⟩, ⟨line, 20, [pt 14000]⟩,
    ⟨line, 30, [pt 33000]⟩, ⟨line, 20, [pt 63000]⟩], [], _, [(some (pt 33000), _)], (none, _), (some (pt 14000), _),
    ⟨manhattan_dist, by norm_num, by norm_num, ?_, ?_, ?_⟩,
    (rfl : starts none _ = [] ++ _ :: ([(some (pt 10000), _), (some (pt 12000), _), (some (pt 13000), _)] ++ _ :: [_])),
    ?_, ?_⟩
  · unfold GPath.Sane volume; decide +kernel
  · decide +kernel
  · decide +kernel
  · decide +kernel
  · decide +kernel

/-- `n` fast lines of 1 mm, back and forth. -/
def zigzag (v : ℚ) : Nat → List GPath
  | 0 => []
  | n + 1 => ⟨line, v, [pt (if n % 2 = 0 then 12000 else 13000)]⟩ :: zigzag v n

/-- The flow is never raised over equal short paths, although they take many steps in all, their own flow is larger,
and the plan ends slowly only much later: one step up is all they get. -/
theorem C61_stuck_counterexample :
    Run manhattan 1 (8 / 10) 2 20 (⟨line, 10, [pt 0, pt 10000]⟩ :: ⟨line, 50, [pt 12000]⟩ :: zigzag 50 100)
      (⟨line, 10, [pt 0, pt 10000]⟩ :: ⟨line, 20, [pt 12000]⟩ :: zigzag 20 100) ∧
    5 * (8 / 10) < ((starts (some (pt 12000)) (zigzag 20 100)).map lasts).sum := by
  refine ⟨⟨manhattan_dist, by norm_num, by norm_num, ?_, ?_, ?_⟩, ?_⟩
  · unfold GPath.Sane volume; decide +kernel
  · decide +kernel
  · decide +kernel
  · decide +kernel

end Verif.Flow
