import Verif.Time.Props
import Mathlib.Tactic.NormNum

/-! # Concrete cases of C40 and C56, and what does not hold -/

namespace Verif.Time

/-- A position on the X axis, with a length of filament. -/
noncomputable def xe (x e : ℝ) : Axes := fun n => if n = 0 then x else if n = 3 then e else 0

theorem xe0 (x e : ℝ) : xe x e 0 = x := rfl
theorem xe1 (x e : ℝ) : xe x e 1 = 0 := rfl
theorem xe2 (x e : ℝ) : xe x e 2 = 0 := rfl
theorem xe3 (x e : ℝ) : xe x e 3 = e := rfl

/-- A printer at the origin that has planned nothing yet. -/
noncomputable def demo : Calc :=
  { maxFeed := fun _ => 100, minFeed := 0, acc := 3000, maxAcc := fun _ => 10000, xyJerk := 20, zJerk := 10, eJerk := 10 }

theorem demo_config : Config demo := by
  constructor <;> norm_num [demo, minSpeed]

theorem demo_reach : Reach demo := .init demo_config rfl rfl

theorem delta_xe (c : Calc) (x y e f : ℝ) (h : c.pos = xe x e) : deltaTo c (xe y f) = xe (y - x) (f - e) := by
  funext n
  unfold deltaTo
  rw [h]
  unfold xe
  split_ifs <;> simp

theorem distance_xe (x e : ℝ) (h : x ≠ 0) : distance (xe x e) = |x| := by
  have e1 : |xe x e 0| ^ 2 + |xe x e 1| ^ 2 + |xe x e 2| ^ 2 = |x| ^ 2 := by simp [xe]
  unfold distance
  dsimp only
  rw [e1, Real.sqrt_sq (abs_nonneg x), if_neg (abs_ne_zero.2 h)]

theorem travel_xe (x e : ℝ) (h : x ≠ 0) : ¬ travel (xe x e) ≤ 0 := by
  have : |xe x e 0| ≤ travel (xe x e) := by
    unfold travel; simp
  have h0 : 0 < |xe x e 0| := by simpa [xe] using h
  intro h1; linarith

theorem demo_pos : demo.pos = xe 0 0 := by funext n; simp [demo, xe]

theorem move_xe {c : Calc} {x y e f v : ℝ} (h : c.pos = xe x e) (hne : y - x ≠ 0) (hv : minSpeed ≤ v)
    (he : minSpeed * |f - e| ≤ c.maxFeed 3 * |y - x|) : Move c (xe y f) v := by
  refine ⟨hv.trans (le_max_right _ _), ?_⟩
  rw [delta_xe c x y e f h, distance_xe _ _ hne, h]
  simpa [xe] using he

/-- The printer after a move of 1 mm, and a second one straight on. -/
noncomputable def demo1 : Calc := apply demo (.plan (xe 1 0) 50 0)
noncomputable def demo2 : Calc := apply demo1 (.plan (xe 2 0) 50 1)

theorem demo1_reach : Reach demo1 := by
  refine .step _ demo_reach (Or.inr (move_xe demo_pos (by norm_num) (by unfold minSpeed; norm_num) ?_))
  simp [demo]

theorem plan_move {c : Calc} {pos : Axes} {v : ℝ} {f : Fin 15} (h : ¬ travel (deltaTo c pos) ≤ 0) :
    plan c pos v f =
      { c with
        prevFeed := blockFeed c (deltaTo c pos) v
        prevNominal := blockNominal c (deltaTo c pos) v
        pos := pos
        blocks := c.blocks ++ [newBlock c (deltaTo c pos) v f] } := by
  unfold plan; rw [if_neg h]

theorem demo1_eq : demo1 =
    { demo with
      prevFeed := blockFeed demo (xe 1 0) 50
      prevNominal := blockNominal demo (xe 1 0) 50
      pos := xe 1 0
      blocks := [newBlock demo (xe 1 0) 50 0] } := by
  have := delta_xe demo 0 1 0 0 demo_pos
  rw [sub_zero, sub_zero] at this
  show plan demo (xe 1 0) 50 0 = _
  rw [plan_move (by rw [this]; exact travel_xe 1 0 one_ne_zero), this]
  rfl

/-- The conditions of the theorems are met by moves of a printer. -/
theorem demo2_reach : Reach demo2 := by
  refine .step _ demo1_reach (Or.inr (move_xe (x := 1) (e := 0) ?_ (by norm_num) (by unfold minSpeed; norm_num) ?_))
  · rw [demo1_eq]
  · rw [demo1_eq]; simp [demo]

theorem feedFactor_one {m f : Axes} (h : ∀ n, |f n| ≤ m n) : feedFactor m f = 1 := by
  unfold feedFactor
  simp [not_lt.2 (h _)]

theorem nominal_xe {c : Calc} {x v : ℝ} (hx : x ≠ 0) (hv : 0 ≤ v) (hm : c.minFeed ≤ v) (h : v ≤ c.maxFeed 0)
    (h0 : ∀ n, 0 ≤ c.maxFeed n) : blockNominal c (xe x 0) v = v ∧ blockFeed c (xe x 0) v = xe (x / |x| * v) 0 := by
  have hr : rawFeed c (xe x 0) v = xe (x / |x| * v) 0 := by
    funext n
    unfold rawFeed
    rw [requested_eq, max_eq_right hm, distance_xe x 0 hx]
    unfold xe
    split_ifs
    · ring
    · simp
    · simp
  have hf : feedFactor c.maxFeed (rawFeed c (xe x 0) v) = 1 := by
    apply feedFactor_one
    intro n
    rw [hr]
    unfold xe
    split_ifs with h1
    · subst h1
      rw [abs_mul, abs_div, abs_abs, div_self (abs_ne_zero.2 hx), one_mul, abs_of_nonneg hv]
      exact h
    · simpa using h0 n
    · simpa using h0 n
  constructor
  · unfold blockNominal; rw [hf, requested_eq, max_eq_right hm, mul_one]
  · unfold blockFeed; rw [hf, ← hr]; funext n; rw [mul_one]

/-- Straight on at the same speed, the junction can be passed at full speed, and every block of the demonstration is passed
at least with the least speed of the planner. -/
theorem demo2_junctions : demo2.blocks.length = 2 ∧ ∀ b ∈ demo2.blocks, 1 / 20 ≤ b.maxEntry := by
  have hpos : demo1.pos = xe 1 0 := by rw [demo1_eq]
  have e := delta_xe demo1 1 2 0 0 hpos
  have e' : deltaTo demo1 (xe 2 0) = xe 1 0 := by rw [e]; norm_num
  have e0 : deltaTo demo (xe 1 0) = xe 1 0 := by rw [delta_xe demo 0 1 0 0 demo_pos]; norm_num
  have ht : ¬ travel (xe 1 0) ≤ 0 := travel_xe 1 0 one_ne_zero
  have hb : demo2.blocks = [newBlock demo (xe 1 0) 50 0, newBlock demo1 (xe 1 0) 50 1] := by
    show (plan demo1 (xe 2 0) 50 1).blocks = _
    rw [plan_move (by rw [e']; exact ht), e']
    rw [demo1_eq]
    rfl
  obtain ⟨n1, n2⟩ := nominal_xe (c := demo) (x := 1) (v := 50) one_ne_zero (by norm_num) (by norm_num [demo])
    (by norm_num [demo]) (by norm_num [demo])
  obtain ⟨n3, n4⟩ := nominal_xe (c := demo1) (x := 1) (v := 50) one_ne_zero (by norm_num)
    (by rw [demo1_eq]; norm_num [demo]) (by rw [demo1_eq]; norm_num [demo]) (by rw [demo1_eq]; norm_num [demo])
  have m1 : (newBlock demo (xe 1 0) 50 0).maxEntry = 10 := by
    have := (newBlock_spec demo_config (c := demo) (pos := xe 1 0) (feedrate := 50) (feature := 0)
      (move_xe demo_pos (by norm_num) (by unfold minSpeed; norm_num) (by simp [demo])) (by rw [e0]; exact ht)).2.2.2.2.2.2
    rw [e0, n1, n2] at this
    rw [this]
    unfold maxEntry safeSpeed
    norm_num [demo, xe0, xe1, xe2, xe3]
  have m2 : (newBlock demo1 (xe 1 0) 50 1).maxEntry = 50 := by
    have := (newBlock_spec demo1_reach.inv.config (c := demo1) (pos := xe 2 0) (feedrate := 50) (feature := 1)
      (move_xe hpos (by norm_num) (by unfold minSpeed; norm_num) (by rw [demo1_eq]; simp [demo]))
      (by rw [e']; exact ht)).2.2.2.2.2.2
    rw [e', n3, n4] at this
    rw [this]
    unfold maxEntry junctionFactor
    rw [demo1_eq]
    dsimp only
    rw [n1, n2]
    norm_num [demo, xe0, xe1, xe2, xe3]
  rw [hb]
  refine ⟨rfl, ?_⟩
  intro b hb
  simp only [List.mem_cons, List.not_mem_nil, or_false] at hb
  rcases hb with rfl | rfl
  · rw [m1]; norm_num
  · rw [m2]; norm_num

/-- So both blocks take the time of a run with constant acceleration. -/
example : ∀ b ∈ planned demo2.blocks, Motion b.initial b.final b.acc b.distance b.nominal (time b) := by
  intro b hb
  obtain ⟨h1, h2⟩ := C40_junctions demo2_reach demo2_junctions.2 b hb
  exact C40_motion demo2_reach hb h1 h2

/-- A run of 2 mm: 1 mm from 1 to 3 mm/s with 4 mm/s², and 1 mm back to 1 mm/s, takes one second. -/
example : Motion 1 1 4 2 3 1 := by
  refine ⟨1 / 2, 0, 1 / 2, 3, ?_⟩
  norm_num

/-- **C40** needs moves of at least 0.05 mm/s: at 0.01 mm/s the deceleration starts behind the end of the block. -/
theorem C40_slow_counterexample : Config demo ∧
    ∃ b ∈ planned (plan demo (xe 1 0) (1 / 100) 0).blocks, b.distance < b.decAfter := by
  refine ⟨demo_config, ?_⟩
  have e0 : deltaTo demo (xe 1 0) = xe 1 0 := by rw [delta_xe demo 0 1 0 0 demo_pos]; norm_num
  obtain ⟨n1, n2⟩ := nominal_xe (c := demo) (x := 1) (v := 1 / 100) one_ne_zero (by norm_num) (by norm_num [demo])
    (by norm_num [demo]) (by norm_num [demo])
  have hd : distance (xe 1 0) = 1 := by rw [distance_xe 1 0 one_ne_zero]; simp
  have ha : blockAcc demo (xe 1 0) 1 = 3000 := by unfold blockAcc; norm_num [demo, xe0, xe1, xe2, xe3]
  have hm : maxEntry demo (xe (1 / |1| * (1 / 100)) 0) (1 / 100) = 1 / 100 := by
    unfold maxEntry safeSpeed; norm_num [demo, xe0, xe1, xe2, xe3]
  have hA : (1 : ℝ) / 100 ≤ maxAllowable (-3000) minSpeed 1 :=
    le_trans (by unfold minSpeed; norm_num) (le_maxAllowable (by norm_num) (by norm_num))
  rw [plan_move (by rw [e0]; exact travel_xe 1 0 one_ne_zero), e0]
  have hp : planned [newBlock demo (xe 1 0) (1 / 100) 0] =
      retrap [newBlock demo (xe 1 0) (1 / 100) 0] := rfl
  refine ⟨_, by rw [show demo.blocks = [] from rfl, List.nil_append, hp]; exact List.mem_singleton.2 rfl, ?_⟩
  have hb : ∃ b : Block, newBlock demo (xe 1 0) (1 / 100) 0 = b ∧ b.distance = 1 ∧ b.nominal = 1 / 100 ∧ b.acc = 3000 ∧
      b.entry = 1 / 100 := by
    refine ⟨_, rfl, ?_⟩
    unfold newBlock
    dsimp only
    obtain ⟨t1, t2, t3, t4, t5, t6, _⟩ := trapezoid_same
      { feature := 0, distance := distance (xe 1 0), nominal := blockNominal demo (xe 1 0) (1 / 100),
        acc := blockAcc demo (xe 1 0) (distance (xe 1 0)),
        maxEntry := maxEntry demo (blockFeed demo (xe 1 0) (1 / 100)) (blockNominal demo (xe 1 0) (1 / 100)),
        entry := min (maxEntry demo (blockFeed demo (xe 1 0) (1 / 100)) (blockNominal demo (xe 1 0) (1 / 100)))
          (maxAllowable (-blockAcc demo (xe 1 0) (distance (xe 1 0))) minSpeed (distance (xe 1 0))),
        nominalLength := blockNominal demo (xe 1 0) (1 / 100) ≤
          maxAllowable (-blockAcc demo (xe 1 0) (distance (xe 1 0))) minSpeed (distance (xe 1 0)) }
      (min (maxEntry demo (blockFeed demo (xe 1 0) (1 / 100)) (blockNominal demo (xe 1 0) (1 / 100)))
          (maxAllowable (-blockAcc demo (xe 1 0) (distance (xe 1 0))) minSpeed (distance (xe 1 0))) /
        blockNominal demo (xe 1 0) (1 / 100))
      (safeSpeed demo (blockFeed demo (xe 1 0) (1 / 100)) (blockNominal demo (xe 1 0) (1 / 100)) /
        blockNominal demo (xe 1 0) (1 / 100))
    rw [t2, t3, t4, t6]
    dsimp only
    rw [hd, n1, n2, ha, hm, min_eq_left hA]
    exact ⟨rfl, rfl, rfl, rfl⟩
  obtain ⟨b, hb, b1, b2, b3, b4⟩ := hb
  rw [hb]
  show (trapezoid b (b.entry / b.nominal) (minSpeed / b.nominal)).distance <
    (trapezoid b (b.entry / b.nominal) (minSpeed / b.nominal)).decAfter
  rw [(trapezoid_same _ _ _).2.1, b1]
  unfold trapezoid accDistance minSpeed
  rw [b1, b2, b3, b4]
  norm_num

/-- A short move, after which the jerk is set to zero, and a move back. -/
noncomputable def turn1 : Calc := setMaxXyJerk (plan { demo with acc := 1 } (xe (11 / 20000) 0) 1 0) 0
noncomputable def turn2 : Calc := plan turn1 (xe 0 0) 1 1

theorem exit_planned (l : List Block) : exit (planned l) = exit l := by
  cases l with
  | nil => rfl
  | cons b rest =>
    have key : ∀ (b : Block) (l : List Block), exit (recalculate (b :: l)) = b.entry := by
      intro b l
      cases l with
      | nil => exact trapezoid_entry _ _ _
      | cons n later =>
        unfold recalculate
        show (if _ then _ else _ : Block).entry = b.entry
        split_ifs
        · exact trapezoid_entry _ _ _
        · rfl
    exact key b _

/-- **C40**: without the condition of `C40_motion` on the least speed the planned speeds may be out of reach. Here the first block
is entered with 0.06 mm/s and to be left with 0 mm/s, for which it is too short: to stop from a speed `v` with
the acceleration `a` takes `v² / 2a`. -/
theorem C40_motion_counterexample : Reach turn2 ∧
    ∃ b n, planned turn2.blocks = [b, n] ∧ b.initial = 3 / 50 ∧ b.final = 0 ∧
      b.initial ^ 2 > b.final ^ 2 + 2 * b.acc * b.distance := by
  have hc : Config { demo with acc := 1 } := by constructor <;> norm_num [demo, minSpeed]
  have r0 : Reach { demo with acc := 1 } := .init hc rfl rfl
  have hx : (11 / 20000 : ℝ) ≠ 0 := by norm_num
  have hp0 : ({ demo with acc := 1 } : Calc).pos = xe 0 0 := demo_pos
  have e0 : deltaTo { demo with acc := 1 } (xe (11 / 20000) 0) = xe (11 / 20000) 0 := by
    rw [delta_xe _ 0 _ 0 0 hp0]; norm_num
  have t0 : ¬ travel (deltaTo { demo with acc := 1 } (xe (11 / 20000) 0)) ≤ 0 := by rw [e0]; exact travel_xe _ 0 hx
  have m0 : Move { demo with acc := 1 } (xe (11 / 20000) 0) 1 :=
    move_xe hp0 (by norm_num) (by unfold minSpeed; norm_num) (by simp [demo])
  have r1 : Reach turn1 :=
    .step (.setMaxXyJerk 0) (.step (.plan _ _ _) r0 (Or.inr m0)) (le_refl _)
  obtain ⟨n1, n2⟩ := nominal_xe (c := { demo with acc := 1 }) (x := 11 / 20000) (v := 1) hx (by norm_num)
    (by norm_num [demo]) (by norm_num [demo]) (by norm_num [demo])
  have habs : |(11 / 20000 : ℝ)| = 11 / 20000 := abs_of_pos (by norm_num)
  rw [habs, div_self hx, one_mul] at n2
  have p1 : turn1 = { demo with
      acc := 1, xyJerk := 0
      prevFeed := xe 1 0
      prevNominal := 1
      pos := xe (11 / 20000) 0
      blocks := [newBlock { demo with acc := 1 } (xe (11 / 20000) 0) 1 0] } := by
    unfold turn1
    rw [plan_move t0, e0, n1, n2]
    rfl
  have hp1 : turn1.pos = xe (11 / 20000) 0 := by rw [p1]
  have e1 : deltaTo turn1 (xe 0 0) = xe (-(11 / 20000)) 0 := by
    rw [delta_xe _ _ _ _ _ hp1]; norm_num
  have hx' : (-(11 / 20000) : ℝ) ≠ 0 := by norm_num
  have t1 : ¬ travel (deltaTo turn1 (xe 0 0)) ≤ 0 := by rw [e1]; exact travel_xe _ 0 hx'
  have m1 : Move turn1 (xe 0 0) 1 :=
    move_xe hp1 (by norm_num) (by unfold minSpeed; norm_num) (by rw [p1]; simp [demo])
  have r2 : Reach turn2 := .step (.plan _ _ _) r1 (Or.inr m1)
  obtain ⟨n3, n4⟩ := nominal_xe (c := turn1) (x := -(11 / 20000)) (v := 1) hx' (by norm_num)
    (by rw [p1]; norm_num [demo]) (by rw [p1]; norm_num [demo]) (by rw [p1]; norm_num [demo])
  rw [abs_neg, habs, neg_div, div_self hx, mul_one] at n4
  obtain ⟨_, f0, _, d0, _, a0, me0⟩ := newBlock_spec hc (feature := 0) m0 t0
  obtain ⟨_, _, _, _, _, _, me1⟩ := newBlock_spec r1.inv.config (feature := 1) m1 t1
  have hb : turn2.blocks = [newBlock { demo with acc := 1 } (xe (11 / 20000) 0) 1 0,
      newBlock turn1 (deltaTo turn1 (xe 0 0)) 1 1] := by
    unfold turn2
    rw [plan_move t1]
    rw [show turn1.blocks = [newBlock { demo with acc := 1 } (xe (11 / 20000) 0) 1 0] by rw [p1]]
    rfl
  rw [e0] at f0 d0 a0 me0
  rw [n1, n2] at me0
  rw [e1, n3, n4] at me1
  rw [distance_xe _ 0 hx, habs] at d0 a0
  have ha0 : blockAcc { demo with acc := 1 } (xe (11 / 20000) 0) (11 / 20000) = 1 := by
    unfold blockAcc; norm_num [demo, xe0, xe1, xe2, xe3]
  have hm0 : maxEntry { demo with acc := 1 } (xe 1 0) 1 = 1 := by
    unfold maxEntry safeSpeed; norm_num [demo, xe0, xe1, xe2, xe3]
  have hm1 : maxEntry turn1 (xe (-1) 0) 1 = 0 := by
    rw [p1]
    unfold maxEntry junctionFactor; norm_num [demo, xe0, xe1, xe2, xe3]
  have hA : maxAllowable (-1) minSpeed (11 / 20000) = 3 / 50 := by
    unfold maxAllowable minSpeed
    rw [show (1 / 20 * (1 / 20) - 2 * (-1) * (11 / 20000) : ℝ) = (3 / 50) ^ 2 by norm_num, Real.sqrt_sq (by norm_num)]
  rw [ha0] at a0
  rw [hm0] at me0
  rw [hm1] at me1
  have hentry : (newBlock { demo with acc := 1 } (xe (11 / 20000) 0) 1 0).entry = 3 / 50 := by
    rw [f0, a0, d0, me0, hA]; norm_num
  have hmoves := C40_moves r2
  have hex := exit_planned turn2.blocks
  refine ⟨r2, ?_⟩
  rw [e1] at hb
  rw [hb] at hmoves hex
  rw [hb]
  generalize hpl : planned [newBlock { demo with acc := 1 } (xe (11 / 20000) 0) 1 0,
      newBlock turn1 (xe (-(11 / 20000)) 0) 1 1] = l at *
  cases hmoves with
  | @cons _ b _ rest h1 h2 =>
    cases h2 with
    | @cons _ n _ rest h3 h4 =>
      cases h4
      have hpl' : planned turn2.blocks = [] ++ b :: [n] := by rw [hb, hpl]; rfl
      have hpl'' : planned turn2.blocks = [b] ++ n :: [] := by rw [hb, hpl]; rfl
      obtain ⟨q1, q2, q3, _⟩ := C40_entry r2 hpl'
      obtain ⟨q4, q5, q6, q7, _⟩ := C40_entry r2 hpl''
      have hi : b.initial = 3 / 50 := by
        rw [q1, ← hentry]; exact hex
      have hf : b.final = 0 := by
        rw [q2]
        rw [h3.2.2.2.2, me1] at q7
        exact le_antisymm q7 q6
      refine ⟨b, n, rfl, hi, hf, ?_⟩
      rw [hi, hf, h1.2.2.2.1, h1.2.1, a0, d0]
      norm_num

/-- **C56** does not hold for moves that extrude more than they move: the acceleration becomes greater than the wanted
one, and the feeder is accelerated beyond its limit. -/
theorem C56_acceleration_counterexample : Reach demo ∧ Move demo (xe 1 4) 20 ∧
    let b := newBlock demo (deltaTo demo (xe 1 4)) 20 0
    b.acc > demo.acc ∧ b.acc * (|4| / b.distance) > demo.maxAcc 3 := by
  have e0 : deltaTo demo (xe 1 4) = xe 1 4 := by rw [delta_xe demo 0 1 0 4 demo_pos]; norm_num
  have hm : Move demo (xe 1 4) 20 :=
    move_xe demo_pos (by norm_num) (by unfold minSpeed; norm_num) (by unfold minSpeed; norm_num [demo])
  refine ⟨demo_reach, hm, ?_⟩
  obtain ⟨_, _, _, b2, _, b4, _⟩ := newBlock_spec demo_config (feature := 0) hm
    (by rw [e0]; exact travel_xe 1 4 one_ne_zero)
  dsimp only
  rw [b4, b2, e0, distance_xe 1 4 one_ne_zero]
  unfold blockAcc
  norm_num [demo, xe0, xe1, xe2, xe3]

end Verif.Time
