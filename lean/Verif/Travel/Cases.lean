import Verif.Travel.Props

/-! # Cases of C112 -/

namespace Verif.Travel

/-- Settings: retraction and hops are on. -/
def demoSets : Sets := ⟨true, true, true, 1000, 50, 0⟩

/-- A way with a point in between. -/
def demoComb : CombRes := ⟨true, [([⟨5000, 0⟩, ⟨5010, 0⟩], false)], false, false, false⟩

/-- Configurations from 100 on are travels. -/
def demo (comb : Bool) (s : Sets) (r : CombRes) : Env Nat Nat where
  travel n := 100 + n
  zOf _ := 0
  layer := 3
  prevExtruder := 0
  sets _ _ := s
  comb := comb
  combCalc _ _ _ _ _ _ := r
  moveIn _ _ q := some ⟨q.x + 100, q.y⟩
  len p := p.x.natAbs + p.y.natAbs
  start _ := ⟨0, 0⟩
  tool n := ⟨n == 1, ⟨7, 8⟩, n == 0, ⟨1, 2⟩, ⟨0, 0⟩⟩

def demoTravel : Nat → Bool := fun c => decide (100 ≤ c)

def line (x y : Int) (config : Nat) : Op Nat Nat := .extrude ⟨⟨x, y, 0⟩, config, 1, 1, 1, false, 1, 50, true⟩

/-- Lines with two extruders, with merged paths and a prime. -/
def demoOps : List (Op Nat Nat) :=
  [.inside true, .travel ⟨0, 0⟩ .automatic 0, line 9000 0 1, line 9000 9000 1, .simple ⟨9000, 9100⟩, .simple ⟨9000, 9200⟩, .mesh (some 4),
   line 0 9000 2, .travel ⟨10000, 10000⟩ .automatic 0, line 0 0 2, .extruder 1, .prime 5000, line 1 1 3, .extruder 0]

example : (∀ n, demoTravel ((demo true demoSets demoComb).travel n) = true) ∧ (∀ op ∈ demoOps, op.Ok demoTravel) ∧
    ((run (demo true demoSets demoComb) demoOps (initial 0)).paths.map fun x => (x.1, x.2.kind.config, x.2.points.length)) =
      [(0, 100, 1), (0, 1, 2), (0, 100, 2), (0, 2, 1), (0, 100, 2), (0, 2, 1), (0, 100, 2), (1, 101, 1), (1, 3, 1), (1, 101, 2)] ∧
    (demoOps.foldl (ask (demo true demoSets demoComb)) ⟨none, 0, none, []⟩).segs.map (fun s => (s.extruder, s.from', s.to', s.kind.mesh)) =
      [(0, some ⟨0, 0, 0⟩, ⟨9000, 0, 0⟩, none), (0, some ⟨9000, 0, 0⟩, ⟨9000, 9000, 0⟩, none), (0, some ⟨9000, 9200, 0⟩, ⟨0, 9000, 0⟩, some 4),
       (0, some ⟨10000, 10000, 0⟩, ⟨0, 0, 0⟩, some 4), (1, some ⟨8, 5010, 0⟩, ⟨1, 1, 0⟩, some 4)] := by
  refine ⟨fun n => by simp [demo, demoTravel], ?_, by decide +kernel, by decide +kernel⟩
  intro op h
  simp only [demoOps, List.mem_cons, List.not_mem_nil, or_false] at h
  rcases h with rfl | rfl | rfl | rfl | rfl | rfl | rfl | rfl | rfl | rfl | rfl | rfl | rfl | rfl <;> trivial

/-- The plan before a travel. -/
def demoBefore : List (Op Nat Nat) := [.inside true, .travel ⟨0, 0⟩ .automatic 0, line 9000 0 1]

/-- The flags and the points of the last path. -/
def lastFlags (st : State Nat Nat) : Option (Bool × Bool × List P3) := st.cur.paths.head?.map fun p => (p.retract, p.hop, p.points)

-- the hypotheses of C112_retract: a short travel, one without combing, one with it that is not retracted and one that is because it is long
example : (run (demo true demoSets demoComb) demoBefore (initial 0)).last = some ⟨9000, 0, 0⟩ ∧
    lastFlags (run (demo true demoSets demoComb) (demoBefore ++ [.travel ⟨9500, 0⟩ .automatic 0]) (initial 0)) =
      some (false, false, [⟨5000, 0, 0⟩, ⟨9500, 0, 0⟩]) ∧
    lastFlags (run (demo false demoSets demoComb) (demoBefore ++ [.travel ⟨0, 0⟩ .automatic 0]) (initial 0)) =
      some (true, true, [⟨9100, 0, 0⟩, ⟨0, 0, 0⟩]) ∧
    lastFlags (run (demo true demoSets demoComb) (demoBefore ++ [.travel ⟨0, 0⟩ .automatic 0]) (initial 0)) =
      some (false, false, [⟨5000, 0, 0⟩, ⟨0, 0, 0⟩]) ∧
    lastFlags (run (demo true { demoSets with maxComb := 8000 } demoComb) (demoBefore ++ [.travel ⟨0, 0⟩ .automatic 0]) (initial 0)) =
      some (true, false, [⟨5000, 0, 0⟩, ⟨0, 0, 0⟩]) ∧
    lastFlags (run (demo true demoSets { demoComb with air := true }) (demoBefore ++ [.travel ⟨0, 0⟩ .automatic 0]) (initial 0)) =
      some (true, false, [⟨5000, 0, 0⟩, ⟨0, 0, 0⟩]) := by decide +kernel

-- the hypotheses of C112_kept, C112_first and C112_connect
example : (∃ front p, (run (demo true demoSets demoComb) demoBefore (initial 0)).paths = front ++ [(0, p)] ∧ p.done = false) ∧
    (∀ op ∈ ([.inside true] : List (Op Nat Nat)), op.Still) ∧ demoBefore = [.inside true] ++ .travel ⟨0, 0⟩ .automatic 0 :: [line 9000 0 1] ∧
    lastFlags (connect (demo true demoSets demoComb) (some (⟨9500, 0⟩, true)) true (run (demo true demoSets demoComb) demoBefore (initial 0))) =
      some (true, false, [⟨5000, 0, 0⟩, ⟨9500, 0, 0⟩]) := by
  refine ⟨⟨((run (demo true demoSets demoComb) demoBefore (initial 0)).paths.take 1), _, rfl, rfl⟩, ?_, rfl, by decide +kernel⟩
  intro op h
  simp only [List.mem_cons, List.not_mem_nil, or_false] at h
  rw [h]
  trivial

/-- A travel that must not be retracted is retracted if there is no combing. -/
theorem C112_not_retracted_counterexample : ∃ (env : Env Nat Nat) (ops : List (Op Nat Nat)) (p : P2) (path : Path Nat Nat),
    (run env (ops ++ [.travel p .notRetracted 0]) (initial 0)).cur.paths.head? = some path ∧ path.retract = true :=
  ⟨demo false demoSets demoComb, demoBefore, ⟨0, 0⟩, _, rfl, by decide +kernel⟩

/-- A travel for which a retraction is forced is retracted although retraction is off, if there is combing. -/
theorem C112_forced_counterexample : ∃ (env : Env Nat Nat) (ops : List (Op Nat Nat)) (p : P2) (path : Path Nat Nat),
    (∀ m n, (env.sets m n).enable = false) ∧
      (run env (ops ++ [.travel p .retracted 0]) (initial 0)).cur.paths.head? = some path ∧ path.retract = true :=
  ⟨demo true { demoSets with enable := false } demoComb, demoBefore, ⟨0, 0⟩, _, fun _ _ => rfl, rfl, by decide +kernel⟩

/-- The point inside of the model is reached only after the retraction: it is a point of the path that is retracted. -/
theorem C112_inside_counterexample : ∃ (env : Env Nat Nat) (ops : List (Op Nat Nat)) (p i : P2) (path : Path Nat Nat),
    (∀ q, (run env ops (initial 0)).last = some q → env.moveIn (run env ops (initial 0)).mesh 0 q.flat = some i) ∧
      (run env (ops ++ [.travel p .automatic 0]) (initial 0)).cur.paths.head? = some path ∧ path.retract = true ∧ path.points = [i.up, p.up] := by
  refine ⟨demo false demoSets demoComb, demoBefore, ⟨0, 0⟩, ⟨9100, 0⟩, _, ?_, rfl, by decide +kernel, by decide +kernel⟩
  intro q hq
  have : (run (demo false demoSets demoComb) demoBefore (initial 0)).last = some ⟨9000, 0, 0⟩ := by decide +kernel
  rw [this] at hq
  cases hq
  rfl

/-- Lines that are to be printed with different speeds of the fan are printed with the one of the last of them. -/
theorem C112_fan_counterexample : ∃ (env : Env Nat Nat) (e e' : Extrude Nat) (path : Path Nat Nat), e.fan ≠ e'.fan ∧
    (run env [.travel ⟨0, 0⟩ .automatic 0, .extrude e, .extrude e'] (initial 0)).cur.paths.head? = some path ∧
      path.points = [e.to', e'.to'] ∧ path.fan = e'.fan :=
  ⟨demo true demoSets demoComb, ⟨⟨1, 0, 0⟩, 1, 1, 1, 1, false, 1, 50, true⟩, ⟨⟨2, 0, 0⟩, 1, 1, 1, 1, false, 1, 100, true⟩, _,
    by decide +kernel, rfl, by decide +kernel, rfl⟩

/-- If a plan starts with a switch of extruders, its first extruder may have no path at all, although it is known where the plan starts. -/
theorem C112_empty_counterexample : ∃ (env : Env Nat Nat) (ops : List (Op Nat Nat)) (plan : Plan Nat Nat), (run env ops (initial 0)).firstDest.isSome = true ∧
    ((run env ops (initial 0)).cur :: (run env ops (initial 0)).earlier).getLast? = some plan ∧ plan.paths = [] :=
  ⟨demo true demoSets demoComb, [.extruder 1, .travel ⟨5, 5⟩ .automatic 0], _, by decide +kernel, rfl, rfl⟩

end Verif.Travel
