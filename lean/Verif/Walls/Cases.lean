import Verif.Walls.Props
import Mathlib.Tactic.IntervalCases

/-! # Cases of the order of walls -/

namespace Verif.Walls

open Verif.Order (Pt)

/-- A square wall around the origin. -/
def squareWall (inset : Nat) (r w : Int) : Wall := ⟨inset, false, true, [⟨⟨-r, -r⟩, w⟩, ⟨⟨r, -r⟩, w⟩, ⟨⟨r, r⟩, w⟩, ⟨⟨-r, r⟩, w⟩]⟩

/-- The walls of a square with a square hole: two on the outside and two around the hole, and a filler between them. -/
def frame : List (List Wall) :=
  [[squareWall 0 5000 400, squareWall 0 2000 400],
    [squareWall 1 4600 400, squareWall 1 2400 400, ⟨1, false, true, []⟩],
    [⟨2, true, false, [⟨⟨-3500, 0⟩, 300⟩, ⟨⟨-3500, 900⟩, 500⟩]⟩]]

/-- How far from the origin a wall is on the left. -/
def reach (w : Wall) : Int := match w.junctions with | [] => 0 | j :: _ => -j.p.x

/-- Their shapes: the larger ones contain the smaller ones. -/
def shapes (ws : List Wall) : Shapes :=
  ⟨fun i => match ws[i]? with | none => 0 | some w => if w.closed then 4 * reach w * reach w else 0,
    fun i j => match ws[i]?, ws[j]? with | some v, some w => decide (reach w < reach v) | _, _ => false⟩

/-- The walls as paths to be ordered. -/
def asPaths (ws : List Wall) : List Order.PathIn := ws.mapIdx fun i w => ⟨i, w.junctions.map (·.p), w.closed, false⟩

/-- An ordering of walls from a point on, with seams at the first junctions. -/
def ordering (ws : List Wall) (start : Pt) (reverse : Bool) : Order.Env :=
  ⟨asPaths ws, start, none, fun _ _ => 0, ⟨0, 0⟩, fun _ => 0, fun _ => [], id, true, false, false, reverse, false⟩

def printedInsets (ws : List Wall) (start : Pt) (reverse pack outerToInner : Bool) : Option (List (Nat × Bool × Int)) :=
  (requirements (neighbours (nest (shapes ws) ws).pairs) ws pack outerToInner).bind fun es =>
    match Order.optimize (ordering ws start reverse) es 10 with
    | .ok out => some (((ordering ws start reverse).printed out).filterMap fun i => (ws[i]?).map fun w => (w.inset, w.odd, reach w))
    | _ => none

/-- The walls that the only extruder prints, from the outside in: the empty one is left out. -/
def inward : List Wall := wallsToBeAdded (shouldReverse true true true) true frame

example : inward.map (fun w => (w.inset, reach w)) = [(0, 5000), (0, 2000), (1, 4600), (1, 2400), (2, 3500)] := by decide +kernel

example : (wallsToBeAdded (shouldReverse true true false) true frame).map (fun w => (w.inset, reach w)) =
      [(2, 3500), (1, 4600), (1, 2400), (0, 5000), (0, 2000)] ∧
    (wallsToBeAdded (shouldReverse false true true) false frame).map (fun w => (w.inset, reach w)) = [(2, 3500), (1, 4600), (1, 2400)] ∧
    (wallsToBeAdded (shouldReverse false false true) false frame).map (fun w => (w.inset, reach w)) = [(0, 5000), (0, 2000)] := by
  refine ⟨?_, ?_, ?_⟩ <;> decide +kernel

example : ∀ (k : Nat) (l : List Wall), frame[k]? = some l → ∀ w ∈ l, w.inset = k := by
  intro k l h
  have hk : k < 3 := (List.getElem?_eq_some_iff.mp h).1
  interval_cases k <;> simp only [frame, List.getElem?_cons_zero, List.getElem?_cons_succ, Option.some.injEq] at h <;> subst h <;> decide

/-- The walls that the only extruder prints, from the inside out. -/
def outward : List Wall := wallsToBeAdded (shouldReverse true true false) true frame

/-- By inset, in both directions. The filler comes after the walls of inset 1. -/
example : printedInsets inward ⟨-5000, -5000⟩ false true true =
      some [(0, false, 5000), (0, false, 2000), (1, false, 2400), (1, false, 4600), (2, true, 3500)] ∧
    printedInsets outward ⟨-5000, -5000⟩ true true false =
      some [(1, false, 4600), (1, false, 2400), (0, false, 2000), (2, true, 3500), (0, false, 5000)] := by
  refine ⟨?_, ?_⟩ <;> decide +kernel

/-- Optimized, in both directions: a wall around the hole only has to come after or before the outer wall of the hole. -/
example : printedInsets inward ⟨-5000, -5000⟩ false false true =
      some [(0, false, 5000), (1, false, 4600), (2, true, 3500), (0, false, 2000), (1, false, 2400)] ∧
    printedInsets outward ⟨-5000, -5000⟩ true false false =
      some [(1, false, 2400), (0, false, 2000), (2, true, 3500), (1, false, 4600), (0, false, 5000)] := by
  refine ⟨?_, ?_⟩ <;> decide +kernel

theorem ordering_sane {ws : List Wall} {start : Pt} {reverse : Bool} (h1 : Order.InRange start) (h2 : ∀ w ∈ ws, ∀ j ∈ w.junctions, Order.InRange j.p)
    (h3 : ∀ w ∈ ws, w.junctions.length < 2 ^ 63) : (ordering ws start reverse).Sane := by
  have hp : ∀ p ∈ asPaths ws, ∃ w ∈ ws, p.points = w.junctions.map (·.p) := by
    intro p hp
    unfold asPaths at hp
    obtain ⟨i, hi, rfl⟩ := List.mem_mapIdx.mp hp
    exact ⟨ws[i], List.getElem_mem _, rfl⟩
  refine ⟨?_, fun l => .refl l, by simp [ordering], h1, ?_, ?_, by simp [ordering]⟩
  · intro i p pos _ hne
    exact List.length_pos_iff.2 hne
  · intro p hpp q hq
    obtain ⟨w, hw, e⟩ := hp p hpp
    rw [e] at hq
    obtain ⟨j, hj, rfl⟩ := List.mem_map.mp hq
    exact h2 w hw j hj
  · intro p hpp
    obtain ⟨w, hw, e⟩ := hp p hpp
    rw [e, List.length_map]
    exact h3 w hw

/-- The conditions hold for these walls. -/
example : (ordering inward ⟨-5000, -5000⟩ false).Sane ∧ AreWalls (ordering inward ⟨-5000, -5000⟩ false) inward ∧
    (ordering inward ⟨-5000, -5000⟩ false).paths.length < 10 :=
  ⟨ordering_sane (by unfold Order.InRange; decide) (by unfold Order.InRange; decide +kernel) (by decide +kernel), ⟨by decide +kernel, by decide +kernel⟩,
    by decide +kernel⟩

/-- The filler is two steps from the outer walls. -/
example : Depth (shapes inward) inward 2 4 := by
  have a1 : Around (shapes inward) inward 0 2 := (nest_pairs 2 0).mp (by decide +kernel)
  have a2 : Around (shapes inward) inward 2 4 := (nest_pairs 4 2).mp (by decide +kernel)
  refine ⟨.step (.step (.outer (v := 0) (w := squareWall 0 5000 400) (by decide +kernel) rfl) (Or.inl a1)) (Or.inl a2), ?_⟩
  intro d h
  have h0 : ¬Steps (shapes inward) inward 0 4 := by
    intro h
    cases h with
    | outer hw h0 =>
      rw [show inward[4]? = some ⟨2, true, false, [⟨⟨-3500, 0⟩, 300⟩, ⟨⟨-3500, 900⟩, 500⟩]⟩ by decide +kernel] at hw
      simp only [Option.some.injEq] at hw
      rw [← hw] at h0
      simp at h0
  have h1 : ¬Steps (shapes inward) inward 1 4 := by
    intro h
    cases h with
    | step h hn =>
      rename_i u
      have hm : u ∈ neighbours (nest (shapes inward) inward).pairs 4 := mem_neighbours.mpr (Or.symm hn)
      rw [show neighbours (nest (shapes inward) inward).pairs 4 = [2] by decide +kernel, List.mem_singleton] at hm
      subst hm
      cases h with
      | outer hw h0 =>
        rw [show inward[2]? = some (squareWall 1 4600 400) by decide +kernel] at hw
        simp only [Option.some.injEq] at hw
        rw [← hw] at h0
        simp [squareWall] at h0
  by_contra hd
  have : d = 0 ∨ d = 1 := by omega
  rcases this with rfl | rfl
  · exact h0 h
  · exact h1 h

/-- The inner walls of a square, when the outer one is printed with another extruder. -/
def separate : List Wall :=
  wallsToBeAdded (shouldReverse false true true) false [[squareWall 0 5000 400], [squareWall 1 4600 400], [squareWall 2 4200 400]]

/-- C106 does not hold for the optimized order when the inner walls have an extruder of their own: there are no outer walls among those to be ordered,
so nothing is required. From a point outside the wall of inset 2 is printed before that of inset 1 although the direction is inward, from the center
it is the other way round although the direction is outward. Without optimization the direction is kept. -/
theorem C106_separate_counterexample : Around (shapes separate) separate 1 0 ∧
    requirements (neighbours (nest (shapes separate) separate).pairs) separate false true = some [] ∧
    printedInsets separate ⟨-5000, -5000⟩ true false true = some [(2, false, 4200), (1, false, 4600)] ∧
    printedInsets separate ⟨0, 0⟩ true false false = some [(1, false, 4600), (2, false, 4200)] ∧
    printedInsets separate ⟨-5000, -5000⟩ true true true = some [(1, false, 4600), (2, false, 4200)] := by
  refine ⟨(nest_pairs 0 1).mp (by decide +kernel), ?_, ?_, ?_, ?_⟩ <;> decide +kernel

/-- C106 does not hold by inset when there is no wall of an inset in between. -/
theorem C106_gap_counterexample : printedInsets [squareWall 0 5000 400, squareWall 2 4200 400] ⟨0, 0⟩ false true true =
    some [(2, false, 4200), (0, false, 5000)] := by decide +kernel

/-- With alternating walls the seam of a closed wall moves: the index is mirrored as for an open wall, but that of a closed wall does not depend on the
direction. Here the seam was to be at the second junction of a closed wall with four corners, of which the first is repeated at the end. -/
theorem C106_alternate_counterexample :
    let w : Wall := ⟨0, false, true, [⟨⟨0, 0⟩, 400⟩, ⟨⟨1000, 0⟩, 400⟩, ⟨⟨1000, 1000⟩, 400⟩, ⟨⟨0, 1000⟩, 400⟩, ⟨⟨0, 0⟩, 400⟩]⟩
    placed true 1 w 1 false = (3, true) ∧ w.junctions[1]?.map Junction.p = some ⟨1000, 0⟩ ∧ w.junctions[3]?.map Junction.p = some ⟨0, 1000⟩ ∧
      placed true 2 w 1 false = (1, false) := by decide +kernel

/-- A seam point on a wall that widens from 400 to 800 µm, a tenth of the way along. The widths are weighted the wrong way round: the new junction is
760 wide instead of 440. -/
theorem C106_width_counterexample :
    insertSeam [⟨⟨0, 0⟩, 400⟩, ⟨⟨1000, 0⟩, 800⟩, ⟨⟨1000, 1000⟩, 800⟩] 0 ⟨100, 0⟩ =
      some ([⟨⟨0, 0⟩, 400⟩, ⟨⟨100, 0⟩, 760⟩, ⟨⟨1000, 0⟩, 800⟩, ⟨⟨1000, 1000⟩, 800⟩], 1) := by decide +kernel

/-- Places within 5 µm of a junction, also across the end of the list. -/
example : insertSeam [⟨⟨0, 0⟩, 400⟩, ⟨⟨1000, 0⟩, 800⟩, ⟨⟨1000, 1000⟩, 800⟩] 2 ⟨3, 3⟩ =
      some ([⟨⟨0, 0⟩, 400⟩, ⟨⟨1000, 0⟩, 800⟩, ⟨⟨1000, 1000⟩, 800⟩], 0) ∧
    dist2 ⟨3, 3⟩ ⟨1000, 1000⟩ ≤ dist2 ⟨0, 0⟩ ⟨1000, 1000⟩ := by
  refine ⟨?_, ?_⟩ <;> decide +kernel

end Verif.Walls
