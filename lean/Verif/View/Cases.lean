import Verif.View.Props

/-! # Concrete cases and counterexamples for the layer view -/

namespace Verif.View.Cases

open Verif.View Spec

def cv : Conv Int := ⟨id, 0⟩

/-- Two layers, with an extruder switch and a jump. -/
def first : Object Int :=
  ⟨0, 1,
    [.setLayer 0, .position ⟨0, 0, 200⟩, .line 1 ⟨10, 0, 200⟩ 4 2 30, .line 1 ⟨10, 0, 200⟩ 4 2 30, .position ⟨20, 0, 200⟩, .line 6 ⟨20, 9, 200⟩ 4 2 30,
      .layerDone 0 200 200, .setLayer 1, .position ⟨20, 9, 400⟩, .line 8 ⟨0, 0, 400⟩ 1 2 90, .setExtruder 1, .position ⟨0, 0, 400⟩,
      .line 2 ⟨5, 5, 400⟩ 4 2 30, .layerDone 1 400 200]⟩

def second : Object Int :=
  ⟨0, 0, [.setLayer 0, .position ⟨50, 0, 200⟩, .line 1 ⟨60, 0, 200⟩ 4 2 30, .layerDone 0 200 200]⟩

theorem first_clean : first.Clean 0 := by
  refine ⟨by decide, by simp [first, within], ?_⟩
  intro n h1 h2
  have h1 : (0 : Int) ≤ n := h1
  have h2 : n ≤ (1 : Int) := h2
  have : n = 0 ∨ n = 1 := by omega
  rcases this with rfl | rfl <;> decide

theorem second_clean : second.Clean 1 := by
  refine ⟨by decide, by simp [second, within], ?_⟩
  intro n h1 h2
  have h1 : (0 : Int) ≤ n := h1
  have h2 : n ≤ (0 : Int) := h2
  have : n = 0 := by omega
  subst this
  decide

example : ∃ xs, expected cv 0 0 0 [first, second] = some xs ∧ xs.length = 3 ∧ (xs.map fun x => (x.id, x.height, x.lines.length)) = [(0, 200, 2), (1, 400, 2), (2, 200, 1)] ∧
    ∃ st, runObjects cv { objects := 2 } [first.ops, second.ops] = some st ∧ st.data.layers = [] ∧ st.comp.types = [] ∧
      ∃ ms, ms.Perm st.sent ∧ List.Forall₂ Expect.Is xs ms := by
  obtain ⟨xs, h⟩ : ∃ xs, expected cv 0 0 0 [first, second] = some xs := Option.isSome_iff_exists.1 (by decide +kernel)
  refine ⟨xs, h, ?_, ?_, C116_view cv [first, second] (by simp) (by simp [first, second]) ⟨first_clean, second_clean, trivial⟩ xs h⟩
  · have : (expected cv 0 0 0 [first, second]).map List.length = some 3 := by decide +kernel
    rw [h] at this
    simpa using this
  · have : (expected cv 0 0 0 [first, second]).map (List.map fun x => (x.id, x.height, x.lines.length)) = some [(0, 200, 2), (1, 400, 2), (2, 200, 1)] := by
      decide +kernel
    rw [h] at this
    simpa using this

example : ∃ st, runObjects cv { objects := 1 } [first.ops] = some st ∧ st.sent.length = 2 := by
  obtain ⟨ws, hw⟩ : ∃ ws, wishes 0 0 none first.ops = some ws := Option.isSome_iff_exists.1 (by decide +kernel)
  obtain ⟨st, h1, h2, _⟩ := C116_object cv first first_clean ws hw
  exact ⟨st, h1, h2⟩

/-- The numbers and heights of the messages, and how many lines each shows. -/
def summary (st : St Int) : List (Int × Int × Nat) :=
  st.sent.map fun m => (m.id, m.height, (visible ((readSegments m.segments).getD [])).length)

/-- The travel to the next object is written before the layer is set: it is shown in that layer of the next object that has the number of the last layer of the
object before. If the next object is lower, a layer without height appears that no object has. -/
theorem C116_between_counterexample :
    (runObjects cv { objects := 2 }
      [[.setLayer 0, .position ⟨0, 0, 200⟩, .line 1 ⟨10, 0, 200⟩ 4 2 30, .layerDone 0 200 200,
        .setLayer 1, .position ⟨10, 0, 400⟩, .line 1 ⟨0, 0, 400⟩ 4 2 30, .layerDone 1 400 200],
       [.position ⟨0, 0, 0⟩, .line 8 ⟨50, 0, 5400⟩ 1 2 90, .setLayer 0, .position ⟨50, 0, 200⟩, .line 1 ⟨60, 0, 200⟩ 4 2 30, .layerDone 0 200 200]]).map summary =
      some [(0, 200, 1), (1, 400, 1), (3, 0, 1), (2, 200, 1)] := by decide +kernel

/-- The filler layers above a raft are left out when nothing is printed in them. The layers are counted, so the first layers of the next object get the numbers
of the last layers of the one before: layer 0 of the first object and the raft of the second one become one layer, with the height of the raft. -/
theorem C116_raft_counterexample :
    (runObjects cv { objects := 2 }
      [[.setLayer (-2), .position ⟨0, 0, 200⟩, .line 4 ⟨10, 0, 200⟩ 4 2 30, .layerDone (-2) 200 200,
        .setLayer 0, .position ⟨10, 0, 600⟩, .line 1 ⟨0, 0, 600⟩ 4 2 30, .layerDone 0 600 200],
       [.setLayer (-2), .position ⟨50, 0, 200⟩, .line 4 ⟨60, 0, 200⟩ 4 2 30, .layerDone (-2) 200 200,
        .setLayer 0, .position ⟨60, 0, 600⟩, .line 1 ⟨50, 0, 600⟩ 4 2 30, .layerDone 0 600 200]]).map summary =
      some [(-2, 200, 1), (0, 200, 2), (2, 600, 1)] := by decide +kernel

/-- After a switch of the extruder the position is told without the height, so the next line is shown as coming from the build plate. -/
theorem C116_switch_counterexample :
    (runObjects cv { objects := 1 }
      [[.setLayer 0, .position ⟨0, 0, 200⟩, .line 1 ⟨10, 0, 200⟩ 4 2 30] ++ switchOps 1 ⟨10, 0, 200⟩ ++ [.line 1 ⟨20, 0, 200⟩ 4 2 30]]).map
        (fun st => st.sent.flatMap fun m => ((readSegments m.segments).getD []).map fun s => (s.start, s.stop)) =
      some [((0, 0, 200), (10, 0, 200)), ((10, 0, 0), (20, 0, 200))] := by decide +kernel

/-- A group with only meshes that are no models is counted but never finished, so that no layer is sent at all. -/
theorem C116_no_model_counterexample :
    (processGroups cv { objects := 2 } [(true, first.ops), (false, [])]).map (fun st => (st.sent.length, st.data.layers.length)) = some (0, 2) := by decide +kernel

/-- What is sent after the last object, as the travel at the end of a print of one object after the other, never reaches the front-end. -/
theorem C116_end_counterexample :
    ((runObjects cv { objects := 1 } [second.ops]).bind fun st => (runOps cv st [.position ⟨0, 0, 5000⟩, .line 8 ⟨1, 1, 5000⟩ 1 2 90]).map flush).map
      (fun st => (summary st, st.data.layers.map fun m => (m.id, m.segments.length))) = some ([(0, 200, 1)], [(0, 1)]) := by decide +kernel

/-! ## Progress -/

def halves : List Rat := [0, 1 / 2, 5001 / 10000, 1]

theorem halves_rise : Rises halves := by
  refine ⟨⟨0, [1 / 2, 5001 / 10000, 1], rfl, by decide +kernel, by decide +kernel⟩, by decide +kernel⟩

example : let b := [0, 1 / 3].foldl sendProgress ([halves].foldl barObject { objects := 2 })
    b.sent = [0, 1 / 4, 1 / 2, 1 / 2, 2 / 3] := by decide +kernel

example : let b := ([0, 1 / 3] : List Rat).foldl sendProgress ([halves].foldl barObject { objects := 2 })
    b.sent.Pairwise (· ≤ ·) ∧ (∀ a ∈ b.sent, 0 ≤ a ∧ a ≤ 1) ∧
      ∃ p a, ([0, 1 / 3] : List Rat).getLast? = some p ∧ b.sent.getLast? = some a ∧ a ≤ (([halves].length : Nat) + p) / (2 : Nat) ∧
        (([halves].length : Nat) + p) / (2 : Nat) < a + 1 / (1000 * (2 : Nat)) :=
  C117_bar 2 [halves] [0, 1 / 3] (by decide) (by
    intro o ho
    rw [List.mem_singleton] at ho
    subst ho
    exact ⟨halves_rise, by decide +kernel⟩)
    ⟨⟨0, [1 / 3], rfl, by decide +kernel, by decide +kernel⟩, by decide +kernel⟩ (by decide +kernel)

example : ([halves, halves].foldl barObject { objects := 2 }).sent.getLast? = some 1 :=
  C117_full [halves, halves] (by simp) (by
    intro o ho
    have : o = halves := by simpa using ho
    subst this
    exact ⟨halves_rise, by decide +kernel⟩)

example : ∃ q, overall times 6 (1 / 2) = some q ∧ 0 ≤ q ∧ q ≤ 1 := (C117_overall times C117_stages.1 C117_stages.2.1).1 6 _ (by decide)

/-- A group without a model tells that it is finished but is not counted, so that the bar goes back when the next one begins, and it is not full at the end. -/
theorem C117_no_model_counterexample :
    (barGroup (barGroup { objects := 2 } false []) true [0, 1 / 2]).sent = [1 / 2, 0, 1 / 4, 1 / 2] := by decide +kernel

/-- The last value that was sent is not reset for a new object: an object that only tells its end is not noticed. -/
theorem C117_only_end_counterexample :
    ([[0, 1], [1]].foldl barObject { objects := 2 }).sent = [0, 1 / 2] := by decide +kernel

end Verif.View.Cases
