import Verif.Gyroid.Lemmas

/-! # Connected wavy infill: the properties -/

namespace Verif.Gyroid

open Spec

/-- Each connection leads along the outline from an end of a line past corners to the next end, and no end has two of them (apart from one over the begin of the outline). If all lines are in rows of their own, each connection is between different lines, and of two neighbouring ends one has a connection, unless they are of one line or of lines that are connected already. (If no more ends of lines are found on the outlines than there are.) -/
theorem C133_connections_partial (cs : List Chain) (polys : List (List (Pt × List End))) :
    ∃ cons, All (position cs) (OwnRows cs ∧ ∀ poly ∈ polys, ∀ x ∈ poly, ∀ e ∈ x.2, e.chain < cs.length) polys cons (connect cs polys)
      ∧ (OwnRows cs → (∀ poly ∈ polys, ∀ x ∈ poly, ∀ e ∈ x.2, e.chain < cs.length) → (∀ x ∈ cons.flatten, x.a.chain ≠ x.b.chain)
        ∧ (total polys ≤ 2 * cs.length → ∀ poly ∈ polys, ∀ (pre : List Stop) (e : End) (corners : List Pt) (f : End) (post : List Stop), route poly = pre ++ .stop e :: (corners.map .corner ++ .stop f :: post) → Served cons.flatten e f)) := by
  obtain ⟨cons, h1, h2, h3⟩ := outlines_ok cs (OwnRows cs ∧ ∀ poly ∈ polys, ∀ x ∈ poly, ∀ e ∈ x.2, e.chain < cs.length) polys [] (fun _ _ => none) (2 * cs.length)
    (fun _ i b k h => by cases h) id
  rw [place_position] at h1
  refine ⟨cons, h1, fun ha hb => ⟨h2 ⟨ha, hb⟩, fun ht poly hp pre e corners f post hr => ?_⟩⟩
  have h := h3 ⟨ha, hb⟩ (by exact_mod_cast ht) poly hp
  rw [hr, ends_append, List.nil_append] at h
  simp only [ends, ends_append, ends_corners, List.nil_append] at h
  rw [List.isChain_append] at h
  exact (List.isChain_cons_cons.1 h.2.1).1

/-- A triangle with ends of lines on its first side. -/
def triangle (es : List End) : List (Pt × List End) := [((0, 0), es), ((10000, 0), []), ((5000, 5000), [])]

/-- The connection over the begin can lead to an end that has one already. -/
theorem C133_twice_counterexample : ¬ ∀ (cs : List Chain) (polys : List (List (Pt × List End))) (e : End), OwnRows cs → total polys ≤ 2 * cs.length →
    (connect cs polys).countP (fun c => c.head? == some (position cs e) || c.getLast? == some (position cs e)) ≤ 1 := by
  intro h
  have := h [⟨(1000, 0), (4000, 0), 0⟩, ⟨(2000, 0), (3000, 0), 1⟩, ⟨(5000, 0), (6000, 0), 2⟩, ⟨(7000, 0), (8000, 0), 3⟩]
    [triangle [⟨0, false⟩, ⟨1, false⟩, ⟨1, true⟩, ⟨0, true⟩, ⟨2, false⟩, ⟨2, true⟩, ⟨3, false⟩, ⟨3, true⟩]] ⟨0, false⟩ (by
      intro i j c d hi hj hcd
      rcases i with _ | _ | _ | _ | i <;> rcases j with _ | _ | _ | _ | j <;> simp at hi hj <;> subst hi hj <;> simp_all) (by decide)
  revert this
  decide +kernel

/-- If two pieces are in one row, a line can be connected with itself. -/
theorem C133_itself_counterexample : ¬ ∀ (cs : List Chain) (polys : List (List (Pt × List End))) (i : Nat), total polys ≤ 2 * cs.length →
    ∀ c ∈ connect cs polys, ¬ (c.head? = some (position cs ⟨i, false⟩) ∧ c.getLast? = some (position cs ⟨i, true⟩)) := by
  intro h
  have := h [⟨(1000, 0), (6000, 0), 0⟩, ⟨(3000, 0), (4000, 0), 0⟩, ⟨(2000, 0), (5000, 0), 1⟩] [triangle [⟨0, false⟩, ⟨2, false⟩, ⟨1, false⟩, ⟨1, true⟩, ⟨2, true⟩, ⟨0, true⟩]] 1 (by decide)
  revert this
  decide +kernel

/-- Three lines can be connected to a loop. -/
theorem C133_loop_counterexample : ¬ ∀ (cs : List Chain) (polys : List (List (Pt × List End))), OwnRows cs → total polys ≤ 2 * cs.length →
    ¬ ∃ a ∈ connect cs polys, ∃ b ∈ connect cs polys, ∃ c ∈ connect cs polys, Links cs a 0 1 ∧ Links cs b 1 2 ∧ Links cs c 2 0 := by
  intro h
  have := h [⟨(1000, 0), (6000, 0), 0⟩, ⟨(2000, 0), (3000, 0), 1⟩, ⟨(4000, 0), (5000, 0), 2⟩] [triangle [⟨0, false⟩, ⟨1, false⟩, ⟨1, true⟩, ⟨2, false⟩, ⟨2, true⟩, ⟨0, true⟩]] (by
      intro i j c d hi hj hcd
      rcases i with _ | _ | _ | i <;> rcases j with _ | _ | _ | j <;> simp at hi hj <;> subst hi hj <;> simp_all) (by decide)
  revert this
  decide +kernel

end Verif.Gyroid
