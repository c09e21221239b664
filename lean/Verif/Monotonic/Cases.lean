import Verif.Monotonic.Props
import Mathlib.Tactic.IntervalCases

/-! # Cases for C95 -/

namespace Verif.Monotonic

/-- Printing to the right; lines up to 400 apart. -/
def toRight : Config := ⟨(1, 0), 400, (0, 0), false, id, fun _ l => l⟩

def line (x y x' y' : Int) : Path := ⟨[(x, y), (x', y')], false⟩

theorem toRight_fair : Fair toRight := ⟨fun _ => .refl _, fun _ _ _ h => h⟩

/-- Four lines, given in no order, and a square. -/
def four : List Path := [line 700 0 700 1000, line 0 0 0 1000, ⟨[(0, 0), (50, 0), (50, 50), (0, 50)], true⟩, line 350 1000 350 0, line 355 2000 355 3000]

theorem four_apart : Apart four := by
  intro i j a b hij ha hb hla hlb p hp q hq
  have hi : i < 5 := (List.getElem?_eq_some_iff.mp ha).1
  have hj : j < 5 := (List.getElem?_eq_some_iff.mp hb).1
  interval_cases i <;> interval_cases j <;> first | exact absurd rfl hij | skip
  all_goals
    simp only [four, List.getElem?_cons_zero, List.getElem?_cons_succ, Option.some.injEq] at ha hb
    subst ha
    subst hb
    first
    | exact absurd (Or.inl rfl) hla.1
    | exact absurd (Or.inl rfl) hlb.1
    | skip
  all_goals
    simp only [line, Path.front, Path.back, List.mem_cons, List.not_mem_nil, or_false, List.headD_cons, List.getLastD_cons, List.getLastD_nil] at hp hq
    rcases hp with rfl | rfl <;> rcases hq with rfl | rfl <;> decide

example : (optimize toRight four).map (·.1) = [1, 3, 0, 4, 2] := by decide +kernel
example : optimize toRight four = [(1, .first), (3, .first), (0, .first), (4, .first), (2, .first)] := by decide +kernel
example : ((optimize toRight four).map (·.1)).Perm (List.range 5) := (C95_once_partial toRight_fair four_apart).1
example : Before ((optimize toRight four).map (·.1)) 3 0 :=
  C95_monotonic_partial toRight_fair four_apart (by decide) rfl (i := 3) (j := 0) rfl rfl ⟨by unfold Loop; decide, by decide⟩ ⟨by unfold Loop; decide, by decide⟩
    (by unfold Adjacent Within; decide +kernel) (by decide +kernel)

/-- In two passes. -/
def twice : Config := { toRight with interlaced := true }

example : (optimize twice four).map (·.1) = [3, 4, 1, 0, 2] := by decide +kernel
example : ∃ (rows : List (List Nat)) (pass2 pass1 others : List Nat), Rows twice (fun i => four.getD i ⟨[], false⟩) rows ∧
      (optimize twice four).map (·.1) = pass2 ++ (pass1 ++ others) ∧
      pass1.Perm (everyOther true rows).flatten ∧ pass2.Perm (everyOther false rows).flatten := by
  obtain ⟨r, p2, p1, o, h1, h2, h3, h4, -⟩ := C95_passes_partial (c := twice) toRight_fair four_apart (by decide) rfl
  exact ⟨r, p2, p1, o, h1, h2, h3, h4⟩

/-! ## What goes wrong -/

/-- **Counterexample to C95.** The second of two lines that touch is next to another line; it is printed twice. -/
theorem C95_twice_counterexample :
    ∃ paths : List Path, paths.length = 3 ∧ Fair toRight ∧ (optimize toRight paths).map (·.1) = [0, 2, 1, 2] :=
  ⟨[line 0 0 0 1000, line 300 3000 200 4000, line 300 0 300 3000], rfl, toRight_fair, by decide +kernel⟩

/-- **Counterexample.** Of two lines that touch, the first one is printed from the common end to the free end if the common end is
closer to where the nozzle is, and the second one from the common end again. -/
theorem C95_string_counterexample :
    optimize { toRight with start := (0, 1000) } [line 0 0 0 1000, line 0 1000 500 1000] = [(0, .last), (1, .first)] := by decide +kernel

end Verif.Monotonic
