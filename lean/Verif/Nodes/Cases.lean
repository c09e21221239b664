import Verif.Nodes.Props

/-! # Concrete cases for C111 -/

namespace Verif.Nodes

/-- The assumptions about links, checked on a list of all elements. -/
def okList {P : Type} (inp : Input P) (all : List Nat) : Bool :=
  (inp.layers.zipIdx.all fun (es, l) => es.all fun e => (inp.elem e).layer == l) &&
  (inp.layers.flatten == all) &&
  (all.all fun e => (inp.elem e).parents.all fun p => all.contains p && (inp.elem p).layer == (inp.elem e).layer + 1) &&
  (all.all fun c => all.all fun d => (inp.elem c).parents.all fun e => !(inp.elem d).parents.contains e || c == d) &&
  inp.layers.all fun es => decide es.Nodup

theorem has_iff {P : Type} {inp : Input P} {all : List Nat} (h : inp.layers.flatten = all) (e : Nat) : inp.Has e ↔ e ∈ all := by
  rw [← h, List.mem_flatten]
  exact Iff.rfl

theorem ok_of {P : Type} {inp : Input P} {all : List Nat} (h : okList inp all = true) : inp.Ok := by
  simp only [okList, Bool.and_eq_true, List.all_eq_true, beq_iff_eq, Bool.or_eq_true, Bool.not_eq_true', List.contains_eq_mem, decide_eq_true_eq,
    decide_eq_false_iff_not] at h
  obtain ⟨⟨⟨⟨h1, h2⟩, h3⟩, h4⟩, h5⟩ := h
  have hm := has_iff h2
  refine ⟨fun l es hl e he => ?_, fun e p he hp => ?_, fun c d e hc hd h6 h7 => ?_, h5⟩
  · exact h1 (es, l) (by rw [List.mem_zipIdx_iff_getElem?]; exact hl) e he
  · have := h3 e ((hm e).1 he) p hp
    exact ⟨(hm p).2 this.1, this.2⟩
  · rcases h4 c ((hm c).1 hc) d ((hm d).1 hd) e h6 with h8 | h8
    · exact absurd h7 h8
    · exact h8

/-- A branch that forks, one that rests on the model on layer 4, and one that is too small. -/
def forest : Input Nat where
  elem e := match e with
    | 0 => ⟨0, [1], 9, false, false⟩
    | 1 => ⟨1, [2, 3], 9, false, false⟩
    | 2 => ⟨2, [], 9, false, false⟩
    | 3 => ⟨2, [4], 9, false, false⟩
    | 4 => ⟨3, [], 9, false, false⟩
    | 10 => ⟨1, [11], 9, false, false⟩
    | 11 => ⟨2, [12], 9, false, false⟩
    | 12 => ⟨3, [13], 9, false, false⟩
    | 13 => ⟨4, [], 9, false, false⟩
    | 20 => ⟨3, [21], 9, true, false⟩
    | 21 => ⟨4, [], 9, true, false⟩
    | 30 => ⟨4, [], 9, false, false⟩
    | _ => ⟨0, [], 0, false, false⟩
  layers := [[0], [1, 10], [2, 3, 11], [4, 12, 20], [13, 21, 30]]
  first _ := 100
  moved e p := max p 100 + e
  placed e := if e = 13 then some 7 else none
  fallback e := 1000 + e
  buildplate := true

def forestSt : State Nat where
  alive e := [0, 1, 10, 2, 3, 11, 4, 12, 20, 13, 21, 30].contains e
  point _ := none
  toBp e := decide (e < 5)
  gracious e := decide (e < 30)

theorem forest_ok : forest.Ok := ok_of (all := [0, 1, 10, 2, 3, 11, 4, 12, 20, 13, 21, 30]) (by decide +kernel)

theorem forest_start : Start forest forestSt :=
  ⟨fun e => by rw [has_iff (all := [0, 1, 10, 2, 3, 11, 4, 12, 20, 13, 21, 30]) (by decide +kernel)]; simp [forestSt], fun _ _ _ _ h => by cases h⟩

theorem forest_area : InAreas forest forestSt fun e p => p = 7 ∨ 100 ≤ p ∧ e ≤ p :=
  ⟨fun e he hl => by
      rw [has_iff (all := [0, 1, 10, 2, 3, 11, 4, 12, 20, 13, 21, 30]) (by decide +kernel)] at he
      have : ∀ e ∈ [0, 1, 10, 2, 3, 11, 4, 12, 20, 13, 21, 30], (100 : Nat) = 7 ∨ 100 ≤ 100 ∧ e ≤ 100 := by decide
      exact this e he,
    fun e q he => Or.inr ⟨by change 100 ≤ max q 100 + e; omega, by change e ≤ max q 100 + e; omega⟩, fun e p h => by
      change (if e = 13 then some 7 else none) = some p at h
      split at h <;> cases h
      exact Or.inl rfl,
    fun e he => Or.inr ⟨by change 100 ≤ 1000 + e; omega, by change e ≤ 1000 + e; omega⟩, fun _ _ _ h => by cases h⟩

/-- The result, on the elements: which are left and their points. -/
def show' (r : Option (State Nat)) (all : List Nat) : Option (List (Nat × Option Nat)) :=
  r.map fun st => (all.filter st.alive).map fun e => (e, st.point e)

theorem forest_run : show' (createNodes forest forestSt) [0, 1, 10, 2, 3, 11, 4, 12, 20, 13, 21, 30] =
    some [(0, some 100), (1, some 101), (2, some 103), (3, some 104), (4, some 108), (13, some 7), (30, some 1030)] := by decide +kernel

/-- C111_safe, C111_held, C111_area: the branches of `forest`. The one on the model rests on layer 4, and what was below it is deleted. -/
example : ∃ st', createNodes forest forestSt = some st' ∧ st'.alive 13 = true ∧ st'.alive 12 = false ∧ st'.alive 11 = false ∧ Rests forest st' 13 ∧
    GoesOn forest st' 4 := by
  obtain ⟨st', h⟩ := C111_safe forest forestSt forest_ok forest_start
  have h2 := forest_run
  rw [h] at h2
  simp only [show', Option.map_some, Option.some.injEq] at h2
  have hm : ∀ e q, (e, q) ∈ [(0, some 100), (1, some 101), (2, some 103), (3, some 104), (4, some 108), (13, some 7), (30, some 1030)] →
      st'.alive e = true ∧ st'.point e = q := by
    intro e q he
    rw [← h2, List.mem_map] at he
    obtain ⟨x, hx, he⟩ := he
    cases he
    exact ⟨(List.mem_filter.1 hx).2, rfl⟩
  have hn : ∀ e ∈ [0, 1, 10, 2, 3, 11, 4, 12, 20, 13, 21, 30],
      (∀ q, (e, q) ∉ [(0, some 100), (1, some 101), (2, some 103), (3, some 104), (4, some 108), (13, some 7), (30, some 1030)]) → st'.alive e = false := by
    intro e he hq
    rcases hh : st'.alive e with _ | _
    · rfl
    · refine absurd ?_ (hq (st'.point e))
      rw [← h2, List.mem_map]
      exact ⟨e, List.mem_filter.2 ⟨he, hh⟩, rfl⟩
  exact ⟨st', h, (hm 13 (some 7) (by simp)).1, hn 12 (by simp) (by simp), hn 11 (by simp) (by simp), ⟨7, (hm 13 _ (by simp)).2, Or.inl rfl⟩,
    ⟨3, (hm 3 (some 104) (by simp)).1, by decide⟩⟩

/-- C111_kept: the branch that forks reaches the first layer. -/
example : Rooted forest 4 ∧ forest.buildplate = true :=
  ⟨.up (c := 3) (.up (c := 1) (.up (c := 0) (.base ((has_iff (all := [0, 1, 10, 2, 3, 11, 4, 12, 20, 13, 21, 30]) (by decide +kernel) 0).2 (by simp)) rfl)
    (by decide)) (by decide)) (by decide), rfl⟩

/-- C111_no_gap: nothing is set in the beginning. -/
example : ∀ e, 0 < (forest.elem e).layer → forestSt.point e = none := fun _ _ => rfl

/-- A branch on three layers that may rest on the model on the uppermost. -/
def gap : Input Nat where
  elem e := match e with
    | 0 => ⟨0, [1], 9, false, false⟩
    | 1 => ⟨1, [2], 9, false, false⟩
    | 2 => ⟨2, [], 9, false, false⟩
    | _ => ⟨0, [], 0, false, false⟩
  layers := [[0], [1], [2]]
  first _ := 100
  moved e p := p + e
  placed e := if e = 2 then some 7 else none
  fallback e := 1000 + e
  buildplate := false

def gapSt (gracious : Bool) : State Nat := ⟨fun e => decide (e < 3), fun _ => none, fun _ => true, fun _ => gracious⟩

theorem gap_ok : gap.Ok := ok_of (all := [0, 1, 2]) (by decide +kernel)

theorem gap_start (g : Bool) : Start gap (gapSt g) :=
  ⟨fun e => by rw [has_iff (all := [0, 1, 2]) (by decide +kernel)]; simp [gapSt]; omega, fun _ _ _ _ h => by cases h⟩

/-- With another preference than the build plate, an element may be left below which the branch does not go on and where it does not end. -/
theorem C111_gap_counterexample : ∃ (inp : Input Nat) (st st' : State Nat) (e : Nat), inp.Ok ∧ Start inp st ∧ createNodes inp st = some st' ∧
    st'.alive e = true ∧ ¬ ((inp.elem e).layer = 0 ∨ GoesOn inp st' e ∨ Rests inp st' e) := by
  obtain ⟨st', h⟩ := C111_safe gap (gapSt true) gap_ok (gap_start true)
  have h2 : (createNodes gap (gapSt true)).map (fun st => (st.alive 0, st.alive 1, st.point 1)) = some (false, true, some 101) := by decide +kernel
  rw [h] at h2
  simp only [Option.map_some, Option.some.injEq, Prod.mk.injEq] at h2
  refine ⟨gap, gapSt true, st', 1, gap_ok, gap_start true, h, h2.2.1, ?_⟩
  rintro (h3 | ⟨c, hc, hc1⟩ | ⟨p, hp, hp1⟩)
  · exact absurd h3 (by decide)
  · have hh := (C111_held gap (gapSt true) st' gap_ok (gap_start true) h c hc).1
    rw [has_iff (all := [0, 1, 2]) (by decide +kernel)] at hh
    have : ∀ c ∈ [0, 1, 2], 1 ∈ (gap.elem c).parents → c = 0 := by decide
    rw [this c hh hc1, h2.1] at hc
    cases hc
  · rw [h2.2.2] at hp
    cases hp
    rcases hp1 with h3 | ⟨_, h3⟩
    · exact absurd h3 (by decide)
    · exact absurd h3 (by decide)

/-- And the point on the second layer may follow from one that the element on the first layer does not have any more. -/
theorem C111_follow_counterexample : ∃ (inp : Input Nat) (st st' : State Nat) (e p q : Nat), inp.Ok ∧ Start inp st ∧ createNodes inp st = some st' ∧
    st'.alive e = true ∧ p ∈ (inp.elem e).parents ∧ st'.point e = some q ∧ inp.placed p = none ∧ st'.point p ≠ some (inp.moved p q) := by
  obtain ⟨st', h⟩ := C111_safe gap (gapSt false) gap_ok (gap_start false)
  have h2 : (createNodes gap (gapSt false)).map (fun st => (st.alive 0, st.point 0, st.point 1)) = some (true, some 1000, some 101) := by
    decide +kernel
  rw [h] at h2
  simp only [Option.map_some, Option.some.injEq, Prod.mk.injEq] at h2
  exact ⟨gap, gapSt false, st', 0, 1, 1000, gap_ok, gap_start false, h, h2.1, by decide, h2.2.1, rfl, by rw [h2.2.2]; decide⟩

end Verif.Nodes
