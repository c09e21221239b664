import Verif.Skin.Props
import Verif.Skin.InfillProps
import Verif.Volumes.Cases
import Mathlib.Tactic.NormNum
import Mathlib.Tactic.IntervalCases

/-! # Cases for skin and infill areas -/

namespace Verif.Skin

open Verif.Box (AABB)
open Verif.Volumes (Point Region WithinFlat times rect)

/-- Operations that change nothing. -/
def plain : Ops := ⟨fun _ r => r, fun _ r => r, id, id, id⟩

theorem plain_ok : plain.Ok :=
  ⟨fun _ _ _ _ h => h, fun _ _ _ _ h => h, fun _ _ _ _ h => h, fun _ _ _ _ h => h, fun _ _ h => h, fun _ _ h => h,
    fun _ _ h => h, fun _ _ h => h⟩

/-- A part that is a square with the given width. -/
def part (w : Int) : Part := ⟨rect 0 w 0 10, ⟨⟨0, 0⟩, ⟨w, 10⟩⟩, rect 1 (w - 1) 1 9⟩

theorem part_ok (w : Int) : (part w).inner ⊆ (part w).outline ∧ ∀ p ∈ (part w).outline, WithinFlat (part w).box p := by
  constructor
  · rintro p ⟨h1, h2, h3, h4⟩
    refine ⟨by linarith, by linarith, by linarith, by linarith⟩
  · rintro p ⟨h1, h2, h3, h4⟩
    simp only [part, WithinFlat]
    norm_num
    exact ⟨h1, h2, h3, h4⟩

theorem parts_ok (layers : List (List Part)) (h : ∀ m ∈ layers, ∀ q ∈ m, ∃ w, q = part w) : MeshOk layers := by
  intro m hm q hq
  obtain ⟨w, rfl⟩ := h m hm q hq
  exact part_ok w

/-! ## Skin and infill -/

/-- Two wide layers with two narrow ones on them, on a wide one. -/
def steps4 : List (List Part) := [[part 20], [part 20], [part 20], [part 10], [part 10]]

theorem steps4_ok : MeshOk steps4 := by
  apply parts_ok
  intro m hm q hq
  simp only [steps4, List.mem_cons, List.not_mem_nil, or_false] at hm
  rcases hm with rfl | rfl | rfl | rfl | rfl <;> simp only [List.mem_cons, List.not_mem_nil, or_false] at hq <;>
    exact ⟨_, hq⟩

def skinConfig : Config := ⟨1, 1, 1, 1, false, true, false, 0, 0, 0, 0, 0⟩

/-- On the layer below the step, what sticks out is skin and the rest is infill. -/
example : ((15, 5) : Point) ∈ (partAreas plain skinConfig steps4 2 (part 20)).1 ∧
    ((5, 5) : Point) ∈ (partAreas plain skinConfig steps4 2 (part 20)).2 := by
  constructor
  · rcases C68_cover plain skinConfig steps4 2 (part 20) (15, 5) (by norm_num [part, rect]) with h | h | ⟨_, h⟩
    · exact h
    · refine absurd ?_ (C68_hidden_partial plain skinConfig steps4 2 (part 20) plain_ok steps4_ok (by simp [steps4]) rfl rfl rfl
        (by decide) (by decide) (15, 5) h)
      refine ⟨by norm_num [part, rect], .inr (.inl ⟨1, le_rfl, le_rfl, ?_⟩)⟩
      rintro ⟨q, hq, hp⟩
      simp only [steps4, List.getD_cons_succ, List.getD_cons_zero, List.mem_cons, List.not_mem_nil, or_false] at hq
      subst hq
      norm_num [part, rect] at hp
    · by_contra hs
      exact h ⟨by norm_num [part, rect], hs⟩
  · rcases C68_cover plain skinConfig steps4 2 (part 20) (5, 5) (by norm_num [part, rect]) with h | h | ⟨_, h⟩
    · exfalso
      have hex : ((5, 5) : Point) ∉ Exposed skinConfig.top skinConfig.bottom skinConfig.initialBottom steps4 2 := by
        rintro (h | ⟨k, h1, h2, h3⟩ | ⟨k, h1, h2, _, h3⟩)
        · simp [skinConfig] at h
        · have : k = 1 := by simp only [skinConfig] at h2; omega
          subst this
          exact h3 ⟨part 10, by simp [steps4], by norm_num [part, rect]⟩
        · have : k = 1 := by simp only [skinConfig] at h2; omega
          subst this
          exact h3 ⟨part 20, by simp [steps4], by norm_num [part, rect]⟩
      rcases C68_needed_partial plain skinConfig steps4 2 (part 20) plain_ok steps4_ok (by simp [steps4]) rfl rfl rfl rfl rfl rfl
        (5, 5) h with ⟨_, h⟩ | h
      · exact hex h
      · exact h.1.2 h.1.1
    · exact h
    · exfalso
      refine h ⟨by norm_num [part, rect], fun h => ?_⟩
      have hex : ((5, 5) : Point) ∉ Exposed skinConfig.top skinConfig.bottom skinConfig.initialBottom steps4 2 := by
        rintro (h | ⟨k, h1, h2, h3⟩ | ⟨k, h1, h2, _, h3⟩)
        · simp [skinConfig] at h
        · have : k = 1 := by simp only [skinConfig] at h2; omega
          subst this
          exact h3 ⟨part 10, by simp [steps4], by norm_num [part, rect]⟩
        · have : k = 1 := by simp only [skinConfig] at h2; omega
          subst this
          exact h3 ⟨part 20, by simp [steps4], by norm_num [part, rect]⟩
      rcases C68_needed_partial plain skinConfig steps4 2 (part 20) plain_ok steps4_ok (by simp [steps4]) rfl rfl rfl rfl rfl rfl
        (5, 5) h with ⟨_, h⟩ | h
      · exact hex h
      · exact h.1.2 h.1.1

/-! ## Roofing and flooring -/

/-- Everything is within the build plate. -/
def fillConfig (roofing flooring : Nat) : FillConfig := ⟨roofing, true, flooring, true, false, 0, 0, 0, Set.univ⟩

/-- A plate two layers thick that hangs in the air. -/
def plate : List (List Part) := [[], [], [part 20], [part 20]]

theorem plate_ok : MeshOk plate := by
  apply parts_ok
  intro m hm q hq
  simp only [plate, List.mem_cons, List.not_mem_nil, or_false] at hm
  rcases hm with rfl | rfl | rfl | rfl <;> simp only [List.mem_cons, List.not_mem_nil, or_false] at hq <;>
    exact ⟨_, hq⟩

theorem plate_solid (l : Nat) : Solid plate l (5, 5) ↔ l = 2 ∨ l = 3 := by
  constructor
  · rintro ⟨q, hq, _⟩
    match l with
    | 0 => simp [plate] at hq
    | 1 => simp [plate] at hq
    | 2 => exact .inl rfl
    | 3 => exact .inr rfl
    | n + 4 =>
      rw [List.getD_eq_getElem?_getD, List.getElem?_eq_none (by simp [plate])] at hq
      simp at hq
  · rintro (rfl | rfl)
    · exact ⟨part 20, by simp [plate], by norm_num [part, rect]⟩
    · exact ⟨part 20, by simp [plate], by norm_num [part, rect]⟩

/-- With one layer of roofing and of flooring the upper layer is roofing and the lower one flooring. -/
example : ((5, 5) : Point) ∈ (fill plain (fillConfig 1 1) (outlineOn plate (part 20).box) 3 (part 20).inner).roofing ∧
    ((5, 5) : Point) ∈ (fill plain (fillConfig 1 1) (outlineOn plate (part 20).box) 2 (part 20).inner).flooring := by
  constructor
  · rw [C69_roofing plain (fillConfig 1 1) plate 3 (part 20) _ plain_ok plate_ok (by simp [plate]) rfl rfl rfl rfl (5, 5)
      (by norm_num [part, rect]) (by norm_num [part, rect]) trivial]
    refine ⟨rfl, fun h => ?_, fun _ => (plate_solid _).2 (.inl rfl), fun _ => .inr fun k h1 h2 => ?_⟩
    · have := (plate_solid _).1 (h 1 le_rfl le_rfl)
      omega
    · have : k = 1 := by simp only [fillConfig] at h2; omega
      subst this
      exact (plate_solid _).2 (.inl rfl)
  · rw [C69_flooring plain (fillConfig 1 1) plate 2 (part 20) _ plain_ok plate_ok (by simp [plate]) rfl rfl rfl (5, 5)
      (by norm_num [part, rect]) (by norm_num [part, rect]) trivial]
    refine ⟨rfl, ?_, fun _ => .inr fun h => ?_⟩
    · rintro (h | h)
      · simp [fillConfig] at h
      · have := (plate_solid _).1 (h 1 le_rfl le_rfl)
        omega
    · have := (plate_solid _).1 h
      omega

/-- The hypotheses of the cover theorem hold there. -/
example : ((5, 5) : Point) ∈ (fill plain (fillConfig 1 1) (outlineOn plate (part 20).box) 3 (part 20).inner).skin ∨
    ((5, 5) : Point) ∈ (fill plain (fillConfig 1 1) (outlineOn plate (part 20).box) 3 (part 20).inner).roofing ∨
    ((5, 5) : Point) ∈ (fill plain (fillConfig 1 1) (outlineOn plate (part 20).box) 3 (part 20).inner).flooring :=
  C69_cover_single plain (fillConfig 1 1) plate 3 (part 20) _ plain_ok plate_ok (by simp [plate]) rfl le_rfl le_rfl (5, 5)
    (by norm_num [part, rect]) (by norm_num [part, rect]) trivial

/-- With two layers of flooring the upper layer of the plate is not filled at all. -/
theorem C69_hole_counterexample : ∃ (ops : Ops) (c : FillConfig) (layers : List (List Part)) (l : Nat) (q : Part) (p : Point),
    ops.Ok ∧ MeshOk layers ∧ q ∈ layers.getD l [] ∧ c.gaps = false ∧ 0 ≤ c.overlap ∧ p ∈ q.inner ∧ p ∈ c.plate ∧
    p ∉ (fill ops c (outlineOn layers q.box) l q.inner).skin ∧ p ∉ (fill ops c (outlineOn layers q.box) l q.inner).roofing ∧
    p ∉ (fill ops c (outlineOn layers q.box) l q.inner).flooring := by
  have h1 : ¬ SolidBelow plate 3 2 (5, 5) := by
    rintro (h | h)
    · omega
    · have := (plate_solid _).1 (h 2 (by omega) le_rfl)
      omega
  refine ⟨plain, fillConfig 1 2, plate, 3, part 20, (5, 5), plain_ok, plate_ok, by simp [plate], rfl, le_rfl,
    by norm_num [part, rect], trivial, ?_, ?_, ?_⟩
  · intro h
    have h2 : ((5, 5) : Point) ∈ (divide plain (fillConfig 1 2) (outlineOn plate (part 20).box) 3 (part 20).inner).skin := h.1.1
    have h3 : ((5, 5) : Point) ∈ filledBelow (fillConfig 1 2) (outlineOn plate (part 20).box) 3 := h2.2
    exact h1 ((mem_filledBelow (fillConfig 1 2) rfl plate_ok (by simp [plate]) (by norm_num [part, rect]) (by decide) trivial).1 h3)
  · rw [C69_roofing plain (fillConfig 1 2) plate 3 (part 20) _ plain_ok plate_ok (by simp [plate]) rfl rfl rfl rfl (5, 5)
      (by norm_num [part, rect]) (by norm_num [part, rect]) trivial]
    exact fun h => h1 (h.2.2.2 rfl)
  · rw [C69_flooring plain (fillConfig 1 2) plate 3 (part 20) _ plain_ok plate_ok (by simp [plate]) rfl rfl rfl (5, 5)
      (by norm_num [part, rect]) (by norm_num [part, rect]) trivial]
    rintro ⟨_, _, h⟩
    rcases h rfl with h | h
    · have := (plate_solid _).1 (h 1 le_rfl le_rfl)
      omega
    · exact h ((plate_solid _).2 (.inl rfl))

/-! ## Outer surfaces -/

example : ((5, 5) : Point) ∈ (outerSurfaces (outlineOn plate (part 20).box) 3 (part 20).outline).1 := by
  rw [(C70_surfaces_partial plate plate_ok 3 (part 20) (by simp [plate]) _).1]
  refine ⟨by norm_num [part, rect], fun h => ?_⟩
  have := (plate_solid _).1 h
  omega

/-- A surface with nothing below is not among the lowest surfaces, and one with a layer below is. -/
theorem C70_bottom_counterexample : ∃ (layers : List (List Part)) (q : Part) (p : Point), MeshOk layers ∧ p ∈ q.outline ∧
    (∃ l, 0 < l ∧ q ∈ layers.getD l [] ∧ ¬ Solid layers (l - 1) p ∧
      p ∉ (outerSurfaces (outlineOn layers q.box) l q.outline).2) ∧
    ∃ l, 0 < l ∧ q ∈ layers.getD l [] ∧ Solid layers (l - 1) p ∧ p ∈ (outerSurfaces (outlineOn layers q.box) l q.outline).2 := by
  have hin : ((5, 5) : Point) ∈ (part 20).outline := by norm_num [part, rect]
  refine ⟨plate, part 20, (5, 5), plate_ok, hin, ⟨2, by omega, by simp [plate], fun h => ?_, fun h => ?_⟩,
    3, by omega, by simp [plate], (plate_solid _).2 (.inl rfl), ?_⟩
  · have := (plate_solid _).1 h
    omega
  · exact h.2 ((outlineOn_iff plate_ok (by simp [plate] : part 20 ∈ plate.getD 2 []) 3 hin).2 ((plate_solid _).2 (.inr rfl)))
  · refine ⟨hin, fun h => ?_⟩
    have := (plate_solid _).1 (outlineOn_solid h)
    omega

/-! ## Gradual infill -/

/-- A part with infill in all of a square. -/
def ipart (w : Int) : InfillPart := ⟨rect 0 w 0 10, rect 0 w 0 10, ⟨⟨0, 0⟩, ⟨w, 10⟩⟩⟩

theorem ipart_box (w : Int) : ∀ p ∈ (ipart w).own, WithinFlat (ipart w).box p := by
  rintro p ⟨h1, h2, h3, h4⟩
  simp only [ipart, WithinFlat]
  norm_num
  exact ⟨h1, h2, h3, h4⟩

/-- Two wide layers below four narrow ones. -/
def tower : List (List InfillPart) := [[ipart 20], [ipart 20], [ipart 10], [ipart 10], [ipart 10], [ipart 10]]

theorem tower_ok : InfillOk tower := by
  intro m hm q hq
  simp only [tower, List.mem_cons, List.not_mem_nil, or_false] at hm
  rcases hm with rfl | rfl | rfl | rfl | rfl | rfl <;> simp only [List.mem_cons, List.not_mem_nil, or_false] at hq <;>
    (subst hq; exact ipart_box _)

def gradual (connected cross : Bool) : Gradual := ⟨200, 100, 2, 0, 0, false, connected, cross, 4⟩

theorem tower_in : FilledAbove tower 0 4 (5, 5) := by
  intro j h1 h2
  interval_cases j
  · exact ⟨ipart 20, by simp [tower], by norm_num [ipart, rect]⟩
  · exact ⟨ipart 10, by simp [tower], by norm_num [ipart, rect]⟩
  · exact ⟨ipart 10, by simp [tower], by norm_num [ipart, rect]⟩
  · exact ⟨ipart 10, by simp [tower], by norm_num [ipart, rect]⟩

theorem tower_out : ¬ FilledAbove tower 0 2 (15, 5) := by
  intro h
  obtain ⟨q, hq, hp⟩ := h 2 (by omega) le_rfl
  simp only [tower, List.getD_cons_succ, List.getD_cons_zero, List.mem_cons, List.not_mem_nil, or_false] at hq
  subst hq
  norm_num [ipart, rect] at hp

theorem gradual_count (a b : Bool) : (gradual a b).count = 2 := by
  cases a <;> cases b <;> decide

/-- Deep in the model the density is a quarter, and below the step it is full. -/
example : (∃ areas, densities (gradual false false) (infillOn tower (ipart 20).box) tower.length 0 10 (ipart 20).own = .ok areas ∧
      density 4 (5, 5) (printed (gradual false false) areas) = 1 / 2 ^ 2) ∧
    ∃ areas, densities (gradual false false) (infillOn tower (ipart 20).box) tower.length 0 10 (ipart 20).own = .ok areas ∧
      density 4 (15, 5) (printed (gradual false false) areas) = 1 / 2 ^ 0 :=
  ⟨C71_density_partial (gradual false false) tower 0 (ipart 20) (ipart 20).own 10 rfl rfl rfl (by decide) (by decide) (by decide)
      tower_ok (by simp [tower]) (fun _ h => h) le_rfl (by decide) (5, 5) (by norm_num [ipart, rect]) 2 le_rfl tower_in
      (fun h => absurd h (lt_irrefl 2)),
    C71_density_partial (gradual false false) tower 0 (ipart 20) (ipart 20).own 10 rfl rfl rfl (by decide) (by decide) (by decide)
      tower_ok (by simp [tower]) (fun _ h => h) le_rfl (by decide) (15, 5) (by norm_num [ipart, rect]) 0 (by decide)
      (fun j h1 h2 => by omega) (fun _ => tower_out)⟩

example : ∃ areas, densities (gradual true true) (infillOn tower (ipart 20).box) tower.length 0 10 (ipart 20).own = .ok areas ∧
    density 4 (5, 5) (printed (gradual true true) areas) = 1 / 2 ^ 2 :=
  C71_cross (gradual true true) tower 0 (ipart 20) (ipart 20).own 10 rfl rfl rfl (by decide) (by decide) (by decide)
    tower_ok (by simp [tower]) (fun _ h => h) le_rfl (by decide) (5, 5) (by norm_num [ipart, rect]) 2 le_rfl tower_in
    (fun h => absurd h (lt_irrefl 2))

/-- With connected lines the density below the step is only a half. -/
example : ∃ areas, densities (gradual true false) (infillOn tower (ipart 20).box) tower.length 0 10 (ipart 20).own = .ok areas ∧
    density 4 (15, 5) (printed (gradual true false) areas) = 1 / 2 ^ 1 :=
  C71_connected_counterexample (gradual true false) tower 0 (ipart 20) (ipart 20).own 10 rfl rfl rfl (by decide) (by decide)
    (by decide) tower_ok (by simp [tower]) (fun _ h => h) le_rfl (by decide) (15, 5) (by norm_num [ipart, rect]) 0 (by decide)
    (fun j h1 h2 => by omega) tower_out ⟨(5, 5), by norm_num [ipart, rect], fun j h1 h2 => tower_in j h1 (by
      rw [gradual_count] at h2; omega)⟩

/-- A step of less than half a layer. -/
example : ∀ fuel, densities ⟨40, 100, 1, 0, 0, false, false, false, 4⟩ (infillOn tower (ipart 20).box) tower.length 0 fuel
    (ipart 20).own = .diverge := fun fuel =>
  C71_hang_counterexample ⟨40, 100, 1, 0, 0, false, false, false, 4⟩ tower 0 (ipart 20) (ipart 20).own fuel rfl (by decide)
    (5, 5) (by norm_num [ipart, rect]) le_rfl (by decide)

/-! ## Combined infill layers -/

def cpart (w : Int) : CombinePart := ⟨⟨⟨0, 0⟩, ⟨w, 10⟩⟩, rect 0 w 0 10, [rect 0 w 0 10]⟩

/-- Three layers, the uppermost of which is narrower. -/
def stack : List (List CombinePart) := [[cpart 20], [cpart 20], [cpart 10]]

def two : Combine := ⟨200, 100, 0, 0, 4⟩

theorem stack_fresh : ∀ m ∈ stack, ∀ q ∈ m, q.Fresh := by
  intro m hm q hq
  simp only [stack, List.mem_cons, List.not_mem_nil, or_false] at hm
  rcases hm with rfl | rfl | rfl <;> simp only [List.mem_cons, List.not_mem_nil, or_false] at hq <;> (subst hq; rfl)

theorem stack_one (p : Point) : ∀ m ∈ stack, times p (m.map CombinePart.area) ≤ 1 := by
  intro m hm
  simp only [stack, List.mem_cons, List.not_mem_nil, or_false] at hm
  have h : ∀ r : Region, times p [r] ≤ 1 := by
    intro r
    by_cases hr : p ∈ r
    · rw [Volumes.times_one p r hr]
    · rw [Volumes.times_zero p r hr]
      omega
  rcases hm with rfl | rfl | rfl <;> exact h _

/-- The second layer is filled once, also where the third one is narrower. -/
example : fills (5, 5) 1 (combine id two stack) = 1 ∧ fills (15, 5) 1 (combine id two stack) = 1 ∧
    fills (15, 5) 2 (combine id two stack) = 0 := by
  refine ⟨?_, ?_, ?_⟩
  · rw [C72_once_partial id two stack (fun _ _ h => h) stack_fresh _ (stack_one _)]
    exact Volumes.times_one _ _ (by norm_num [cpart, rect])
  · rw [C72_once_partial id two stack (fun _ _ h => h) stack_fresh _ (stack_one _)]
    exact Volumes.times_one _ _ (by norm_num [cpart, rect])
  · rw [C72_once_partial id two stack (fun _ _ h => h) stack_fresh _ (stack_one _)]
    exact Volumes.times_zero _ _ (by norm_num [cpart, rect])

/-- It is printed together with the third one where that is possible. -/
example : ∃ q ∈ (combine id two stack).getD 2 [], ((5, 5) : Point) ∈ q.combine.getD 1 ∅ := by
  refine C72_thick two stack stack_fresh (5, 5) (stack_one _) (by decide) (by decide) 2 (by decide) (by decide) (by decide) ?_
  intro j h1 h2
  have h2' : 2 < j + 2 := h2
  have h3 : j = 1 ∨ j = 2 := by omega
  rcases h3 with rfl | rfl
  · exact ⟨cpart 20, by simp [stack], by norm_num [cpart, rect], by simp only [WithinFlat, cpart]; norm_num⟩
  · exact ⟨cpart 10, by simp [stack], by norm_num [cpart, rect], by simp only [WithinFlat, cpart]; norm_num⟩

/-- A part where an infill mesh has taken everything. -/
def taken (w : Int) : CombinePart := { cpart w with combine := [∅] }

/-- A layer without own infill, because an infill mesh fills it, is filled from the layer above nevertheless. -/
theorem C72_mesh_counterexample : ∃ (c : Combine) (layers : List (List CombinePart)) (L : Nat) (p : Point),
    0 < L ∧ (∀ q ∈ layers.getD (L - 1) [], ∀ r ∈ q.combine, p ∉ r) ∧
    ∃ q ∈ (combine id c layers).getD L [], p ∈ q.combine.getD 1 ∅ := by
  refine ⟨two, [[cpart 20], [taken 20], [cpart 20]], 2, (5, 5), by omega, ?_, ?_⟩
  · intro q hq r hr
    simp only [List.getD_cons_succ, List.getD_cons_zero, List.mem_cons, List.not_mem_nil, or_false] at hq
    subst hq
    simp only [taken, List.mem_cons, List.not_mem_nil, or_false] at hr
    subst hr
    exact fun h => h
  · unfold combine
    rw [if_neg (by decide), if_neg (by decide)]
    dsimp only
    have e1 : two.amount = 2 := by decide
    have e2 : two.initialBottom + two.amount - 1 - (two.initialBottom + two.amount - 1) % two.amount = 0 := by decide
    rw [e2, e1]
    rw [combineFrom, if_pos (by decide), combineFrom, if_pos (by decide), combineFrom, if_neg (by decide)]
    have e3 : combineLayer id 2 0 0 1 [[cpart 20], [taken 20], [cpart 20]] = [[cpart 20], [taken 20], [cpart 20]] := by
      rw [combineLayer, if_neg (by decide)]
    rw [e3, combineLayer, if_pos (by decide)]
    dsimp only
    rw [combineLayer, if_neg (by decide)]
    obtain ⟨q, hq, h, _⟩ := thickenAll_thick (5, 5) 1 [cpart 20] [taken 20] (by
      intro q hq
      rw [List.mem_singleton] at hq
      subst hq
      rfl) ⟨cpart 20, by simp, by norm_num [cpart, rect], by simp only [WithinFlat, cpart]; norm_num⟩
      ⟨taken 20, by simp, by norm_num [cpart, taken, rect], by simp only [WithinFlat, taken, cpart]; norm_num⟩
    exact ⟨q, hq, h⟩

/-! ## Infill only as support -/

/-- The lower layer has infill in all of a square, the upper one only below a small area. -/
def arch : List (List InfillPart) := [[ipart 20], [{ ipart 10 with own := rect 0 2 0 10 }]]

example : Filled (infillSupport plain 0 arch) 0 (1, 1) ∧ Filled (infillSupport plain 0 arch) 0 (15, 1) ∧
    ¬ Filled (infillSupport plain 0 arch) 0 (5, 1) := by
  have htop : (infillSupport plain 0 arch).getD 1 [] = [{ ipart 10 with own := rect 0 2 0 10 }] := C73_top plain 0 arch 1 rfl
  obtain ⟨q', hq', _, _, _, h1, h2, h3⟩ := C73_support plain 0 arch 0 (by decide) (ipart 20) (by simp [arch]) (fun _ h => h)
    plain_ok le_rfl
  rw [htop] at h1 h2 h3
  refine ⟨⟨q', hq', ?_⟩, ⟨q', hq', ?_⟩, ?_⟩
  · exact h1 _ (by norm_num [ipart, rect]) ⟨_, List.mem_singleton_self _, by norm_num [rect]⟩
  · refine h2 _ (by norm_num [ipart, rect]) (by norm_num [plain, ipart, rect]) ?_
    rintro ⟨a, ha, hp⟩
    rw [List.mem_singleton] at ha
    subst ha
    norm_num [ipart, rect] at hp
  · rintro ⟨q, hq, hp⟩
    have hone : (infillSupport plain 0 arch).getD 0 [] = [q'] := by
      have := (infillSupport_get plain 0 arch 0 (by decide)).1
      rw [this] at hq' ⊢
      simp only [arch, List.getD_cons_zero, List.map_cons, List.map_nil, List.mem_singleton] at hq' ⊢
      rw [hq']
    rw [hone, List.mem_singleton] at hq
    subst hq
    rcases h3 _ hp with ⟨a, ha, hpa⟩ | ⟨h, _⟩
    · rw [List.mem_singleton] at ha
      subst ha
      norm_num [rect] at hpa
    · exact h ⟨_, List.mem_singleton_self _, by norm_num [ipart, rect]⟩

example : Filled (infillSupport plain 0 arch) 0 (1, 1) := by
  refine C73_column plain 0 arch 0 plain_ok le_rfl ?_ (1, 1) 1 (by decide) ?_ ?_
  · intro m hm q hq
    simp only [arch, List.mem_cons, List.not_mem_nil, or_false] at hm
    rcases hm with rfl | rfl <;> simp only [List.mem_cons, List.not_mem_nil, or_false] at hq <;> subst hq
    · exact fun _ h => h
    · rintro p ⟨h1, h2, h3, h4⟩
      exact ⟨h1, by push_cast; linarith, h3, h4⟩
  · rw [Nat.zero_add]
    unfold Filled
    rw [C73_top plain 0 arch 1 rfl]
    exact ⟨{ ipart 10 with own := rect 0 2 0 10 }, by simp [arch], by norm_num [rect]⟩
  · intro j hj
    have : j = 0 := by omega
    subst this
    exact ⟨ipart 20, by simp [arch], by norm_num [ipart, rect]⟩

end Verif.Skin
