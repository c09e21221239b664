import Verif.Mold.Props
import Verif.Support.Cases

/-! # Cases of molds and conical overhang -/

namespace Verif.Mold.Cases

open Verif.Volumes (Point Region)
open Verif.Support (Ops Near Disk dist2)
open Verif.Support.Cases (euclid euclid_ok euclid_in euclid_out rect disk_rect disk_le inner)

theorem round_ok : RoundOk euclid 0 where
  nonneg := le_rfl
  grow d r h := by
    have : (0 : Int) ≤ d := by exact_mod_cast h
    show _ ⊆ (if 0 ≤ d then Near d r else _)
    rw [if_pos this, sub_zero]
  grown d r h := by
    show (if 0 ≤ d then Near d r else _) ⊆ _
    rw [if_pos h]

theorem round_in {d : Int} (h : 0 ≤ d) (r : Region) : euclid.round d r = Near d r := if_pos h

/-! ## A cube

A cube on the layers 0 to 9, with a roof of 3 layers, next to a mesh that is printed as it is. -/

def cube : Mesh where
  enabled := true
  polys l := if l < 10 then rect 0 10000 0 10000 else ∅
  lines _ := ∅
  width := 5000
  inset := 168
  upright := false
  roof := 3

def ring : Mesh := { cube with enabled := false, polys := fun _ => rect 30000 40000 0 1000 }

/-- Next to the cube there is a wall of the mold, the cube itself is left open. -/
example : ((-4000, 5000) : Point) ∈ process euclid [cube, ring] 20 cube 5 ∧ ((1000, 1000) : Point) ∉ process euclid [cube, ring] 20 cube 5 := by
  constructor
  · have := C88_wall_partial round_ok [cube, ring] 20 cube rfl (by norm_num [cube]) 5 (by decide) (-4000, 5000)
      ⟨(0, 5000), Or.inl (by norm_num [cube, rect]), by norm_num [dist2, cube]⟩
    refine this.resolve_right ?_
    rintro ⟨m, hm, he, hp⟩
    simp only [List.mem_cons, List.not_mem_nil, or_false] at hm
    rcases hm with rfl | rfl
    · norm_num [cube, rect] at hp
    · cases he
  · intro h
    exact Set.disjoint_left.mp (C88_cavity_partial (ops := euclid) [cube, ring] 20 cube cube rfl List.mem_cons_self rfl 5) h
      (Or.inl (by simp [cube, rect]; norm_num))

/-- The mold is closed on the layers 10 to 12. -/
example : ((1000, 1000) : Point) ∈ process euclid [cube, ring] 20 cube 12 := by
  have := C88_roof_partial round_ok [cube, ring] 20 cube rfl (by norm_num [cube]) 9 (by decide) (1000, 1000)
    (fun k hk _ => ⟨(1000, 1000), by simp [cube, rect, show k < 10 by omega]; norm_num, by norm_num [dist2]; positivity⟩)
    12 (by decide) (by decide) (by decide)
  refine this.resolve_right ?_
  rintro ⟨m, hm, he, hp⟩
  simp only [List.mem_cons, List.not_mem_nil, or_false] at hm
  rcases hm with rfl | rfl
  · simp [cube] at hp
  · cases he

/-- There is a disk in the wall, so the slope of the wall has a case. -/
example : Disk (2 * cube.inset) (-3000, 5000) ⊆ process euclid [cube, ring] 20 cube 6 := by
  intro q hq
  obtain ⟨h1, h2, h3, h4⟩ := disk_le (by norm_num [cube]) hq
  norm_num [cube] at h1 h2 h3 h4
  have := C88_wall_partial round_ok [cube, ring] 20 cube rfl (by norm_num [cube]) 6 (by decide) q
    ⟨(0, q.2), Or.inl (by simp [cube, rect]; constructor <;> linarith), by
      norm_num [dist2, cube]
      nlinarith⟩
  refine this.resolve_right ?_
  rintro ⟨m, hm, he, hp⟩
  simp only [List.mem_cons, List.not_mem_nil, or_false] at hm
  rcases hm with rfl | rfl
  · simp [cube, rect] at hp
    linarith
  · cases he

/-- A mold has points, so the theorem that these are near to the model has a case. -/
example : ∃ p, p ∈ process euclid [cube, ring] 20 cube 5 ∧ 0 ≤ cube.width ∧ 0 ≤ cube.inset := by
  refine ⟨(-4000, 5000), ?_, by decide, by decide⟩
  have := C88_wall_partial round_ok [cube, ring] 20 cube rfl (by norm_num [cube]) 5 (by decide) (-4000, 5000)
    ⟨(0, 5000), Or.inl (by norm_num [cube, rect]), by norm_num [dist2, cube]⟩
  refine this.resolve_right ?_
  rintro ⟨m, hm, he, hp⟩
  simp only [List.mem_cons, List.not_mem_nil, or_false] at hm
  rcases hm with rfl | rfl
  · norm_num [cube, rect] at hp
  · cases he

example : process euclid [cube, ring] 20 ring 5 = rect 30000 40000 0 1000 := C88_others_partial _ _ _ rfl _

/-! ### Molds that are not closed -/

/-- A plate of one layer, on layer 2, with upright walls. -/
def sheet : Mesh := { cube with polys := fun l => if l = 2 then rect 0 10000 0 10000 else ∅, upright := true }

/-- C88, counterexample: a plate that is thinner than the roof has no roof on the layer above it, if the walls are upright. The
roof is two layers higher. -/
theorem C88_roof_counterexample : ((5000, 5000) : Point) ∈ sheet.polys 2 ∧ ((5000, 5000) : Point) ∉ process euclid [sheet] 20 sheet 3 ∧
    ((5000, 5000) : Point) ∈ process euclid [sheet] 20 sheet 5 := by
  refine ⟨by simp [sheet, rect]; norm_num, ?_, ?_⟩
  · rw [process_mold rfl, loop_eq _ (by decide)]
    rintro ⟨h, -⟩
    unfold Mesh.shell at h
    simp only [sheet, cube, Mesh.outline, if_true] at h
    rw [round_in (by decide), round_in (by decide)] at h
    split at h
    · rcases h with h | h
      all_goals
        obtain ⟨q, hq, -⟩ := h
        simp at hq
    · obtain ⟨q, hq, -⟩ := h
      simp at hq
  · rw [process_mold rfl, loop_eq _ (by decide)]
    constructor
    · unfold Mesh.shell
      simp only [sheet, cube]
      rw [if_pos ⟨by decide, by decide⟩]
      refine Or.inr ?_
      rw [round_in (by decide)]
      exact ⟨(5000, 5000), by simp [rect]; norm_num, by norm_num [dist2]⟩
    · rintro ⟨m, hm, he, hp⟩
      rw [List.mem_singleton] at hm
      subst hm
      simp [sheet, cube, Mesh.outline] at hp

/-- A model that is a surface without a volume. -/
def surface : Mesh := { cube with polys := fun _ => ∅, lines := fun l => if l < 10 then rect 0 10000 0 400 else ∅, upright := true }

/-- C88, counterexample: above the lines of an open surface there is no roof at all. -/
theorem C88_surface_counterexample : ((5000, 200) : Point) ∈ surface.lines 9 ∧ ∀ l, 10 ≤ l → l < 20 →
    ((5000, 200) : Point) ∉ process euclid [surface] 20 surface l := by
  refine ⟨by simp [surface, rect]; norm_num, fun l h1 h2 => ?_⟩
  rw [process_mold rfl, loop_eq _ h2]
  rintro ⟨h, -⟩
  unfold Mesh.shell at h
  simp only [surface, cube, Mesh.outline, if_true, if_neg (show ¬ l < 10 by omega)] at h
  rw [round_in (by decide), round_in (by decide)] at h
  split at h
  · rcases h with ⟨q, hq, -⟩ | ⟨q, hq, -⟩
    · simp at hq
    · exact hq
  · obtain ⟨q, hq, -⟩ := h
    simp at hq

/-! ## A mushroom

A plate on the layers from 5 on, on a thin stem. The stem has a hole on layer 4 that the plate covers. -/

def plate : Region := rect 0 20000 0 20000
def hole : Region := rect 9500 10500 9500 10500
def mushroom (l : Nat) : Region := if 5 ≤ l then plate else rect 8000 12000 8000 12000 \ hole

/-- Layers of 0.2 mm and an angle of 50°. The stem has a small hole. -/
example : ((5000, 5000) : Point) ∈ conical euclid id 238 (fun l => if l = 4 then [hole] else []) mushroom 10 4 := by
  refine C89_overhang_partial euclid_ok id 238 (by decide) _ _ 10 4 (by decide) _ ?_ ?_
  · refine subset_trans ?_ (C89_keep_partial id 238 (by decide) _ mushroom 10 5 (by decide)).1
    exact disk_rect (by norm_num) (by norm_num)
  · intro h hm
    simp only [if_true, List.mem_singleton] at hm
    subst hm
    rw [Set.disjoint_left]
    intro q hq hh
    obtain ⟨h1, h2, -⟩ := disk_le (by norm_num) hq
    have : (9500 : Rat) ≤ q.1 := hh.1
    norm_num at h2
    linarith

example : Disjoint (conical euclid id 238 (fun l => if l = 4 then [hole] else []) mushroom 10 4) hole := by
  refine C89_hole_partial euclid_ok id 238 (by decide) _ _ 10 4 (by decide) hole (by simp) (by simp) ?_ ?_
  · exact Set.disjoint_left.mpr fun p hp hq => hp.2 hq
  · refine subset_trans ?_ (C89_keep_partial id 238 (by decide) _ mushroom 10 5 (by decide)).1
    rintro p ⟨h1, h2, h3, h4⟩
    exact ⟨by linarith, by linarith, by linarith, by linarith⟩

example : ∃ k, 2 ≤ k ∧ k < 10 ∧ ((8500, 8500) : Point) ∈ mushroom k :=
  C89_below_partial euclid_ok id 238 (by decide) (fun _ => []) mushroom 10 2 (by decide) (8500, 8500)
    ((C89_keep_partial id 238 (by decide) _ mushroom 10 2 (by decide)).1 ⟨by simp [rect]; norm_num, by simp [hole, rect]; norm_num⟩)

/-- With a negative angle the mushroom gets a foot. -/
example : ((-100, 5000) : Point) ∈ conical euclid id (-238) (fun _ => []) mushroom 10 4 :=
  C89_foot_partial euclid_ok id (-238) (by decide) _ _ 10 4 (by decide) _ (0, 5000)
    ((C89_keep_partial id (-238) (by decide) _ mushroom 10 5 (by decide)).1 ⟨by norm_num, by norm_num, by norm_num, by norm_num⟩)
    (by simp) (by show dist2 _ _ ≤ _; norm_num [dist2])

example : conical euclid id 0 (fun _ => []) mushroom 10 4 = mushroom 4 ∪ conical euclid id 0 (fun _ => []) mushroom 10 5 :=
  C89_straight_partial euclid_ok id 0 (by decide) _ _ 10 4 (by decide)

/-- C89, counterexample: if the angle is (nearly) 0 a small hole that the layer above covers does not stay open. -/
theorem C89_hole_counterexample : hole ⊆ conical euclid id 0 (fun l => if l = 4 then [hole] else []) mushroom 6 4 := by
  rw [C89_straight_partial euclid_ok id 0 (by decide) _ _ 6 4 (by decide)]
  rintro p ⟨h1, h2, h3, h4⟩
  refine Or.inr ?_
  show p ∈ mushroom 5
  exact ⟨by linarith, by linarith, by linarith, by linarith⟩

/-- C89, counterexample: with a negative angle such a hole is closed from the side again. -/
theorem C89_foot_counterexample : hole ⊆ conical euclid id (-2000) (fun l => if l = 4 then [hole] else []) mushroom 6 4 := by
  rintro p ⟨h1, h2, h3, h4⟩
  refine C89_foot_partial euclid_ok id (-2000) (by decide) _ _ 6 4 (by decide) p (9000, p.2) ?_ ?_ ?_
  · show _ ∈ mushroom 5
    exact ⟨by norm_num, by norm_num, by show (0 : Rat) ≤ p.2; linarith, by show p.2 ≤ 20000; linarith⟩
  · intro h hm hq
    simp only [if_true, List.mem_singleton] at hm
    subst hm
    have : (9500 : Rat) ≤ 9000 := hq.1
    norm_num at this
  · show dist2 _ _ ≤ _
    unfold dist2
    norm_num
    nlinarith

end Verif.Mold.Cases
