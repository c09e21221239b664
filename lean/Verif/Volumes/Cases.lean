import Verif.Volumes.Props
import Mathlib.Tactic.NormNum
import Mathlib.Tactic.IntervalCases

/-! # Cases for overlapping models, cutting meshes and infill meshes -/

namespace Verif.Volumes

open Verif.Box (AABB AABB3D)

/-- A rectangle. -/
def rect (x0 x1 y0 y1 : Rat) : Region := {p | x0 ≤ p.1 ∧ p.1 ≤ x1 ∧ y0 ≤ p.2 ∧ p.2 ≤ y1}

/-- A model with a bounding box of the given width. -/
def model (order : Int) (x0 x1 : Int) : Mesh :=
  { order := order, cutting := false, hasExtruder := false, antiOverhang := false, force := false, infill := false,
    support := false, surface := false, box := ⟨⟨x0, 0, 0⟩, ⟨x1, 10, 10⟩⟩ }

/-! ## Models that overlap -/

/-- Two models that overlap, with a third one of another order on top of both. -/
def three : Nat → Mesh
  | 0 => model 1 0 10
  | 1 => model 1 5 15
  | _ => model 0 8 20

def threeSlices : Slices := fun v _ =>
  match v with
  | 0 => rect 0 10 0 10
  | 1 => rect 5 15 0 10
  | _ => rect 8 20 0 10

theorem three_boxed : Boxed three 3 4 threeSlices := by
  refine ⟨fun _ => 5, fun v hv l _ p hp => ?_⟩
  interval_cases v <;> simp only [threeSlices, rect, Set.mem_ofPred_eq] at hp <;>
    simp [Within, three, model] <;> simpa [and_assoc] using hp

/-- Without alternation the first of two models of the same order keeps a point. -/
example : ((6, 1) : Point) ∈ carve three false 3 4 threeSlices 0 0 ∧ ((6, 1) : Point) ∉ carve three false 3 4 threeSlices 1 0 := by
  rw [C65_owner_partial three false 3 4 threeSlices three_boxed 0 0 (by omega) (by omega) rfl,
    C65_owner_partial three false 3 4 threeSlices three_boxed 1 0 (by omega) (by omega) rfl]
  constructor
  · refine ⟨by norm_num [threeSlices, rect], fun w hw _ hne hp => ?_⟩
    interval_cases w
    · exact absurd rfl hne
    · simp [Better, three, model]
    · norm_num [threeSlices, rect] at hp
  · rintro ⟨_, h⟩
    have := h 0 (by omega) rfl (by omega) (by norm_num [threeSlices, rect])
    simp [Better, three, model] at this

/-- With alternation it is the last one, on even layers only. -/
example : ((6, 1) : Point) ∈ carve three true 3 4 threeSlices 1 2 ∧ ((6, 1) : Point) ∈ carve three true 3 4 threeSlices 0 1 := by
  rw [C65_owner_partial three true 3 4 threeSlices three_boxed 1 2 (by omega) (by omega) rfl,
    C65_owner_partial three true 3 4 threeSlices three_boxed 0 1 (by omega) (by omega) rfl]
  constructor
  · refine ⟨by norm_num [threeSlices, rect], fun w hw _ hne hp => ?_⟩
    interval_cases w
    · simp [Better, three, model]
    · exact absurd rfl hne
    · norm_num [threeSlices, rect] at hp
  · refine ⟨by norm_num [threeSlices, rect], fun w hw _ hne hp => ?_⟩
    interval_cases w
    · exact absurd rfl hne
    · simp [Better, three, model]
    · norm_num [threeSlices, rect] at hp

/-- The model of lower order keeps what all three cover. -/
example : ((9, 1) : Point) ∈ carve three true 3 4 threeSlices 2 2 ∧ ((9, 1) : Point) ∉ carve three true 3 4 threeSlices 1 2 := by
  rw [C65_owner_partial three true 3 4 threeSlices three_boxed 2 2 (by omega) (by omega) rfl,
    C65_owner_partial three true 3 4 threeSlices three_boxed 1 2 (by omega) (by omega) rfl]
  constructor
  · refine ⟨by norm_num [threeSlices, rect], fun w hw _ hne hp => ?_⟩
    interval_cases w
    · simp [Better, three, model]
    · simp [Better, three, model]
    · exact absurd rfl hne
  · rintro ⟨_, h⟩
    have := h 2 (by omega) rfl (by omega) (by norm_num [threeSlices, rect])
    simp [Better, three, model] at this

/-- Two models next to each other. -/
def apart : Nat → Mesh
  | 0 => model 0 0 10
  | _ => model 0 12 20

/-- On the first layer both are 3 wider on each side (`xy_offset_layer_0`), which the bounding boxes do not contain. -/
def wider : Slices := fun v l =>
  if l = 0 then (match v with
    | 0 => rect (-3) 13 0 10
    | _ => rect 9 23 0 10)
  else match v with
    | 0 => rect 0 10 0 10
    | _ => rect 12 20 0 10

/-- A horizontal expansion of only the first layer (or any other change of the outlines after slicing) makes models
overlap without their bounding boxes, and then nothing is carved: what both cover is printed twice. -/
theorem C65_wider_counterexample :
    ((11, 5) : Point) ∈ carve apart false 2 4 wider 0 0 ∧ ((11, 5) : Point) ∈ carve apart false 2 4 wider 1 0 ∧
      (apart 0).carved = true ∧ (apart 1).carved = true := by
  have h : carve apart false 2 4 wider = wider := by
    show carvePair apart false 4 1 0 wider = wider
    exact if_neg (by decide)
  rw [h]
  refine ⟨?_, ?_, rfl, rfl⟩ <;> norm_num [wider, rect]

/-- And together they cover it still. -/
example : ∃ v < 2, (apart v).carved = true ∧ ((11, 5) : Point) ∈ carve apart false 2 4 wider v 0 :=
  (C65_union apart false 2 4 wider 0 (by omega) (11, 5)).2 ⟨0, by omega, rfl, by norm_num [wider, rect]⟩

/-! ## Cutting meshes -/

/-- A model, a cutting mesh with its own extruder, a cutting mesh without, and a support mesh. -/
def cutters : Nat → Mesh
  | 0 => model 0 0 10
  | 1 => { model 0 0 10 with cutting := true, hasExtruder := true }
  | 2 => { model 0 0 10 with cutting := true }
  | _ => { model 0 0 10 with support := true }

def cutterSlices : Slices := fun v _ =>
  match v with
  | 0 => rect 0 10 0 10
  | 1 => rect 2 6 (-5) 5
  | 2 => rect 5 8 0 20
  | _ => rect 0 10 0 10

theorem cutter_kinds : Base (cutters 0) ∧ Recolour (cutters 1) ∧ Keeps (cutters 2) ∧ ¬ Base (cutters 3) := by
  simp [Base, Recolour, Keeps, cutters, model]

/-- The cutting mesh with its own extruder gets its part of the model, the other one also takes what both cover. -/
example : ((3, 1) : Point) ∈ (cut cutters 4 2 cutterSlices).2 1 1 ∧
    ((11 / 2, 1) : Point) ∈ (cut cutters 4 2 cutterSlices).2 2 1 ∧
    ((11 / 2, 1) : Point) ∉ (cut cutters 4 2 cutterSlices).2 1 1 ∧
    ((1, 1) : Point) ∈ (cut cutters 4 2 cutterSlices).2 0 1 ∧
    ((3, 1) : Point) ∉ (cut cutters 4 2 cutterSlices).2 0 1 ∧
    ((3, -1) : Point) ∉ (cut cutters 4 2 cutterSlices).2 1 1 := by
  obtain ⟨h0, h1, h2, _⟩ := cutter_kinds
  refine ⟨?_, ?_, ?_, ?_, ?_, ?_⟩
  · rw [(C66_recolour cutters 4 2 cutterSlices 1 1 (by omega) (by omega) h1 _).1]
    refine ⟨by norm_num [cutterSlices, rect], ⟨0, by omega, h0, by norm_num [cutterSlices, rect]⟩, fun w hw hc hp => ?_⟩
    interval_cases w
    · simp [cutters, model] at hc
    · exact ⟨h1, le_rfl⟩
    · norm_num [cutterSlices, rect] at hp
    · simp [cutters, model] at hc
  · rw [C66_keeps cutters 4 2 cutterSlices 2 1 (by omega) (by omega) h2]
    refine ⟨by norm_num [cutterSlices, rect], ⟨0, by omega, h0, by norm_num [cutterSlices, rect]⟩, fun w hw hk _ => ?_⟩
    interval_cases w
    · simp [Keeps, cutters, model] at hk
    · exact hk.2 h1
  · rw [(C66_recolour cutters 4 2 cutterSlices 1 1 (by omega) (by omega) h1 _).1]
    rintro ⟨_, _, h⟩
    exact h2.2 (h 2 (by omega) rfl (by norm_num [cutterSlices, rect])).1
  · rw [C66_models cutters 4 2 cutterSlices 0 1 (by omega) (by omega) h0]
    refine ⟨by norm_num [cutterSlices, rect], fun w hw hc hp => ?_⟩
    interval_cases w
    · simp [cutters, model] at hc
    · norm_num [cutterSlices, rect] at hp
    · norm_num [cutterSlices, rect] at hp
    · simp [cutters, model] at hc
  · rw [C66_models cutters 4 2 cutterSlices 0 1 (by omega) (by omega) h0]
    rintro ⟨_, h⟩
    exact h 1 (by omega) rfl (by norm_num [cutterSlices, rect])
  · rw [(C66_recolour cutters 4 2 cutterSlices 1 1 (by omega) (by omega) h1 _).1]
    rintro ⟨_, ⟨u, hu, hb, hp⟩, _⟩
    interval_cases u
    · norm_num [cutterSlices, rect] at hp
    · simp [Base, cutters, model] at hb
    · simp [Base, cutters, model] at hb
    · simp [Base, cutters, model] at hb

/-! ## Infill meshes -/

/-- A part whose infill is as large as its outline. -/
def part (x0 x1 : Int) : Part := ⟨rect x0 x1 0 10, ⟨⟨x0, 0⟩, ⟨x1, 10⟩⟩, rect x0 x1 0 10⟩

theorem part_ok (x0 x1 : Int) : (part x0 x1).Ok := by
  constructor <;> intro x hx <;> simp only [part, rect, Set.mem_ofPred_eq] at hx <;>
    simp only [WithinFlat, part] <;> exact_mod_cast hx

/-- The infill mesh takes its part of the infill of the two models. -/
example : ((4, 1) : Point) ∈ outlineOf [part 3 20] ∧
    (claimMeshes [part 3 20] [[part 0 10], [part 12 15]]).2 =
      [[{ part 0 10 with own := rect 0 10 0 10 \ outlineOf [part 3 20] }],
        [{ part 12 15 with own := rect 12 15 0 10 \ outlineOf [part 3 20] }]] ∧
    times (4, 1) (claimMeshes [part 3 20] [[part 0 10], [part 12 15]]).1 = 1 := by
  have hps : ∀ q ∈ [part 3 20], q.Ok := by
    intro q hq
    rw [List.mem_singleton.1 hq]
    exact part_ok _ _
  have hms : ∀ m ∈ [[part 0 10], [part 12 15]], ∀ q ∈ m, q.Ok := by
    intro m hm q hq
    simp only [List.mem_cons, List.not_mem_nil, or_false] at hm
    rcases hm with rfl | rfl <;> rw [List.mem_singleton.1 hq] <;> exact part_ok _ _
  have hin : ((4, 1) : Point) ∈ outlineOf [part 3 20] :=
    ⟨part 3 20, by simp, by norm_num [part, rect]⟩
  have hrest := C67_rest [part 3 20] [[part 0 10], [part 12 15]] hps hms
  refine ⟨hin, by rw [hrest]; simp [part], ?_⟩
  have h := C67_conserve [part 3 20] [[part 0 10], [part 12 15]] hps hms (4, 1)
  rw [hrest] at h
  have e1 : times (4, 1) (infills [[part 0 10], [part 12 15]]) = 1 := by
    show times _ [rect (0 : Int) (10 : Int) 0 10, rect (12 : Int) (15 : Int) 0 10] = 1
    rw [times_cons, times_one _ _ (by norm_num [rect]), times_zero _ _ (by norm_num [rect])]
  have e2 : times (4, 1) (infills ([[part 0 10], [part 12 15]].map fun m => m.map fun q =>
      { q with own := q.own \ outlineOf [part 3 20] })) = 0 := by
    show times _ [_ \ outlineOf [part 3 20], _ \ outlineOf [part 3 20]] = 0
    rw [times_cons, times_zero _ _ (fun x => x.2 hin), times_zero _ _ (fun x => x.2 hin)]
  omega

/-- Walls of a fixed width on the left and right, as an example for the rest of the generation. -/
noncomputable def someWalls (_ : Nat) (rs : List Region) : List Part :=
  rs.map fun r => ⟨r ∩ rect 0 20 0 10, ⟨⟨0, 0⟩, ⟨20, 10⟩⟩, r ∩ rect 1 19 0 10⟩

theorem someWalls_ok : WallsOk someWalls := by
  intro i rs
  constructor
  · intro q hq
    obtain ⟨r, _, rfl⟩ := List.mem_map.1 hq
    constructor <;> intro x hx
    · obtain ⟨_, h1, h2, h3, h4⟩ := hx
      exact ⟨by simpa using h1, by simpa using h2, by simpa using h3, by simpa using h4⟩
    · obtain ⟨_, h1, h2, h3, h4⟩ := hx
      refine ⟨?_, ?_, by simpa using h3, by simpa using h4⟩
      · have : (0 : Rat) ≤ x.1 := le_trans (by norm_num) h1
        simpa using this
      · have : x.1 ≤ (20 : Rat) := le_trans h2 (by norm_num)
        simpa using this
  · intro p
    induction rs with
    | nil => simp [someWalls, times]
    | cons r rs ih =>
      simp only [someWalls, List.map_cons] at ih ⊢
      rw [times_cons p r, times_cons]
      by_cases h : p ∈ r
      · have : times p [r ∩ rect 1 19 0 10] ≤ 1 := by
          by_cases h' : p ∈ r ∩ rect 1 19 0 10
          · rw [times_one _ _ h']
          · rw [times_zero _ _ h']; omega
        rw [times_one _ _ h]
        omega
      · rw [times_zero _ (r ∩ rect 1 19 0 10) (fun x => h x.1)]
        omega

/-- Two models and two infill meshes that overlap each other. -/
example (p : Point) : times p (infills (process someWalls
    [(0, false, [part 0 10]), (1, true, [part 3 20]), (2, false, [part 12 15]), (3, true, [part 5 18])] [])) ≤
      times p [(part 0 10).outline, (part 12 15).outline] := by
  refine C67_once someWalls someWalls_ok _ ?_ p
  intro x hx q hq
  simp only [List.mem_cons, List.not_mem_nil, or_false] at hx
  rcases hx with rfl | rfl | rfl | rfl <;> rw [List.mem_singleton.1 hq] <;> exact part_ok _ _

end Verif.Volumes
