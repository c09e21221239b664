import Verif.Extruders.Props

/-! # Concrete prints for C62, C63 and C64 -/

namespace Verif.Extruders

/-- A part with everything. -/
def fullPart : Part := ⟨true, true, false, true, true, true, true⟩

/-- A part with an outer wall only. -/
def wallPart : Part := ⟨true, false, false, false, false, false, false⟩

/-- A part with skin only. -/
def skinPart : Part := ⟨false, false, false, false, true, false, false⟩

/-- A model that is printed with one extruder on the given layers. -/
def model (e : Nat) (layers : List MeshLayer) : Mesh where
  printed := true
  supportMesh := false
  supportEnable := false
  spiralize := false
  surface := false
  walls := 2
  skinOutlines := 0
  alternate := false
  infillDistance := 2000
  top := 3
  bottom := 3
  roofing := 1
  flooring := 1
  eWall0 := e
  eWallX := e
  eInfill := e
  eTopBottom := e
  eRoofing := e
  eFlooring := e
  layers := layers

/-- A Griffin printer with `n` extruders and no adhesion or support. -/
def plain (n : Nat) (meshes : List Mesh) (layers : Nat) : Group where
  count := n
  adhesion := .none
  skirtBrimNr := -1
  skirtSet := false
  brimSet := false
  towerBrim := false
  skirtBrim := fun _ => false
  eBase := 0
  eInterface := 0
  eSurface := 0
  interfaceLayers := 0
  surfaceLayers := 0
  filler := 0
  supportEnable := false
  painted := false
  supportBrim := false
  roofEnable := false
  bottomEnable := false
  eSupport0 := 0
  eSupport := 0
  eRoof := 0
  eBottom := 0
  support := []
  maxFilled := -1
  meshes := meshes
  blob := fun _ => true
  griffin := true
  tower := .none
  layerCount := layers

/-! ## Two models with different extruders on a raft with support -/

/-- Model 0 on all three layers, model 1 on the lowest two; the support is printed with extruder 2. -/
def towerGroup (t : Tower) : Group :=
  { plain 3 [{ model 0 [⟨[fullPart], false⟩, ⟨[fullPart], false⟩, ⟨[wallPart], false⟩, ⟨[wallPart], false⟩] with supportEnable := true },
      model 1 [⟨[wallPart], false⟩, ⟨[wallPart], false⟩]] 4 with
    adhesion := .raft, interfaceLayers := 1, surfaceLayers := 1, filler := 1, eInterface := 1, eSurface := 1, skirtBrimNr := 0
    supportEnable := true, eSupport0 := 2, eSupport := 2, support := [⟨true, false, false⟩, ⟨false, false, false⟩], maxFilled := 0
    tower := t }

example : (towerGroup .none).orders 0 =
    [[⟨0, .none⟩, ⟨1, .none⟩, ⟨2, .none⟩], [⟨1, .none⟩], [⟨1, .none⟩], [⟨2, .none⟩],
     [⟨2, .none⟩, ⟨0, .none⟩, ⟨1, .none⟩], [⟨1, .none⟩, ⟨0, .none⟩], [⟨0, .none⟩], [⟨0, .none⟩]] := by decide +kernel

example : (towerGroup .normal).second = 1 := by decide +kernel

example : (towerGroup .normal).orders 0 =
    [[⟨0, .none⟩, ⟨1, .none⟩, ⟨2, .none⟩], [⟨2, .support⟩, ⟨0, .support⟩, ⟨1, .prime⟩],
     [⟨1, .support⟩, ⟨0, .support⟩, ⟨2, .support⟩], [⟨2, .support⟩, ⟨0, .support⟩, ⟨1, .support⟩],
     [⟨1, .support⟩, ⟨0, .prime⟩, ⟨2, .prime⟩], [⟨2, .support⟩, ⟨0, .prime⟩, ⟨1, .prime⟩], [⟨0, .prime⟩], [⟨0, .none⟩]] := by
  decide +kernel

example : (towerGroup .interleaved).orders 0 =
    [[⟨0, .none⟩, ⟨1, .none⟩, ⟨2, .support⟩], [⟨1, .prime⟩], [⟨1, .support⟩], [⟨2, .prime⟩],
     [⟨2, .none⟩, ⟨0, .prime⟩, ⟨1, .prime⟩], [⟨1, .none⟩, ⟨0, .prime⟩], [⟨0, .support⟩], [⟨0, .support⟩]] := by
  decide +kernel

theorem model_asked (e : Nat) (layers : List MeshLayer) (h : ∀ ly ∈ layers, (∀ p ∈ ly.parts, p.spiral = false) ∧ ly.lines = false) :
    Asked (model e layers) where
  wall0 _ _ _ _ _ := by simp [model]
  spiral ly hly p hp hs := by have := (h ly hly).1 p hp; rw [this] at hs; cases hs
  wall1 _ _ _ _ _ := by simp [model]
  infill _ _ _ _ _ := by simp [model]
  skin _ _ _ _ _ := by simp [model]
  roofing _ _ _ _ _ := by simp [model]
  flooring _ _ _ _ _ := by simp [model]
  lines ly hly hs := by rw [(h ly hly).2] at hs; cases hs

theorem towerGroup_asked (t : Tower) : ∀ m ∈ (towerGroup t).meshes, Asked m := by
  intro m hm
  rcases List.mem_cons.1 hm with rfl | hm
  · have := model_asked 0 [⟨[fullPart], false⟩, ⟨[fullPart], false⟩, ⟨[wallPart], false⟩, ⟨[wallPart], false⟩]
      (by decide)
    exact ⟨this.wall0, this.spiral, this.wall1, this.infill, this.skin, this.roofing, this.flooring, this.lines⟩
  · rw [List.mem_singleton.1 hm]
    exact model_asked 1 _ (by decide)

theorem towerGroup_exist (t : Tower) : Exist (towerGroup t) where
  mesh := by cases t <;> decide
  support := by cases t <;> decide
  raft := by cases t <;> decide

theorem towerGroup_support (t : Tower) : SupportAsked (towerGroup t) where
  mesh := by
    intro s _ _
    exact ⟨_, List.mem_cons_self, .inl rfl⟩
  roof := by cases t <;> decide
  bottom := by cases t <;> decide

theorem towerGroup_fits (t : Tower) : Fits (towerGroup t) :=
  ⟨towerGroup_exist t, towerGroup_asked t, towerGroup_support t, by cases t <;> decide, .inr (.inl rfl)⟩

/-- Extruder 2 prints support on the filler layer, and is in its order. -/
example (t : Tower) : ∃ o, ((towerGroup t).orders 0)[((-1 : Int) + (towerGroup t).extra).toNat]? = some o ∧
    ∃ u ∈ o, u.extruder = 2 :=
  C62_complete_partial (towerGroup t) 0 (towerGroup_fits t) (-1) (by cases t <;> decide) (by cases t <;> decide) 2
    (Needs.firstSupport (g := towerGroup t) (s := ⟨true, false, false⟩) ⟨by cases t <;> decide, rfl⟩ rfl (by cases t <;> decide))

/-- Extruder 1 prints the outer wall of model 1 on layer 1. -/
example (t : Tower) : Needs (towerGroup t) 1 1 :=
  Needs.outerWall (g := towerGroup t) (m := model 1 [⟨[wallPart], false⟩, ⟨[wallPart], false⟩]) (p := wallPart)
    ⟨by simp [towerGroup, plain], rfl, rfl, by decide, ⟨[wallPart], false⟩, rfl, by simp⟩ (.inl rfl)

/-- On layer 0 two tool changes are needed, and there are no more. -/
example : changes (2 :: [2, 0, 1]) = 2 := by decide

example : lastBefore 0 ((towerGroup .none).orders 0) 4 = 2 := by decide +kernel

/-- Over the whole print the number of tool changes is not minimal: extruder 1, which is needed alone on layer 1, does
not come last on layer 0. -/
example : (plain 3 [model 0 [⟨[wallPart], false⟩], model 1 [⟨[wallPart], false⟩, ⟨[wallPart], false⟩],
      model 2 [⟨[wallPart], false⟩]] 2).orders 0 =
    [[⟨0, .none⟩, ⟨1, .none⟩, ⟨2, .none⟩], [⟨1, .none⟩]] := by decide +kernel

/-- Every extruder of the print is primed before it prints. -/
example (t : Tower) : PrimedBefore 0 ((towerGroup t).trace 0) :=
  C63_primed_partial (towerGroup t) 0 rfl (fun _ _ => rfl) (towerGroup_exist t) (by cases t <;> decide) (fun _ => rfl)

example : (towerGroup .none).trace 0 =
    [.turn 0, .turn 0, .turn 0, .prime 1, .turn 1, .prime 2, .turn 2, .turn 2, .turn 1, .turn 1, .turn 1, .turn 1, .turn 2,
     .turn 2, .turn 0, .turn 1, .turn 1, .turn 0, .turn 0, .turn 0] := by decide +kernel

/-- The highest layer with support is 0. -/
theorem towerGroup_filled (t : Tower) (k : Nat) (s : SupportLayer) (h : (towerGroup t).support[k]? = some s)
    (hs : s.infill = true ∨ s.bottom = true ∨ s.roof = true) : (k : Int) ≤ (towerGroup t).maxFilled := by
  match k with
  | 0 => cases t <;> decide
  | 1 =>
    have : s = ⟨false, false, false⟩ := by
      simp [towerGroup, plain] at h
      exact h.symm
    subst this
    simp at hs
  | k + 2 => simp [towerGroup, plain] at h

example : (towerGroup .normal).second < 2 ∧ (towerGroup .normal).usedOn 2 0 = true ∧
    (towerGroup .normal).usedOn 3 0 = true ∧ (towerGroup .normal).usedOn 1 1 = true := by decide +kernel

/-- Extruder 0 still prints on layers 2 and 3. -/
example (t : Tower) : Needs (towerGroup t) 3 0 :=
  used_needs _ (.inr (.inl rfl)) 3 (by cases t <;> decide) 0 (by cases t <;> decide) (by cases t <;> decide)

/-- On layer 0 of the print with the normal tower the change to extruder 2, which prints support, primes it. -/
example : (⟨2, .prime⟩ : Use).prime = .prime :=
  C64_prime (towerGroup .normal) (towerGroup_fits _) 0 (by decide) 4 (by decide)
    [⟨1, .support⟩, ⟨0, .prime⟩, ⟨2, .prime⟩] [⟨1, .support⟩, ⟨0, .prime⟩] [] ⟨2, .prime⟩ (by decide +kernel) rfl
    (used_needs _ (.inr (.inl rfl)) _ (by decide) _ (by decide) (by decide)) (by decide +kernel)

/-- All three extruders print on the tower of layer 0. -/
example : ((towerGroup .normal).processLayer 0 ((towerGroup .normal).orders 0) 4).towered = [1, 0, 2] := by
  decide +kernel

/-! ## What goes wrong -/

/-- A spiralized model whose bottom is to be printed with extruder 1. -/
def vase : Group :=
  plain 2 [{ model 0 [⟨[skinPart, wallPart], false⟩, ⟨[{ wallPart with wall0 := false, spiral := true }], false⟩] with
    spiralize := true, eTopBottom := 1 }] 2

/-- C62 does not hold for a spiralized model: the bottom skin needs extruder 1, which is used on layer 0 but does not
count as used in the print, so that it has no turn and the skin is not printed. -/
theorem C62_spiral_counterexample : Needs vase 0 1 ∧ vase.usedOn 0 1 = true ∧ vase.orders 0 = [[⟨0, .none⟩], [⟨0, .none⟩]] := by
  refine ⟨?_, by decide, by decide +kernel⟩
  exact Needs.skin (g := vase) (m := { model 0 [⟨[skinPart, wallPart], false⟩, ⟨[{ wallPart with wall0 := false, spiral := true }], false⟩] with
    spiralize := true, eTopBottom := 1 }) (p := skinPart)
    ⟨by simp [vase, plain], rfl, rfl, by decide, _, rfl, by simp⟩ rfl

/-- Support on a raft, with extruder 1 for layer 0 only. -/
def gap : Group :=
  { plain 2 [{ model 0 [⟨[wallPart], false⟩, ⟨[wallPart], false⟩] with supportEnable := true }] 2 with
    adhesion := .raft, filler := 1, supportEnable := true, eSupport0 := 1, support := [⟨true, false, false⟩, ⟨true, false, false⟩]
    maxFilled := 1, blob := fun _ => false }

/-- C62 does not hold in the gap above a raft: the support there is printed with the extruder for layer 0, but the
other support extruder has the turn. -/
theorem C62_filler_counterexample : Needs gap (-1) 1 ∧
    gap.orders 0 = [[⟨0, .none⟩], [⟨0, .none⟩], [⟨0, .none⟩, ⟨1, .none⟩], [⟨0, .none⟩]] ∧
    gap.type (-1) = .airgap := by
  refine ⟨?_, by decide +kernel, by decide⟩
  exact Needs.firstSupport (g := gap) (s := ⟨true, false, false⟩) ⟨by decide, rfl⟩ rfl (by decide)

/-- Extruder 0 on layer 0, extruder 1 on layer 1, no prime blobs. -/
def handover (t : Tower) : Group :=
  { plain 2 [model 0 [⟨[wallPart], false⟩], model 1 [⟨[], false⟩, ⟨[wallPart], false⟩]] 2 with
    blob := fun _ => false, tower := t }

/-- C63 does not hold without prime blobs: extruder 1 takes over on layer 1 and is the first one there, so that no
tool change happens within the layer, and is never primed. -/
theorem C63_first_of_layer_counterexample : (handover .none).trace 0 = [.turn 0, .turn 1] ∧
    (handover .none).primeLayer 0 1 = some 1 ∧ ¬ PrimedBefore 0 ((handover .none).trace 0) := by
  have h : (handover .none).trace 0 = [.turn 0, .turn 1] := by decide +kernel
  refine ⟨h, by decide +kernel, fun hp => ?_⟩
  rw [h] at hp
  rcases hp [.turn 0] [] 1 rfl with h | h
  · cases h
  · simp at h

/-- C63 does not hold with a normal prime tower and without prime blobs: extruder 1 prints on the tower on layer 0,
but would be primed on layer 1. -/
theorem C63_tower_counterexample : ¬ PrimedBefore 0 ((handover .normal).trace 0) := by
  have h : (handover .normal).trace 0 = [.turn 0, .turn 1, .turn 1] := by decide +kernel
  intro hp
  rw [h] at hp
  rcases hp [.turn 0] [.turn 1] 1 rfl with h | h
  · cases h
  · simp at h

/-- An extruder that comes second on the layer of its first use. -/
def second : Group :=
  { plain 2 [model 0 [⟨[wallPart], false⟩, ⟨[wallPart], false⟩], model 1 [⟨[], false⟩, ⟨[wallPart], false⟩]] 2 with
    blob := fun _ => false }

example : ∃ a b, (second.processLayer 0 (second.orders 0) 1).events = a ++ .prime 1 :: .turn 1 :: b ∧ .turn 1 ∉ a :=
  C63_switch_partial second 0 1 1 [⟨0, .none⟩, ⟨1, .none⟩] [⟨0, .none⟩] [] ⟨1, .none⟩ (by decide +kernel) rfl (by simp) rfl
    (by decide +kernel)

/-- C64 does not hold on layers 0 and 1 if only the support of layer 0 has its own extruder: the tool change is not
counted, and there is no height for a tower. -/
theorem C64_layer0_counterexample :
    let g := { plain 2 [{ model 0 [⟨[wallPart], false⟩, ⟨[wallPart], false⟩] with supportEnable := true }] 2 with
      supportEnable := true, eSupport0 := 1, support := [⟨true, false, false⟩], maxFilled := 0 }
    g.usedOn 0 0 = true ∧ g.usedOn 0 1 = true ∧ g.second = -1 := by decide +kernel

end Verif.Extruders
