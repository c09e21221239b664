import Verif.Configs.Lemmas

/-! # Settings of the features: the properties -/

namespace Verif.Configs

open Spec

/-- How a feature is printed depends on the settings of the extruder that prints it only: those of any other extruder may be changed. (Except for the features of the counterexamples below, and, for support on the first layers, the extruder for the support of the first layer.) -/
theorem C131_own_partial (v w : Env) (e : Nat) (hw : Except e v w) (layer : Int) (f : Feature) (p : Nat) (hp : printer v f = some p) (he : p ≠ e)
    (h1 : f ≠ .raftInterface) (h2 : f ≠ .raftSurface) (h3 : f ≠ .supportBottom) (h4 : ∀ n, f = .supportInfill n → 0 < layer ∨ v.supportFirstE ≠ e) : config v layer f = config w layer f := by
  obtain ⟨s, rfl⟩ := hw
  cases f with
  | raftBase => cases hp; simp [config, baseConfig, firstSpeeds, extSpeeds, he]
  | raftInterface => exact absurd rfl h1
  | raftSurface => exact absurd rfl h2
  | supportRoof => cases hp; simp [config, baseConfig, firstSpeeds, extSpeeds, widthFactor, flow0, he]
  | supportBottom => exact absurd rfl h3
  | supportInfill n =>
    cases hp
    rcases h4 n rfl with h | h
    · have hn : ¬ layer ≤ 0 := not_le.2 h
      simp [config, baseConfig, firstSpeeds, extSpeeds, widthFactor, flow0, he, hn]
    · by_cases hn : layer ≤ 0
      · simp [config, baseConfig, firstSpeeds, extSpeeds, widthFactor, flow0, he, hn, h]
      · simp [config, baseConfig, firstSpeeds, extSpeeds, widthFactor, flow0, he, hn]
  | travel x => cases hp; simp [config, baseConfig, firstSpeeds, extSpeeds, he]
  | skirtBrim x => cases hp; simp [config, baseConfig, firstSpeeds, extSpeeds, widthFactor, flow0, he]
  | primeTower x => cases hp; simp [config, baseConfig, firstSpeeds, extSpeeds, widthFactor, flow0, he]
  | mesh m k => cases hp

/-- How a part of a model is printed depends on the settings of this model only, and above the first layer on no setting of an extruder. -/
theorem C131_model (v : Env) (ext : Nat → String → ℚ) (mesh : Nat → String → ℚ) (layer : Int) (m : Nat) (k : Kind) (hm : mesh m = v.mesh m)
    (he : layer ≤ 0 → ∀ e, ext e "initial_layer_line_width_factor" = v.ext e "initial_layer_line_width_factor") :
    config { v with ext := ext, mesh := mesh } layer (.mesh m k) = config v layer (.mesh m k) := by
  have hwf : ∀ e, widthFactor { v with ext := ext, mesh := mesh } layer e = widthFactor v layer e := by
    intro e
    unfold widthFactor
    by_cases h : layer ≤ 0
    · rw [if_pos h, if_pos h]; exact he h e
    · rw [if_neg h, if_neg h]
  cases k <;> simp only [config, baseConfig, meshConfig, firstSpeeds, meshSpeeds, meshWidth, meshFlow0, hm, hwf]

/-- Above the slow layers, each part of a model is printed with the settings made for it. (Widths are whole numbers of micrometres.) -/
theorem C131_settings (v : Env) (layer : Int) (h : 0 < layer) (hs : v.slowLayers ≤ layer) (m : Nat) (k : Kind) (w : Int) (hw : v.mesh m (names k).1 = w) :
    config v layer (.mesh m k) = ⟨w, v.thickness, layers k * v.mesh m (names k).2.1, ⟨v.mesh m (names k).2.2.1, v.mesh m (names k).2.2.2.1, v.mesh m (names k).2.2.2.2⟩⟩ := by
  have hn : ¬ layer ≤ 0 := not_le.2 h
  have hne : ¬ layer = 0 := ne_of_gt h
  unfold config
  dsimp only
  rw [if_neg fun h => absurd h.2 (not_lt.2 hs)]
  cases k <;> simp only [names] at hw <;> simp [baseConfig, meshConfig, meshSpeeds, meshWidth, meshFlow0, widthFactor, whole, hw, hn, hne, layers, names, mul_comm]

/-- The same for what belongs to no model; the thickness is in the next theorem. (With the extruder of the flow as in the counterexamples.) -/
theorem C131_settings_others (v : Env) (layer : Int) (h : 0 < layer) (hs : v.slowLayers ≤ layer) (f : Feature) (p : Nat) (hp : printer v f = some p) (n : String × String × String × String × String)
    (hn : names' f = some n) (w : Int) (hw : v.ext p n.1 = w) :
    (config v layer f).width = w ∧ (config v layer f).flow = layers' f * v.ext (flowExtruder v f p) n.2.1 ∧ (config v layer f).speeds = ⟨v.ext p n.2.2.1, v.ext p n.2.2.2.1, v.ext p n.2.2.2.2⟩ := by
  have hl : ¬ layer ≤ 0 := not_le.2 h
  have hne : ¬ layer = 0 := ne_of_gt h
  unfold config
  dsimp only
  rw [if_neg fun h => absurd h.2 (not_lt.2 hs)]
  cases f <;> simp only [names', reduceCtorEq, Option.some.injEq] at hn <;> subst hn <;> simp only [printer, Option.some.injEq] at hp <;> subst hp <;> simp only at hw <;>
    simp [baseConfig, extSpeeds, widthFactor, flow0, whole, hw, hl, hne, layers', flowExtruder, mul_comm]

/-- The layers of a raft have the thicknesses set for them; everything else has the thickness of the layer, and a travel move none. -/
theorem C131_thickness (v : Env) (layer : Int) (f : Feature) :
    (config v layer f).thickness = match f with
      | .raftBase => v.ext v.raftBaseE "raft_base_thickness"
      | .raftInterface => v.ext v.raftInterfaceE "raft_interface_thickness"
      | .raftSurface => v.ext v.raftSurfaceE "raft_surface_thickness"
      | .travel _ => 0
      | _ => v.thickness := by
  rw [(config_keeps v layer f).2.2]
  cases f with
  | mesh m k => cases k <;> rfl
  | _ => rfl

/-- On the first layer, the flow of walls is multiplied by the factor for these walls, that of skin by the one for skin, and that of infill, roofing and flooring by the general one. -/
theorem C131_first_flow (v : Env) (m : Nat) (k : Kind) :
    (config v 0 (.mesh m k)).flow = (config v 1 (.mesh m k)).flow *
      (if k = .inset0 ∨ k = .inset0Roofing ∨ k = .inset0Flooring then v.mesh m "wall_0_material_flow_layer_0"
      else if k = .insetX ∨ k = .insetXRoofing ∨ k = .insetXFlooring then v.mesh m "wall_x_material_flow_layer_0"
      else if k = .skin then v.mesh m "skin_material_flow_layer_0"
      else if k = .roofing ∨ k = .flooring ∨ k = .infill (layers k - 1) then v.mesh m "material_flow_layer_0" else 1) := by
  rw [(config_keeps v 0 _).2.1, (config_keeps v 1 _).2.1]
  cases k <;> simp [baseConfig, meshConfig, meshFlow0, layers]
  ring

/-- The flow of what belongs to no model is multiplied by the factor of its extruder. -/
theorem C131_first_flow_others (v : Env) (f : Feature) (p : Nat) (hp : printer v f = some p) (h : f ≠ .raftBase ∧ f ≠ .raftInterface ∧ f ≠ .raftSurface) :
    (config v 0 f).flow = (config v 1 f).flow * v.ext (flowExtruder v f p) "material_flow_layer_0" := by
  obtain ⟨h1, h2, h3⟩ := h
  rw [(config_keeps v 0 _).2.1, (config_keeps v 1 _).2.1]
  cases f <;> simp only [printer, Option.some.injEq, reduceCtorEq] at hp <;> simp_all [baseConfig, flow0, flowExtruder]
  ring

/-- On the first layer and below, the lines of walls, skin and infill are wider by the factor of the extruder that prints them. -/
theorem C131_first_width (v : Env) (layer : Int) (h : layer ≤ 0) (m : Nat) (k : Kind) :
    (config v layer (.mesh m k)).width =
      if k = .roofing ∨ k = .flooring ∨ k = .ironing ∨ k = .skinSupport then v.mesh m (names k).1
      else ⌊v.mesh m (names k).1 * v.ext (v.meshExt m (if (names k).1 = "wall_line_width_0" then "wall_0_extruder_nr" else if (names k).1 = "wall_line_width_x" then "wall_x_extruder_nr"
        else if (names k).1 = "skin_line_width" then "top_bottom_extruder_nr" else "infill_extruder_nr")) "initial_layer_line_width_factor"⌋ := by
  rw [(config_keeps v layer _).1]
  cases k <;> simp [baseConfig, meshConfig, meshWidth, whole, widthFactor, names, h]

/-- So are those of support, the skirt, the brim and the prime tower, but not above a raft. (The roof and the bottom of support are, even there.) -/
theorem C131_first_width_others (v : Env) (layer : Int) (h : layer ≤ 0) (f : Feature) (p : Nat) (hp : printer v f = some p) (n : String × String × String × String × String)
    (hn : names' f = some n) (hr : f ≠ .raftBase ∧ f ≠ .raftInterface ∧ f ≠ .raftSurface) :
    (config v layer f).width = ⌊v.ext p n.1 * (if v.raft ∧ f ≠ .supportRoof ∧ f ≠ .supportBottom then 1 else v.ext p "initial_layer_line_width_factor")⌋ := by
  obtain ⟨h1, h2, h3⟩ := hr
  rw [(config_keeps v layer _).1]
  cases f <;> simp only [names', reduceCtorEq, Option.some.injEq] at hn <;> subst hn <;> simp only [printer, Option.some.injEq] at hp <;> simp_all [baseConfig, whole, widthFactor]

/-- Only on the first layer and below does the factor for the width of its lines matter, and on the first layer only the one for its flow. Above them, the width and the flow are those of the settings. -/
theorem C131_width (v : Env) (layer layer' : Int) (h : 0 < layer) (h' : 0 < layer') (f : Feature) :
    (config v layer f).width = (config v layer' f).width ∧ (config v layer f).flow = (config v layer' f).flow ∧ (config v layer f).thickness = (config v layer' f).thickness := by
  have hw : ∀ e, widthFactor v layer e = widthFactor v layer' e := fun e => by
    unfold widthFactor; rw [if_neg (not_le.2 h), if_neg (not_le.2 h')]
  have hf : ∀ e, flow0 v layer e = flow0 v layer' e := fun e => by
    unfold flow0; rw [if_neg (ne_of_gt h), if_neg (ne_of_gt h')]
  have hmf : ∀ m k, meshFlow0 v layer m k = meshFlow0 v layer' m k := fun m k => by
    unfold meshFlow0; rw [if_neg (ne_of_gt h), if_neg (ne_of_gt h')]
  have hb : baseConfig v layer f = baseConfig v layer' f := by
    cases f with
    | mesh m k => cases k <;> simp only [baseConfig, meshConfig, meshWidth, hw, hmf]
    | _ => simp only [baseConfig, hw, hf]
  obtain ⟨a1, a2, a3⟩ := config_keeps v layer f
  obtain ⟨b1, b2, b3⟩ := config_keeps v layer' f
  rw [a1, a2, a3, b1, b2, b3, hb]
  exact ⟨rfl, rfl, rfl⟩

/-- Infill and support of several layers have that many times the flow of one layer. -/
theorem C131_combined (v : Env) (layer : Int) (m n : Nat) :
    (config v layer (.mesh m (.infill n))).flow = (n + 1) * (config v layer (.mesh m (.infill 0))).flow
    ∧ (config v layer (.supportInfill n)).flow = (n + 1) * (config v layer (.supportInfill 0)).flow := by
  unfold config
  dsimp only
  constructor <;> split_ifs <;> simp only [firstSpeeds, baseConfig, meshConfig] <;> push_cast <;> ring

/-- The flow of the bottom of support is that of the extruder for its roof. -/
theorem C131_bottom_counterexample : ¬ ∀ (v w : Env) (e : Nat), Except e v w → v.supportBottomE ≠ e → config v 1 .supportBottom = config w 1 .supportBottom := by
  intro h
  have := h ⟨fun _ _ => 1, fun _ _ => 1, fun _ _ => 0, 0, 0, 0, 0, 0, 1, 0, false, 0, 100⟩ _ 0 ⟨fun _ => 2, rfl⟩ (by simp)
  revert this
  decide +kernel

/-- The flow of the middle layers of a raft is that of the extruder for its base. -/
theorem C131_raft_counterexample : ¬ ∀ (v w : Env) (e : Nat), Except e v w → v.raftInterfaceE ≠ e → config v (-1) .raftInterface = config w (-1) .raftInterface := by
  intro h
  have := h ⟨fun _ _ => 1, fun _ _ => 1, fun _ _ => 0, 0, 1, 1, 0, 0, 0, 0, false, 0, 100⟩ _ 0 ⟨fun _ => 2, rfl⟩ (by simp)
  revert this
  decide +kernel

/-- So is that of its top layers. -/
theorem C131_surface_counterexample : ¬ ∀ (v w : Env) (e : Nat), Except e v w → v.raftSurfaceE ≠ e → config v (-1) .raftSurface = config w (-1) .raftSurface := by
  intro h
  have := h ⟨fun _ _ => 1, fun _ _ => 1, fun _ _ => 0, 0, 1, 1, 0, 0, 0, 0, false, 0, 100⟩ _ 0 ⟨fun _ => 2, rfl⟩ (by simp)
  revert this
  decide +kernel

/-- The features that are slowed down on the first layers, with their speeds for the first layer. -/
inductive Slowed (v : Env) (layer : Int) : Feature → Speeds → Prop where
  | roof : Slowed v layer .supportRoof ⟨v.ext v.supportRoofE "speed_print_layer_0", v.ext v.supportRoofE "acceleration_print_layer_0", v.ext v.supportRoofE "jerk_print_layer_0"⟩
  | bottom : Slowed v layer .supportBottom ⟨v.ext v.supportBottomE "speed_print_layer_0", v.ext v.supportBottomE "acceleration_print_layer_0", v.ext v.supportBottomE "jerk_print_layer_0"⟩
  | first (n : Nat) : layer ≤ 0 → Slowed v layer (.supportInfill n) ⟨v.ext v.supportFirstE "speed_print_layer_0", v.ext v.supportFirstE "acceleration_print_layer_0", v.ext v.supportFirstE "jerk_print_layer_0"⟩
  | support (n : Nat) : 0 < layer → Slowed v layer (.supportInfill n) ⟨v.ext v.supportInfillE "speed_print_layer_0", v.ext v.supportInfillE "acceleration_print_layer_0", v.ext v.supportInfillE "jerk_print_layer_0"⟩
  | travel (e : Nat) : Slowed v layer (.travel e) ⟨v.ext e "speed_travel_layer_0", v.ext e "acceleration_travel_layer_0", v.ext e "jerk_travel_layer_0"⟩
  | tower (e : Nat) : Slowed v layer (.primeTower e) ⟨v.ext e "speed_print_layer_0", v.ext e "acceleration_print_layer_0", v.ext e "jerk_print_layer_0"⟩
  | model (m : Nat) (k : Kind) : (k = .inset0 ∨ k = .insetX ∨ k = .skin ∨ k = .roofing ∨ k = .ironing ∨ ∃ n, k = .infill n) →
      Slowed v layer (.mesh m k) ⟨v.mesh m "speed_print_layer_0", v.mesh m "acceleration_print_layer_0", v.mesh m "jerk_print_layer_0"⟩

theorem firstSpeeds_slowed {v : Env} {layer : Int} {f : Feature} {s : Speeds} (h : Slowed v layer f s) : firstSpeeds v layer f = some s := by
  cases h with
  | roof => rfl
  | bottom => rfl
  | first n h => simp only [firstSpeeds, extSpeeds, if_pos h]
  | support n h => simp only [firstSpeeds, extSpeeds, if_neg (not_le.2 h)]
  | travel e => rfl
  | tower e => rfl
  | model m k h =>
    rcases h with h | h | h | h | h | ⟨n, h⟩ <;> subst h <;> rfl

/-- On the first layers, the speed, acceleration and jerk of these features rise in equal steps from those of the first layer to the ones of the layers above, and then stay. -/
theorem C132_ramp_partial (v : Env) (layer : Int) (h0 : 0 ≤ layer) (f : Feature) (s : Speeds) (h : Slowed v layer f s) (above : Int) (ha : v.slowLayers ≤ above) :
    Ramp (config v above f).speeds.speed s.speed v.slowLayers layer (config v layer f).speeds.speed
    ∧ Ramp (config v above f).speeds.acceleration s.acceleration v.slowLayers layer (config v layer f).speeds.acceleration
    ∧ Ramp (config v above f).speeds.jerk s.jerk v.slowLayers layer (config v layer f).speeds.jerk := by
  have hn : config v above f = baseConfig v above f := by
    unfold config
    dsimp only
    rw [if_neg fun h => absurd h.2 (not_lt.2 ha)]
  rw [hn, baseConfig_speeds v above layer f]
  unfold config
  dsimp only
  rw [firstSpeeds_slowed h]
  by_cases hl : layer < v.slowLayers
  · rw [if_pos ⟨h0, hl⟩]
    dsimp only [smooth]
    exact ⟨⟨fun _ => smoothValue_ramp _ _ _ _ h0 hl, fun h => absurd hl (not_lt.2 h)⟩, ⟨fun _ => smoothValue_ramp _ _ _ _ h0 hl, fun h => absurd hl (not_lt.2 h)⟩,
      ⟨fun _ => smoothValue_ramp _ _ _ _ h0 hl, fun h => absurd hl (not_lt.2 h)⟩⟩
  · rw [if_neg fun h => hl h.2]
    exact ⟨⟨fun h => absurd h hl, fun _ => rfl⟩, ⟨fun h => absurd h hl, fun _ => rfl⟩, ⟨fun h => absurd h hl, fun _ => rfl⟩⟩

/-- No layer is printed slower than the first one, or than a lower one, and none faster than set: for each feature of a model that is slowed down. -/
theorem C132_rising (v : Env) (i j : Int) (h0 : 0 ≤ i) (hij : i ≤ j) (m : Nat) (k : Kind) (hk : k = .inset0 ∨ k = .insetX ∨ k = .skin ∨ k = .roofing ∨ k = .ironing ∨ ∃ n, k = .infill n) :
    min (v.mesh m (names k).2.2.1) (v.mesh m "speed_print_layer_0") ≤ (config v i (.mesh m k)).speeds.speed
    ∧ (config v i (.mesh m k)).speeds.speed ≤ (config v j (.mesh m k)).speeds.speed
    ∧ (config v j (.mesh m k)).speeds.speed ≤ v.mesh m (names k).2.2.1 := by
  have h1 := (C132_ramp_partial v i h0 _ _ (.model m k hk) v.slowLayers (le_refl _)).1
  have h2 := (C132_ramp_partial v j (le_trans h0 hij) _ _ (.model m k hk) v.slowLayers (le_refl _)).1
  have hn : (config v v.slowLayers (.mesh m k)).speeds.speed = v.mesh m (names k).2.2.1 := by
    unfold config
    dsimp only
    rw [if_neg fun h => absurd h.2 (lt_irrefl _)]
    cases k <;> rfl
  rw [hn] at h1 h2
  exact ramp_mono h0 hij h1 h2

/-- All the other features have the same speeds on all layers. -/
theorem C132_steady (v : Env) (f : Feature) (h : ∀ layer s, ¬ Slowed v layer f s) (i j : Int) : (config v i f).speeds = (config v j f).speeds := by
  have hnone : ∀ l, firstSpeeds v l f = none := by
    intro l
    cases f with
    | raftBase => rfl
    | raftInterface => rfl
    | raftSurface => rfl
    | skirtBrim e => rfl
    | supportRoof => exact absurd (.roof) (h l _)
    | supportBottom => exact absurd (.bottom) (h l _)
    | supportInfill n => exact absurd (.first n (le_refl 0)) (h 0 _)
    | travel e => exact absurd (.travel e) (h l _)
    | primeTower e => exact absurd (.tower e) (h l _)
    | mesh m k =>
      cases k <;> first | rfl | exact absurd (.model m _ (by simp)) (h l _)
  have hc : ∀ l, config v l f = baseConfig v l f := by
    intro l
    unfold config
    dsimp only
    rw [hnone l]
    dsimp only
    split_ifs <;> rfl
  rw [hc i, hc j, baseConfig_speeds v i j f]

/-- Walls in top and bottom surfaces, flooring, bridges and the support of skin are not slowed down: they have their normal speed, even if that is faster than the speed for the first layer. -/
theorem C132_others_counterexample (k : Kind) (hk : k = .inset0Roofing ∨ k = .insetXRoofing ∨ k = .inset0Flooring ∨ k = .insetXFlooring ∨ k = .flooring ∨ k = .skinSupport) :
    ¬ ∀ (v : Env) (m : Nat), 0 < v.slowLayers → (config v 0 (.mesh m k)).speeds.speed ≤ v.mesh m "speed_print_layer_0" := by
  intro h
  have := h ⟨fun _ _ => 1, fun _ s => if s = "speed_print_layer_0" then 1 else 2, fun _ _ => 0, 0, 0, 0, 0, 0, 0, 0, false, 3, 100⟩ 0 (by norm_num)
  revert this
  rcases hk with h | h | h | h | h | h <;> subst h <;> decide +kernel

/-- Layers below the first one (above a raft) are not slowed down. -/
theorem C132_below_counterexample : ¬ ∀ (v : Env) (layer : Int), layer ≤ 0 → 0 < v.slowLayers → (config v layer (.travel 0)).speeds.speed ≤ v.ext 0 "speed_travel_layer_0" := by
  intro h
  have := h ⟨fun _ s => if s = "speed_travel_layer_0" then 1 else 2, fun _ _ => 1, fun _ _ => 0, 0, 0, 0, 0, 0, 0, 0, false, 3, 100⟩ (-1) (by norm_num) (by norm_num)
  revert this
  decide +kernel

end Verif.Configs
