import Verif.Configs.Spec

/-! # Settings of the features: the code

Modelled are the configurations of `PathConfigStorage` (src/settings/PathConfigStorage.cpp:17-245) and `MeshPathConfigs` (src/settings/MeshPathConfigs.cpp:13-190), and `SpeedDerivatives::smoothSpeed` (src/pathPlanning/SpeedDerivatives.cpp:9-21). Simplifications: numbers are rational; the type of the feature, fan speeds, offsets of the height and changes of temperature are left out; a setting is a number for each name, and those that name an extruder are a separate function. -/

namespace Verif.Configs

/-- `getLineWidthFactorPerExtruder` (src/settings/PathConfigStorage.cpp:17-33). -/
def widthFactor (v : Env) (layer : Int) (e : Nat) : ℚ := if layer ≤ 0 then v.ext e "initial_layer_line_width_factor" else 1

/-- The conversion to whole micrometres (of numbers that are not negative). -/
def whole (q : ℚ) : ℚ := (⌊q⌋ : Int)

/-- The factor for the flow on the first layer, of an extruder (e.g. src/settings/PathConfigStorage.cpp:72). -/
def flow0 (v : Env) (layer : Int) (e : Nat) : ℚ := if layer = 0 then v.ext e "material_flow_layer_0" else 1

/-- The same for a model, for the name of the setting (e.g. src/settings/MeshPathConfigs.cpp:19). -/
def meshFlow0 (v : Env) (layer : Int) (m : Nat) (key : String) : ℚ := if layer = 0 then v.mesh m key else 1

/-- Speed, acceleration and jerk of an extruder, by their names. -/
def extSpeeds (v : Env) (e : Nat) (a b c : String) : Speeds := ⟨v.ext e a, v.ext e b, v.ext e c⟩

/-- The same of a model. -/
def meshSpeeds (v : Env) (m : Nat) (a b c : String) : Speeds := ⟨v.mesh m a, v.mesh m b, v.mesh m c⟩

/-- A line width of a model with the factor for the first layer. -/
def meshWidth (v : Env) (layer : Int) (m : Nat) (key ext : String) : ℚ := whole (v.mesh m key * widthFactor v layer (v.meshExt m ext))

/-- The configurations of a model (src/settings/MeshPathConfigs.cpp:13-190). -/
def meshConfig (v : Env) (layer : Int) (m : Nat) : Kind → Config
  | .inset0 => ⟨meshWidth v layer m "wall_line_width_0" "wall_0_extruder_nr", v.thickness, v.mesh m "wall_0_material_flow" * meshFlow0 v layer m "wall_0_material_flow_layer_0",
      meshSpeeds v m "speed_wall_0" "acceleration_wall_0" "jerk_wall_0"⟩
  | .insetX => ⟨meshWidth v layer m "wall_line_width_x" "wall_x_extruder_nr", v.thickness, v.mesh m "wall_x_material_flow" * meshFlow0 v layer m "wall_x_material_flow_layer_0",
      meshSpeeds v m "speed_wall_x" "acceleration_wall_x" "jerk_wall_x"⟩
  | .inset0Roofing => ⟨meshWidth v layer m "wall_line_width_0" "wall_0_extruder_nr", v.thickness, v.mesh m "wall_0_material_flow_roofing" * meshFlow0 v layer m "wall_0_material_flow_layer_0",
      meshSpeeds v m "speed_wall_0_roofing" "acceleration_wall_0_roofing" "jerk_wall_0_roofing"⟩
  | .insetXRoofing => ⟨meshWidth v layer m "wall_line_width_x" "wall_x_extruder_nr", v.thickness, v.mesh m "wall_x_material_flow_roofing" * meshFlow0 v layer m "wall_x_material_flow_layer_0",
      meshSpeeds v m "speed_wall_x_roofing" "acceleration_wall_x_roofing" "jerk_wall_x_roofing"⟩
  | .inset0Flooring => ⟨meshWidth v layer m "wall_line_width_0" "wall_0_extruder_nr", v.thickness, v.mesh m "wall_0_material_flow_flooring" * meshFlow0 v layer m "wall_0_material_flow_layer_0",
      meshSpeeds v m "speed_wall_0_flooring" "acceleration_wall_0_flooring" "jerk_wall_0_flooring"⟩
  | .insetXFlooring => ⟨meshWidth v layer m "wall_line_width_x" "wall_x_extruder_nr", v.thickness, v.mesh m "wall_x_material_flow_flooring" * meshFlow0 v layer m "wall_x_material_flow_layer_0",
      meshSpeeds v m "speed_wall_x_flooring" "acceleration_wall_x_flooring" "jerk_wall_x_flooring"⟩
  | .bridgeInset0 => ⟨meshWidth v layer m "wall_line_width_0" "wall_0_extruder_nr", v.thickness, v.mesh m "bridge_wall_material_flow",
      meshSpeeds v m "bridge_wall_speed" "acceleration_wall_0" "jerk_wall_0"⟩
  | .bridgeInsetX => ⟨meshWidth v layer m "wall_line_width_x" "wall_x_extruder_nr", v.thickness, v.mesh m "bridge_wall_material_flow",
      meshSpeeds v m "bridge_wall_speed" "acceleration_wall_x" "jerk_wall_x"⟩
  | .skin => ⟨meshWidth v layer m "skin_line_width" "top_bottom_extruder_nr", v.thickness, v.mesh m "skin_material_flow" * meshFlow0 v layer m "skin_material_flow_layer_0",
      meshSpeeds v m "speed_topbottom" "acceleration_topbottom" "jerk_topbottom"⟩
  | .bridgeSkin => ⟨meshWidth v layer m "skin_line_width" "top_bottom_extruder_nr", v.thickness, v.mesh m "bridge_skin_material_flow",
      meshSpeeds v m "bridge_skin_speed" "acceleration_topbottom" "jerk_topbottom"⟩
  | .bridgeSkin2 => ⟨meshWidth v layer m "skin_line_width" "top_bottom_extruder_nr", v.thickness, v.mesh m "bridge_skin_material_flow_2",
      meshSpeeds v m "bridge_skin_speed_2" "acceleration_topbottom" "jerk_topbottom"⟩
  | .bridgeSkin3 => ⟨meshWidth v layer m "skin_line_width" "top_bottom_extruder_nr", v.thickness, v.mesh m "bridge_skin_material_flow_3",
      meshSpeeds v m "bridge_skin_speed_3" "acceleration_topbottom" "jerk_topbottom"⟩
  | .roofing => ⟨v.mesh m "roofing_line_width", v.thickness, v.mesh m "roofing_material_flow" * meshFlow0 v layer m "material_flow_layer_0",
      meshSpeeds v m "speed_roofing" "acceleration_roofing" "jerk_roofing"⟩
  | .flooring => ⟨v.mesh m "flooring_line_width", v.thickness, v.mesh m "flooring_material_flow" * meshFlow0 v layer m "material_flow_layer_0",
      meshSpeeds v m "speed_flooring" "acceleration_flooring" "jerk_flooring"⟩
  | .ironing => ⟨v.mesh m "ironing_line_spacing", v.thickness, v.mesh m "ironing_flow", meshSpeeds v m "speed_ironing" "acceleration_ironing" "jerk_ironing"⟩
  | .skinSupport => ⟨v.mesh m "infill_line_width", v.thickness, v.mesh m "skin_support_material_flow", meshSpeeds v m "skin_support_speed" "acceleration_infill" "jerk_infill"⟩
  | .infill n => ⟨meshWidth v layer m "infill_line_width" "infill_extruder_nr", v.thickness, v.mesh m "infill_material_flow" * meshFlow0 v layer m "material_flow_layer_0" * (n + 1),
      meshSpeeds v m "speed_infill" "acceleration_infill" "jerk_infill"⟩

/-- The configurations before the first layers are slowed down (src/settings/PathConfigStorage.cpp:35-147). -/
def baseConfig (v : Env) (layer : Int) : Feature → Config
  | .raftBase => ⟨v.ext v.raftBaseE "raft_base_line_width", v.ext v.raftBaseE "raft_base_thickness", v.ext v.raftBaseE "raft_base_flow",
      extSpeeds v v.raftBaseE "raft_base_speed" "raft_base_acceleration" "raft_base_jerk"⟩
  | .raftInterface => ⟨v.ext v.raftInterfaceE "raft_interface_line_width", v.ext v.raftInterfaceE "raft_interface_thickness", v.ext v.raftBaseE "raft_interface_flow",
      extSpeeds v v.raftInterfaceE "raft_interface_speed" "raft_interface_acceleration" "raft_interface_jerk"⟩
  | .raftSurface => ⟨v.ext v.raftSurfaceE "raft_surface_line_width", v.ext v.raftSurfaceE "raft_surface_thickness", v.ext v.raftBaseE "raft_surface_flow",
      extSpeeds v v.raftSurfaceE "raft_surface_speed" "raft_surface_acceleration" "raft_surface_jerk"⟩
  | .supportRoof => ⟨whole (v.ext v.supportRoofE "support_roof_line_width" * widthFactor v layer v.supportRoofE), v.thickness,
      v.ext v.supportRoofE "support_roof_material_flow" * flow0 v layer v.supportRoofE, extSpeeds v v.supportRoofE "speed_support_roof" "acceleration_support_roof" "jerk_support_roof"⟩
  | .supportBottom => ⟨whole (v.ext v.supportBottomE "support_bottom_line_width" * widthFactor v layer v.supportBottomE), v.thickness,
      v.ext v.supportRoofE "support_bottom_material_flow" * flow0 v layer v.supportRoofE, extSpeeds v v.supportBottomE "speed_support_bottom" "acceleration_support_bottom" "jerk_support_bottom"⟩
  | .supportInfill n => ⟨whole (v.ext v.supportInfillE "support_line_width" * (if v.raft then 1 else widthFactor v layer v.supportInfillE)), v.thickness,
      v.ext v.supportInfillE "support_material_flow" * flow0 v layer v.supportInfillE * (n + 1), extSpeeds v v.supportInfillE "speed_support_infill" "acceleration_support_infill" "jerk_support_infill"⟩
  | .travel e => ⟨0, 0, 0, extSpeeds v e "speed_travel" "acceleration_travel" "jerk_travel"⟩
  | .skirtBrim e => ⟨whole (v.ext e "skirt_brim_line_width" * (if v.raft then 1 else widthFactor v layer e)), v.thickness,
      v.ext e "skirt_brim_material_flow" * flow0 v layer e, extSpeeds v e "skirt_brim_speed" "acceleration_skirt_brim" "jerk_skirt_brim"⟩
  | .primeTower e => ⟨whole (v.ext e "prime_tower_line_width" * (if v.raft then 1 else widthFactor v layer e)), v.thickness,
      v.ext e "prime_tower_flow" * flow0 v layer e, extSpeeds v e "speed_prime_tower" "acceleration_prime_tower" "jerk_prime_tower"⟩
  | .mesh m k => meshConfig v layer m k

/-- One value of `smoothSpeed` (src/pathPlanning/SpeedDerivatives.cpp:11-20). -/
def smoothValue (value first : ℚ) (layer : Int) (count : Nat) : ℚ :=
  (value * layer) / count + (min value first * ((count : ℚ) - layer)) / count

/-- `SpeedDerivatives::smoothSpeed` (src/pathPlanning/SpeedDerivatives.cpp:9-21). -/
def smooth (s first : Speeds) (layer : Int) (count : Nat) : Speeds :=
  ⟨smoothValue s.speed first.speed layer count, smoothValue s.acceleration first.acceleration layer count, smoothValue s.jerk first.jerk layer count⟩

/-- The speeds of the first layer for a feature, if it is slowed down (src/settings/PathConfigStorage.cpp:168-253). -/
def firstSpeeds (v : Env) (layer : Int) : Feature → Option Speeds
  | .supportInfill _ => some (extSpeeds v (if layer ≤ 0 then v.supportFirstE else v.supportInfillE) "speed_print_layer_0" "acceleration_print_layer_0" "jerk_print_layer_0")
  | .supportRoof => some (extSpeeds v v.supportRoofE "speed_print_layer_0" "acceleration_print_layer_0" "jerk_print_layer_0")
  | .supportBottom => some (extSpeeds v v.supportBottomE "speed_print_layer_0" "acceleration_print_layer_0" "jerk_print_layer_0")
  | .travel e => some (extSpeeds v e "speed_travel_layer_0" "acceleration_travel_layer_0" "jerk_travel_layer_0")
  | .primeTower e => some (extSpeeds v e "speed_print_layer_0" "acceleration_print_layer_0" "jerk_print_layer_0")
  | .mesh m .inset0 => some (meshSpeeds v m "speed_print_layer_0" "acceleration_print_layer_0" "jerk_print_layer_0")
  | .mesh m .insetX => some (meshSpeeds v m "speed_print_layer_0" "acceleration_print_layer_0" "jerk_print_layer_0")
  | .mesh m .skin => some (meshSpeeds v m "speed_print_layer_0" "acceleration_print_layer_0" "jerk_print_layer_0")
  | .mesh m .ironing => some (meshSpeeds v m "speed_print_layer_0" "acceleration_print_layer_0" "jerk_print_layer_0")
  | .mesh m (.infill _) => some (meshSpeeds v m "speed_print_layer_0" "acceleration_print_layer_0" "jerk_print_layer_0")
  | .mesh m .roofing => some (meshSpeeds v m "speed_print_layer_0" "acceleration_print_layer_0" "jerk_print_layer_0")
  | _ => none

/-- The configuration of a feature on a layer (src/settings/PathConfigStorage.cpp:35-166, 181-253). -/
def config (v : Env) (layer : Int) (f : Feature) : Config :=
  let c := baseConfig v layer f
  if layer ≥ 0 ∧ layer < v.slowLayers then
    match firstSpeeds v layer f with
    | none => c
    | some s => { c with speeds := smooth c.speeds s layer v.slowLayers }
  else c

end Verif.Configs
