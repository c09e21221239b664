import Mathlib.Data.Rat.Floor
import Mathlib.Data.List.Basic

/-! # Settings of the features: what they should be -/

namespace Verif.Configs

/-- What is printed of a model. `infill n`: the infill of `n + 1` layers. -/
inductive Kind where
  | inset0 | insetX | inset0Roofing | insetXRoofing | inset0Flooring | insetXFlooring | bridgeInset0 | bridgeInsetX
  | skin | bridgeSkin | bridgeSkin2 | bridgeSkin3 | roofing | flooring | ironing | skinSupport
  | infill (n : Nat)
deriving DecidableEq, Repr

/-- What is printed. `supportInfill n`: the support of `n + 1` layers. -/
inductive Feature where
  | raftBase | raftInterface | raftSurface | supportRoof | supportBottom
  | supportInfill (n : Nat)
  | travel (e : Nat)
  | skirtBrim (e : Nat)
  | primeTower (e : Nat)
  | mesh (m : Nat) (k : Kind)
deriving DecidableEq, Repr

/-- All settings that matter: of the extruders and models (by name), and which extruder prints what. -/
structure Env where
  ext : Nat → String → ℚ
  mesh : Nat → String → ℚ
  meshExt : Nat → String → Nat
  raftBaseE : Nat
  raftInterfaceE : Nat
  raftSurfaceE : Nat
  supportInfillE : Nat
  supportRoofE : Nat
  supportBottomE : Nat
  supportFirstE : Nat
  raft : Bool
  slowLayers : Nat
  thickness : ℚ

/-- Speed, acceleration and jerk. -/
structure Speeds where
  speed : ℚ
  acceleration : ℚ
  jerk : ℚ
deriving DecidableEq, Repr

/-- How a feature is printed. -/
structure Config where
  width : ℚ
  thickness : ℚ
  flow : ℚ
  speeds : Speeds
deriving DecidableEq, Repr

namespace Spec

/-- The extruder that prints a feature; the parts of a model have the settings of the model. -/
def printer (v : Env) : Feature → Option Nat
  | .raftBase => some v.raftBaseE
  | .raftInterface => some v.raftInterfaceE
  | .raftSurface => some v.raftSurfaceE
  | .supportRoof => some v.supportRoofE
  | .supportBottom => some v.supportBottomE
  | .supportInfill _ => some v.supportInfillE
  | .travel e => some e
  | .skirtBrim e => some e
  | .primeTower e => some e
  | .mesh _ _ => none

/-- The settings of one extruder are changed in any way; all the others are kept. -/
def Except (e : Nat) (v w : Env) : Prop := ∃ s, w = { v with ext := fun i => if i = e then s else v.ext i }

/-- The names of the settings for the width, the flow, the speed, the acceleration and the jerk of a part of a model. -/
def names : Kind → String × String × String × String × String
  | .inset0 => ("wall_line_width_0", "wall_0_material_flow", "speed_wall_0", "acceleration_wall_0", "jerk_wall_0")
  | .insetX => ("wall_line_width_x", "wall_x_material_flow", "speed_wall_x", "acceleration_wall_x", "jerk_wall_x")
  | .inset0Roofing => ("wall_line_width_0", "wall_0_material_flow_roofing", "speed_wall_0_roofing", "acceleration_wall_0_roofing", "jerk_wall_0_roofing")
  | .insetXRoofing => ("wall_line_width_x", "wall_x_material_flow_roofing", "speed_wall_x_roofing", "acceleration_wall_x_roofing", "jerk_wall_x_roofing")
  | .inset0Flooring => ("wall_line_width_0", "wall_0_material_flow_flooring", "speed_wall_0_flooring", "acceleration_wall_0_flooring", "jerk_wall_0_flooring")
  | .insetXFlooring => ("wall_line_width_x", "wall_x_material_flow_flooring", "speed_wall_x_flooring", "acceleration_wall_x_flooring", "jerk_wall_x_flooring")
  | .bridgeInset0 => ("wall_line_width_0", "bridge_wall_material_flow", "bridge_wall_speed", "acceleration_wall_0", "jerk_wall_0")
  | .bridgeInsetX => ("wall_line_width_x", "bridge_wall_material_flow", "bridge_wall_speed", "acceleration_wall_x", "jerk_wall_x")
  | .skin => ("skin_line_width", "skin_material_flow", "speed_topbottom", "acceleration_topbottom", "jerk_topbottom")
  | .bridgeSkin => ("skin_line_width", "bridge_skin_material_flow", "bridge_skin_speed", "acceleration_topbottom", "jerk_topbottom")
  | .bridgeSkin2 => ("skin_line_width", "bridge_skin_material_flow_2", "bridge_skin_speed_2", "acceleration_topbottom", "jerk_topbottom")
  | .bridgeSkin3 => ("skin_line_width", "bridge_skin_material_flow_3", "bridge_skin_speed_3", "acceleration_topbottom", "jerk_topbottom")
  | .roofing => ("roofing_line_width", "roofing_material_flow", "speed_roofing", "acceleration_roofing", "jerk_roofing")
  | .flooring => ("flooring_line_width", "flooring_material_flow", "speed_flooring", "acceleration_flooring", "jerk_flooring")
  | .ironing => ("ironing_line_spacing", "ironing_flow", "speed_ironing", "acceleration_ironing", "jerk_ironing")
  | .skinSupport => ("infill_line_width", "skin_support_material_flow", "skin_support_speed", "acceleration_infill", "jerk_infill")
  | .infill _ => ("infill_line_width", "infill_material_flow", "speed_infill", "acceleration_infill", "jerk_infill")

/-- The number of layers printed at once. -/
def layers : Kind → Nat
  | .infill n => n + 1
  | _ => 1

/-- The same names for what belongs to no model. (A travel move has neither width nor flow.) -/
def names' : Feature → Option (String × String × String × String × String)
  | .raftBase => some ("raft_base_line_width", "raft_base_flow", "raft_base_speed", "raft_base_acceleration", "raft_base_jerk")
  | .raftInterface => some ("raft_interface_line_width", "raft_interface_flow", "raft_interface_speed", "raft_interface_acceleration", "raft_interface_jerk")
  | .raftSurface => some ("raft_surface_line_width", "raft_surface_flow", "raft_surface_speed", "raft_surface_acceleration", "raft_surface_jerk")
  | .supportRoof => some ("support_roof_line_width", "support_roof_material_flow", "speed_support_roof", "acceleration_support_roof", "jerk_support_roof")
  | .supportBottom => some ("support_bottom_line_width", "support_bottom_material_flow", "speed_support_bottom", "acceleration_support_bottom", "jerk_support_bottom")
  | .supportInfill _ => some ("support_line_width", "support_material_flow", "speed_support_infill", "acceleration_support_infill", "jerk_support_infill")
  | .skirtBrim _ => some ("skirt_brim_line_width", "skirt_brim_material_flow", "skirt_brim_speed", "acceleration_skirt_brim", "jerk_skirt_brim")
  | .primeTower _ => some ("prime_tower_line_width", "prime_tower_flow", "speed_prime_tower", "acceleration_prime_tower", "jerk_prime_tower")
  | .travel _ => none
  | .mesh _ _ => none

/-- The number of layers printed at once. -/
def layers' : Feature → Nat
  | .supportInfill n => n + 1
  | _ => 1

/-- The extruder whose flow is used: normally the one that prints. -/
def flowExtruder (v : Env) (f : Feature) (p : Nat) : Nat :=
  if f = .supportBottom then v.supportRoofE else if f = .raftInterface ∨ f = .raftSurface then v.raftBaseE else p

/-- The value for a layer of the first `count` ones: in equal steps from the value for the first layer, or from the normal one if that is smaller, to the normal one. -/
def Ramp (normal first : ℚ) (count : Nat) (layer : Int) (value : ℚ) : Prop :=
  (layer < count → value = min normal first + (normal - min normal first) * (layer / count)) ∧ (count ≤ layer → value = normal)

end Spec

end Verif.Configs
