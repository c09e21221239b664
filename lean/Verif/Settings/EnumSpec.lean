/-! # Specification of enumeration settings: which enumerator a word of the settings names -/

namespace Verif.Settings.EnumSpec

/-- The enumerator that a word names: the word in upper case, apart from a few that are called otherwise in the
definitions of the settings than in the engine. -/
def named (word : String) : String :=
  match word with
  | "RepRap (Volumetric)" => "MARLIN_VOLUMATRIC"
  | "RepRap (RepRap)" => "REPRAP"
  | "zigzag" => "ZIG_ZAG"
  | "noskin" => "NO_SKIN"
  | "buildplate" => "PLATFORM_ONLY"
  | "back" => "USER_SPECIFIED"
  | "z_seam_corner_inner" => "Z_SEAM_CORNER_PREF_INNER"
  | "z_seam_corner_outer" => "Z_SEAM_CORNER_PREF_OUTER"
  | "z_seam_corner_any" => "Z_SEAM_CORNER_PREF_ANY"
  | "z_seam_corner_weighted" => "Z_SEAM_CORNER_PREF_WEIGHTED"
  | _ => String.ofList (word.toList.map Char.toUpper)

/-- The words of each enumeration. -/
def words : String → List String
  | "EPlatformAdhesion" => ["skirt", "brim", "raft", "none"]
  | "EFillMethod" => ["none", "lines", "grid", "cubic", "cubicsubdiv", "tetrahedral", "quarter_cubic", "triangles",
      "trihexagon", "concentric", "zigzag", "cross", "cross_3d", "gyroid", "lightning", "honeycomb", "octagon"]
  | "EGCodeFlavor" => ["Marlin", "Griffin", "Cheetah", "UltiGCode", "Makerbot", "BFB", "MACH3", "RepRap (Volumetric)",
      "Repetier", "RepRap (RepRap)"]
  | "DraftShieldHeightLimitation" => ["full", "limited"]
  | "ESupportType" => ["none", "everywhere", "buildplate"]
  | "ESupportStructure" => ["normal", "tree"]
  | "EZSeamType" => ["shortest", "random", "back", "sharpest_corner"]
  | "EZSeamCornerPrefType" => ["z_seam_corner_inner", "z_seam_corner_outer", "z_seam_corner_any",
      "z_seam_corner_weighted"]
  | "ESurfaceMode" => ["normal", "surface", "both"]
  | "FillPerimeterGapMode" => ["nowhere", "everywhere"]
  | "BuildPlateShape" => ["rectangular", "elliptic"]
  | "CombingMode" => ["all", "off", "noskin", "no_outer_surfaces", "infill"]
  | "SupportDistPriority" => ["xy_overrides_z", "z_overrides_xy"]
  | "SlicingTolerance" => ["middle", "inclusive", "exclusive"]
  | "InsetDirection" => ["inside_out", "outside_in"]
  | _ => []

end Verif.Settings.EnumSpec
