/-! # Model of string switches (include/utils/types/string_switch.h) and of enumeration settings

`switch (hash_enum(value))` compares 64-bit hashes, not strings. -/

namespace Verif.Settings

/-- One round of the hash, string_switch.h:18. -/
def hashStep (h : BitVec 64) (c : BitVec 8) : BitVec 64 := ((h <<< 5) + h) ^^^ c.setWidth 64

/-- `hash_djb2a`, string_switch.h:13-21. -/
def hashDjb2a (value : List (BitVec 8)) : BitVec 64 := value.foldl hashStep 5381#64

/-- The bytes of an ASCII string. -/
def bytes (s : String) : List (BitVec 8) := s.toList.map fun c => BitVec.ofNat 8 c.toNat

/-- `hash_enum`, string_switch.h:23-31. -/
def hashEnum (value : List (BitVec 8)) : BitVec 64 :=
  if 6 < value.length ∧ value[6]? = some (BitVec.ofNat 8 ':'.toNat) then hashDjb2a (bytes "plugin") else hashDjb2a value

/-- The pattern of all enumeration getters, Settings.cpp:204-692: the cases in order, then the default. -/
def enumSetting {α : Type} (cases : List (String × α)) (default : α) (value : List (BitVec 8)) : α :=
  match cases.find? fun c => hashEnum (bytes c.1) = hashEnum value with
  | some c => c.2
  | none => default

/-- `EPlatformAdhesion`, settings/EnumSettings.h. -/
inductive EPlatformAdhesion | SKIRT | BRIM | RAFT | NONE | PLUGIN
  deriving DecidableEq, Repr

/-- `Settings::get<EPlatformAdhesion>`, Settings.cpp:454-474. -/
def asPlatformAdhesion : List (BitVec 8) → EPlatformAdhesion :=
  enumSetting [("skirt", .SKIRT), ("brim", .BRIM), ("raft", .RAFT), ("none", .NONE), ("plugin", .PLUGIN)] .SKIRT

/-- `SlicingTolerance`, settings/EnumSettings.h. -/
inductive SlicingTolerance | MIDDLE | INCLUSIVE | EXCLUSIVE | PLUGIN
  deriving DecidableEq, Repr

/-- `Settings::get<SlicingTolerance>`, Settings.cpp:656-674. -/
def asSlicingTolerance : List (BitVec 8) → SlicingTolerance :=
  enumSetting [("middle", .MIDDLE), ("inclusive", .INCLUSIVE), ("exclusive", .EXCLUSIVE), ("plugin", .PLUGIN)] .MIDDLE

/-! ## All enumeration getters -/

/-- An enumeration getter: the name of the enumeration, the labels with the enumerators they select, the default. -/
structure Getter where
  name : String
  cases : List (String × String)
  default : String

/-- The enumerator that is returned for the stored text. -/
def Getter.read (g : Getter) (value : List (BitVec 8)) : String := enumSetting g.cases g.default value

/-- The getters of Settings.cpp that switch on the hash, one by one:
`DraftShieldHeightLimitation` 204-220; `EGCodeFlavor` 372-404; `EFillMethod` 406-452; `EPlatformAdhesion` 454-474;
    `ESupportType` 476-494; `ESupportStructure` 496-512; `EZSeamType` 515-535; `EZSeamCornerPrefType` 537-556;
    `ESurfaceMode` 558-576; `FillPerimeterGapMode` 578-594; `BuildPlateShape` 596-612; `CombingMode` 614-636;
    `SupportDistPriority` 638-654; `SlicingTolerance` 656-674; `InsetDirection` 676-692. -/
def getters : List Getter := [
  ⟨"DraftShieldHeightLimitation", [("full", "FULL"), ("limited", "LIMITED"), ("plugin", "PLUGIN")], "FULL"⟩,
  ⟨"EGCodeFlavor", [("Marlin", "MARLIN"), ("Griffin", "GRIFFIN"), ("Cheetah", "CHEETAH"), ("UltiGCode",
    "ULTIGCODE"), ("Makerbot", "MAKERBOT"), ("BFB", "BFB"), ("MACH3", "MACH3"), ("RepRap (Volumetric)",
    "MARLIN_VOLUMATRIC"), ("Repetier", "REPETIER"), ("RepRap (RepRap)", "REPRAP"), ("plugin", "PLUGIN")], "MARLIN"⟩,
  ⟨"EFillMethod", [("none", "NONE"), ("lines", "LINES"), ("grid", "GRID"), ("cubic", "CUBIC"), ("cubicsubdiv",
    "CUBICSUBDIV"), ("tetrahedral", "TETRAHEDRAL"), ("quarter_cubic", "QUARTER_CUBIC"), ("triangles", "TRIANGLES"),
    ("trihexagon", "TRIHEXAGON"), ("concentric", "CONCENTRIC"), ("zigzag", "ZIG_ZAG"), ("cross", "CROSS"),
    ("cross_3d", "CROSS_3D"), ("gyroid", "GYROID"), ("lightning", "LIGHTNING"), ("honeycomb", "HONEYCOMB"),
    ("octagon", "OCTAGON"), ("plugin", "PLUGIN")], "NONE"⟩,
  ⟨"EPlatformAdhesion", [("skirt", "SKIRT"), ("brim", "BRIM"), ("raft", "RAFT"), ("none", "NONE"), ("plugin",
    "PLUGIN")], "SKIRT"⟩,
  ⟨"ESupportType", [("none", "NONE"), ("everywhere", "EVERYWHERE"), ("buildplate", "PLATFORM_ONLY"), ("plugin",
    "PLUGIN")], "NONE"⟩,
  ⟨"ESupportStructure", [("normal", "NORMAL"), ("tree", "TREE"), ("plugin", "PLUGIN")], "NORMAL"⟩,
  ⟨"EZSeamType", [("shortest", "SHORTEST"), ("random", "RANDOM"), ("back", "USER_SPECIFIED"), ("sharpest_corner",
    "SHARPEST_CORNER"), ("plugin", "PLUGIN")], "SHORTEST"⟩,
  ⟨"EZSeamCornerPrefType", [("z_seam_corner_outer", "Z_SEAM_CORNER_PREF_OUTER"), ("z_seam_corner_any",
    "Z_SEAM_CORNER_PREF_ANY"), ("z_seam_corner_weighted", "Z_SEAM_CORNER_PREF_WEIGHTED"), ("plugin", "PLUGIN"),
    ("z_seam_corner_inner", "Z_SEAM_CORNER_PREF_INNER")], "Z_SEAM_CORNER_PREF_INNER"⟩,
  ⟨"ESurfaceMode", [("normal", "NORMAL"), ("surface", "SURFACE"), ("both", "BOTH"), ("plugin", "PLUGIN")], "NORMAL"⟩,
  ⟨"FillPerimeterGapMode", [("nowhere", "NOWHERE"), ("everywhere", "EVERYWHERE"), ("plugin", "PLUGIN")], "NOWHERE"⟩,
  ⟨"BuildPlateShape", [("rectangular", "RECTANGULAR"), ("elliptic", "ELLIPTIC"), ("plugin", "PLUGIN")],
    "RECTANGULAR"⟩,
  ⟨"CombingMode", [("all", "ALL"), ("off", "OFF"), ("noskin", "NO_SKIN"), ("no_outer_surfaces",
    "NO_OUTER_SURFACES"), ("infill", "INFILL"), ("plugin", "PLUGIN")], "ALL"⟩,
  ⟨"SupportDistPriority", [("xy_overrides_z", "XY_OVERRIDES_Z"), ("z_overrides_xy", "Z_OVERRIDES_XY"), ("plugin",
    "PLUGIN")], "XY_OVERRIDES_Z"⟩,
  ⟨"SlicingTolerance", [("middle", "MIDDLE"), ("inclusive", "INCLUSIVE"), ("exclusive", "EXCLUSIVE"), ("plugin",
    "PLUGIN")], "MIDDLE"⟩,
  ⟨"InsetDirection", [("inside_out", "INSIDE_OUT"), ("outside_in", "OUTSIDE_IN"), ("plugin", "PLUGIN")],
    "INSIDE_OUT"⟩]

end Verif.Settings
