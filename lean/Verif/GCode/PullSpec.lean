import Verif.GCode.AcctSpec

/-! # Specification for retraction (C134)

What a printer that retracts on its own (`G10`, `G11`) does: each tool is pulled back by a `G10` that it executes and
primed by a `G11`. -/

namespace Verif.GCode

/-- The tool in use, and which tools are pulled back. -/
structure Pulled where
  tool : Nat
  back : Nat → Bool

def Pulled.exec (p : Pulled) : Cmd → Pulled
  | .g10 => { p with back := fun u => if u = p.tool then true else p.back u }
  | .g11 => { p with back := fun u => if u = p.tool then false else p.back u }
  | .tool n => { p with tool := n }
  | .move _ _ _ _ | .g92 | .code | .note | .other => p

/-- The tools that are pulled back after the lines `out`, when tool `t` was in use at first and none was pulled back. -/
def pulled (t : Nat) (out : List Cmd) : Pulled := out.foldl Pulled.exec ⟨t, fun _ => false⟩

/-- The calls that retract do so by a positive distance. -/
def PullsBack : Op → Prop
  | .retraction r _ _ d => 0 < d.getD r.distance
  | .switch _ r _ => 0 < r.distance
  | .wipe w => 0 < w.rconfig.distance
  | _ => True

/-- `d` mm of filament in units of E: mm, or mm³ for the volumetric flavours. -/
def inE (c : Cfg) (t : Nat) (d : ℚ) : ℚ :=
  if c.flavor = .ULTIGCODE ∨ c.flavor = .MARLIN_VOLUMATRIC then d * c.area t else d

end Verif.GCode
