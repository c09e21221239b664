import Verif.GCode.Printer

/-! # Specification for the filament accounting (C20, C21, C22) -/

namespace Verif.GCode

/-- Volume (mm³) of one unit of E. -/
def kappa (c : Cfg) (t : Nat) : ℚ := if c.volumetric then 1 else c.area t

/-- How far the filament of tool `t` is pulled back by E words at the moment. -/
def retracted (c : Cfg) (s : St) (t : Nat) : ℚ := if c.firmware t then 0 else (s.attr t).retrCur

/-- A printer that is driven by E words, with real filament and real distances. -/
structure Sane (c : Cfg) : Prop where
  flavor : c.flavor ≠ .BFB
  area : ∀ t, 0 < c.area t
  len : ∀ x y z, 0 ≤ c.len x y z

/-- What the callers of the exporter guarantee: extrusion amounts and flow settings are not negative; a tool that retracts
by firmware (`G10`) gets no retraction distances for its travels and z-hops; an extruder is started (other than by
switching) only when nothing was extruded since the last reset (the code asserts this). -/
def Allowed (c : Cfg) (s : St) : Op → Prop
  | .travel _ _ r => c.firmware s.cur = true → r = none
  | .zhopStart _ _ r _ => c.firmware s.cur = true → r = none
  | .setLeftover _ _ => ∀ t, c.firmware t = false
  | .extrude _ v m _ => 0 ≤ v ∧ 0 ≤ m
  | .setFlow m f => 0 ≤ m ∧ 0 ≤ f
  | .start _ => s.e = 0 ∧ currentVolume c s = 0
  | _ => True

/-- `Allowed` along a history. -/
def AllAllowed (c : Cfg) : St → List Op → Prop
  | _, [] => True
  | s, op :: ops => Allowed c s op ∧ AllAllowed c (step c s op) ops

/-- The volume that a call extrudes with tool `t`: the requested amount per mm times the length of the move (measured from
the lowered nozzle), and the pending prime volume whenever the nozzle is primed. -/
def charged (c : Cfg) (s : St) (op : Op) (t : Nat) : ℚ :=
  if t = s.cur then
    match op with
    | .extrude p _ m _ =>
      if s.pos = p then 0
      else m * c.len (p.x - s.pos.x) (p.y - s.pos.y) (p.z - if 0 < s.hop then s.layerZ else s.pos.z) + (s.attr t).prime
    | .unretract => (s.attr t).prime
    | .wipe w =>
      if w.retractionEnable then
        ((retraction c (s.emit .note) w.rconfig false false none).1.attr t).prime
      else 0
    | _ => 0
  else 0

/-- `charged` along a history. -/
def chargedSum (c : Cfg) : St → List Op → Nat → ℚ
  | _, [], _ => 0
  | s, op :: ops, t => charged c s op t + chargedSum c (step c s op) ops t

/-- The flow-rate extrusion offset is not used. -/
def NoFlow (ops : List Op) : Prop := ∀ m f, Op.setFlow m f ∉ ops

/-- The lines whose rounding can add to the deviation between printer and exporter: in relative mode every E word, in
absolute mode every reset of the filament coordinate and every tool change. -/
def errLines (relative : Bool) (out : List Cmd) : Nat :=
  out.countP fun k => match k with
    | .move _ _ _ (some _) => relative
    | .g92 => !relative
    | .tool _ => !relative
    | _ => false

end Verif.GCode
