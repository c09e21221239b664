import Verif.GCode.Model

/-! # A printer that obeys the emitted commands (specification)

Axes that are not mentioned keep their value, as does the feed rate. In absolute mode an E word is the new filament
coordinate of the active tool, in relative mode an amount to be added. `rE` is what the number format makes of an E
value (rounding to five decimals); `codeZ` is what custom tool-change scripts do to the height. -/

namespace Verif.GCode

structure PrinterCfg where
  relative : Bool
  rE : ℚ → ℚ
  codeZ : Int → Int

structure Printer where
  x : Int
  y : Int
  z : Int
  f : ℚ
  tool : Nat
  /-- The logical filament coordinate. -/
  le : ℚ
  /-- Net length (or volume) of filament pushed forward by each tool through E words. -/
  fil : Nat → ℚ

/-- Effect of an E word. -/
def Printer.pushE (P : PrinterCfg) (p : Printer) (v : ℚ) : Printer :=
  if P.relative then
    { p with fil := fun t => if t = p.tool then p.fil t + P.rE v else p.fil t
             le := p.le + P.rE v }
  else
    { p with fil := fun t => if t = p.tool then p.fil t + (P.rE v - p.le) else p.fil t
             le := P.rE v }

def Printer.exec (P : PrinterCfg) (p : Printer) : Cmd → Printer
  | .move xy z f e =>
    let p1 := match xy with
      | some g => { p with x := g.1
                           y := g.2 }
      | none => p
    let p2 := match z with
      | some z => { p1 with z := z }
      | none => p1
    let p3 := match f with
      | some f => { p2 with f := f }
      | none => p2
    match e with
      | some v => p3.pushE P v
      | none => p3
  | .g92 => { p with le := 0 }
  | .tool n => { p with tool := n }
  | .code => { p with z := P.codeZ p.z }
  | .g10 | .g11 | .note | .other => p

/-- The printer after executing everything the exporter wrote. -/
def Printer.after (P : PrinterCfg) (p : Printer) (s : St) : Printer := s.out.foldl (Printer.exec P) p

/-- The printer's X/Y are the recorded position corrected by the nozzle offset. -/
def SyncXY (P : PrinterCfg) (p0 : Printer) (c : Cfg) (s : St) : Prop :=
  (p0.after P s).x = s.pos.x - (c.offset s.cur).1 ∧ (p0.after P s).y = s.pos.y - (c.offset s.cur).2

/-- The printer's height is the recorded one. -/
def SyncZ (P : PrinterCfg) (p0 : Printer) (s : St) : Prop := (p0.after P s).z = s.pos.z

/-- Feed rate and tool. -/
def SyncF (P : PrinterCfg) (p0 : Printer) (s : St) : Prop := (p0.after P s).f = s.speed * 60

def SyncT (P : PrinterCfg) (p0 : Printer) (s : St) : Prop := (p0.after P s).tool = s.cur

/-- No z-hop with a split end is pending. -/
def SplitFree (s : St) : Prop := ∀ l, s.leftover = some l → ¬ (0 < l.2 ∧ l.2 < 1)

/-- The printer is where a fresh exporter assumes it to be: recorded position (0, 0, 20 mm), 1 mm/s, tool `t`. -/
def Printer.Home (c : Cfg) (t : Nat) (p : Printer) : Prop :=
  p.x = 0 - (c.offset t).1 ∧ p.y = 0 - (c.offset t).2 ∧ p.z = 20000 ∧ p.f = 60 ∧ p.tool = t

/-- No z-hop end of the history is split in two moves. -/
def NoSplit (ops : List Op) : Prop := ∀ a r, Op.setLeftover a r ∈ ops → ¬ (0 < r ∧ r < 1)

/-- Whether the exporter's recorded height is trustworthy after a call, given that it was (`k`) or was not before: a tool
change spoils it (the recorded height is deliberately moved by one micron to provoke a new Z word, and custom scripts may
move the bed), a move that has to write a Z word restores it. -/
def heightKnown (c : Cfg) (s : St) (k : Bool) : Op → Bool
  | .start _ => false
  | .switch t _ _ => k && decide (s.cur = t)
  | .travel p _ _ => k || decide (c.flavor = .BFB) || decide (p.z + s.hop ≠ s.pos.z)
  | .extrude p _ _ _ => k || decide (c.flavor = .BFB) || decide (s.hop ≤ 0 ∧ p.z ≠ s.pos.z) ||
      decide (0 < s.hop ∧ s.layerZ ≠ s.pos.z ∧ s.pos ≠ p)
  | _ => k

/-- `heightKnown` along a history. -/
def trackHeight (c : Cfg) : St → Bool → List Op → Bool
  | _, k, [] => k
  | s, k, op :: ops => trackHeight c (step c s op) (heightKnown c s k op) ops

/-- The X/Y words of the emitted lines. -/
def xyWords (out : List Cmd) : List (Int × Int) :=
  out.filterMap fun k => match k with
    | .move xy _ _ _ => xy
    | _ => none

/-- The Z words of the emitted lines. -/
def zWords (out : List Cmd) : List Int :=
  out.filterMap fun k => match k with
    | .move _ z _ _ => z
    | _ => none

/-- Tool changes do not occur in the history. -/
def NoToolChange (ops : List Op) : Prop := ∀ op ∈ ops, (∀ t r h, op ≠ .switch t r h) ∧ ∀ t, op ≠ .start t

end Verif.GCode
