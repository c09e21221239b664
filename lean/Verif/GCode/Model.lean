import Mathlib.Algebra.Order.Field.Rat

/-! # Model of the G-code exporter's motion part (src/gcode_export/gcodeExport.cpp, include/gcode_export/gcodeExport.h)

Line numbers refer to gcodeExport.cpp. `double` is modelled by exact rationals. Emitted lines are abstract commands
(`Cmd`): the values are those handed to the number formatter (modelled in `Verif.Text`). Coordinates are unbounded
integers (micron). The Euclidean length `vSizeMM` is an arbitrary function of the coordinate differences. Time estimates
and the layer view (`estimate_calculator_`, `sendTravel`) do not influence the output and are left out, as are
`ASSERT_INSANE_OUTPUT` and `DEBUG` blocks. -/

namespace Verif.GCode

/-- `EGCodeFlavor`, settings/EnumSettings.h. -/
inductive Flavor
  | MARLIN | ULTIGCODE | MAKERBOT | GRIFFIN | BFB | MACH3 | MARLIN_VOLUMATRIC | REPETIER | REPRAP | CHEETAH
  deriving DecidableEq, Repr

/-- `Point3LL`. -/
structure P3 where
  x : Int
  y : Int
  z : Int
  deriving DecidableEq, Repr

/-- Settings that stay fixed during a print: flavour, `relative_extrusion_`, per extruder `filament_area_`,
`nozzle_offset_`, `machine_firmware_retract_`, `speed_z_hop`, `retraction_enable`, whether the extruder has custom
start and end scripts; and the length function `Point3LL::vSizeMM` of a difference. -/
structure Cfg where
  flavor : Flavor
  relative : Bool
  area : Nat → ℚ
  offset : Nat → Int × Int
  firmware : Nat → Bool
  zhopSpeed : Nat → ℚ
  retractionEnable : Nat → Bool
  prestartCode : Nat → Bool
  startCode : Nat → Bool
  endCode : Nat → Bool
  len : Int → Int → Int → ℚ

/-- `is_volumetric_` as set by `setFlavor`, 377-402. -/
def Cfg.volumetric (c : Cfg) : Bool := c.flavor = .ULTIGCODE || c.flavor = .MARLIN_VOLUMATRIC

/-- One emitted line. `move`: `G0`/`G1` with the words that are present; `code`: a custom script; `note`: a comment;
`other`: a flavour-specific command without effect on position, feed rate or E (`M101`, `M103`, `M108`). -/
inductive Cmd
  | move (xy : Option (Int × Int)) (z : Option Int) (f : Option ℚ) (e : Option ℚ)
  | g92
  | g10
  | g11
  | tool (n : Nat)
  | code
  | note
  | other
  deriving DecidableEq, Repr

/-- `ExtruderTrainAttributes`, gcodeExport.h:76-123: the fields used by the motion part. -/
structure Attr where
  total : ℚ
  retrCur : ℚ
  retrStart : ℚ
  prime : ℚ
  primeSpeed : ℚ
  lastWipe : ℚ
  hist : List ℚ
  used : Bool
  deriving Repr, DecidableEq

/-- `AABB3D`. -/
structure Box where
  min : P3
  max : P3
  deriving DecidableEq, Repr

/-- The default constructor, AABB3D.cpp:13-17. -/
def Box.empty : Box := ⟨⟨2147483647, 2147483647, 2147483647⟩, ⟨-2147483648, -2147483648, -2147483648⟩⟩

/-- `AABB3D::include`, AABB3D.cpp:46-55. -/
def Box.incl (b : Box) (p : P3) : Box :=
  ⟨⟨Min.min b.min.x p.x, Min.min b.min.y p.y, Min.min b.min.z p.z⟩,
   ⟨Max.max b.max.x p.x, Max.max b.max.y p.y, Max.max b.max.z p.z⟩⟩

/-- `AABB3D::includeZ`, AABB3D.cpp:69-74. -/
def Box.inclZ (b : Box) (z : Int) : Box :=
  ⟨{ b.min with z := Min.min b.min.z z }, { b.max with z := Max.max b.max.z z }⟩

/-- The exporter, gcodeExport.h:143-200: the fields used by the motion part, and the emitted lines (in order). -/
structure St where
  attr : Nat → Attr
  cur : Nat
  e : ℚ
  eOff : ℚ
  maxOff : ℚ
  offFactor : ℚ
  pos : P3
  speed : ℚ
  layerZ : Int
  hop : Int
  leftover : Option (ℚ × ℚ)
  box : Box
  out : List Cmd

/-- Append a line to the output stream. -/
def St.emit (s : St) (c : Cmd) : St := { s with out := s.out ++ [c] }

/-- Change the attributes of one extruder. -/
def St.upd (s : St) (t : Nat) (f : Attr → Attr) : St :=
  { s with attr := fun i => if i = t then f (s.attr i) else s.attr i }

/-- The current extruder's attributes. -/
def St.a (s : St) : Attr := s.attr s.cur

/-- The constructor, 51-84, after `preSetup`, 90-117, for start extruder `t`; `current_layer_z_`, `current_e_offset_`
and the flow settings are not initialised by the constructor: the exporter is a member of a static object, hence
zero. -/
def St.init (t : Nat) (primeSpeed : Nat → ℚ) : St where
  attr i := ⟨0, 0, 0, 0, primeSpeed i, 0, [], false⟩
  cur := t
  e := 0
  eOff := 0
  maxOff := 0
  offFactor := 0
  pos := ⟨0, 0, 20000⟩
  speed := 1
  layerZ := 0
  hop := 0
  leftover := none
  box := .empty
  out := []

/-- `mm3ToE`, 493-503. -/
def mm3ToE (c : Cfg) (s : St) (v : ℚ) : ℚ := if c.volumetric then v else v / c.area s.cur

/-- `mmToE`, 505-515. -/
def mmToE (c : Cfg) (s : St) (d : ℚ) : ℚ := if c.volumetric then d * c.area s.cur else d

/-- `getCurrentExtrudedVolume`, 451-469. -/
def currentVolume (c : Cfg) (s : St) : ℚ :=
  let amount := if c.firmware s.cur then s.e else s.e - s.a.retrStart + s.a.retrCur
  if c.volumetric then amount else amount * c.area s.cur

/-- `getTotalFilamentUsed`, 529-534. -/
def totalFilament (c : Cfg) (s : St) (t : Nat) : ℚ :=
  if t = s.cur then (s.attr t).total + currentVolume c s else (s.attr t).total

/-- `getGcodePos`, 367-370. -/
def gcodePos (c : Cfg) (s : St) (x y : Int) : Int × Int := (x - (c.offset s.cur).1, y - (c.offset s.cur).2)

/-- `resetExtrusionValue`, 679-694. -/
def resetExtrusion (c : Cfg) (s : St) : St :=
  let s1 := if c.relative then s else s.emit .g92
  let v := currentVolume c s1
  let s2 := s1.upd s1.cur fun a => { a with total := a.total + v
                                            hist := a.hist.map (· - v)
                                            retrStart := a.retrCur }
  { s2 with e := 0 }

/-- `RetractionAmounts`, gcodeExport.h:125-139: `new_e` and `diff_e`. -/
structure Amounts where
  newE : ℚ
  diffE : ℚ

/-- `has_retraction`, gcodeExport.h:134-138. -/
def Amounts.has (r : Amounts) : Bool := (1 : ℚ) / 1000000 ≤ |r.diffE|

/-- `computeRetractionAmounts`, 858-867. -/
def amounts (c : Cfg) (s : St) (distance : ℚ) : Amounts :=
  ⟨mmToE c s distance, s.a.retrCur - mmToE c s distance⟩

/-- `writeRawRetract`, 848-856: the E word to be written and the state afterwards. -/
def rawRetract (c : Cfg) (s : St) (r : Amounts) : ℚ × St :=
  let s1 := { s with e := s.e + r.diffE }
  (if c.relative then r.diffE else s1.e, s1.upd s1.cur fun a => { a with retrCur := r.newE })

/-- The E word of a move, `writeFXYZE`, 1157-1171: the word (if any) and the state afterwards. -/
def eWord (c : Cfg) (s : St) (e : ℚ) (r : Option Amounts) : Option ℚ × St :=
  match r with
  | some r => if r.has then (some (rawRetract c s r).1, (rawRetract c s r).2) else (none, s)
  | none =>
    if e + s.eOff ≠ s.e then (some (if c.relative then e + s.eOff - s.e else e + s.eOff), { s with e := e })
    else (none, s)

/-- `writeFXYZE`, 1122-1183. `fallback`: nothing changed, XY is written anyway. -/
def writeFXYZE (c : Cfg) (s : St) (speed : ℚ) (p : P3) (e : ℚ) (r : Option Amounts) : St :=
  let f := if s.speed ≠ speed then some (speed * 60) else none
  let s1 := if s.speed ≠ speed then { s with speed := speed } else s
  let g := gcodePos c s1 p.x p.y
  let s2 := { s1 with box := s1.box.incl ⟨g.1, g.2, p.z⟩ }
  let xy := if p.x ≠ s2.pos.x ∨ p.y ≠ s2.pos.y then some g else none
  let z := if p.z ≠ s2.pos.z then some p.z else none
  let es := eWord c s2 e r
  let fallback := f = none ∧ xy = none ∧ z = none ∧ es.1 = none
  { es.2.emit (.move (if fallback then some g else xy) z f es.1) with pos := p }

/-- `roundf`: to the nearest integer, half away from zero. -/
def roundf (q : ℚ) : ℚ := if 0 ≤ q then ((q + 1 / 2).floor : ℚ) else -((-q + 1 / 2).floor : ℚ)

/-- `writeMoveBFB`, 971-986: start the extruder motor. -/
def bfbOn (s : St) (rpm : ℚ) : St :=
  if s.a.retrCur ≠ 0 then
    let s0 := if s.speed ≠ rpm then { s.emit .other with speed := rpm } else s
    (s0.emit .other).upd s0.cur fun a => { a with retrCur := 0 }
  else s

/-- `writeMoveBFB`, 1000-1008: stop the extruder motor. -/
def bfbOff (s : St) : St :=
  if s.a.retrCur = 0 then (s.emit .other).upd s.cur fun a => { a with retrCur := 1 } else s

/-- `writeMoveBFB`, 952-1010: everything before the line with the coordinates; the feed rate of that line and the
state. The exits for infinite and NaN rates cannot occur with exact numbers. -/
def bfbPrep (c : Cfg) (s : St) (p : P3) (speed mm3 : ℚ) : ℚ × St :=
  let perMm := mm3ToE c s mm3
  let rpm := perMm * speed * 60 / 4
  if 0 < rpm then
    let s1 := bfbOn s rpm
    (speed * 60 * (rpm / (roundf (rpm * 100) / 100)),
      { s1 with e := s1.e + perMm * c.len (p.x - s1.pos.x) (p.y - s1.pos.y) (p.z - s1.pos.z) })
  else (speed * 60, bfbOff s)

/-- `writeMoveBFB`, 952-1018; the narrowing of the coordinates to `int` is not modelled. -/
def writeMoveBFB (c : Cfg) (s : St) (p : P3) (speed mm3 : ℚ) : St :=
  let fs := bfbPrep c s p speed mm3
  { fs.2.emit (.move (some (gcodePos c s p.x p.y)) (some p.z) (some fs.1) none) with pos := p }

/-- The retraction amounts of a z-hop, 1388-1393: without a retract distance they are all zero (but present). -/
def hopAmounts (c : Cfg) (s : St) : Option ℚ → Amounts
  | some d => amounts c s d
  | none => ⟨0, 0⟩

/-- `writeZhop`, 1378-1403. -/
def writeZhop (c : Cfg) (s : St) (speed0 : ℚ) (height : Int) (retract : Option ℚ) : St :=
  let speed := if speed0 = 0 then c.zhopSpeed s.cur else speed0
  let s1 := { s with hop := height }
  let target := s1.layerZ + s1.hop
  let s2 := writeFXYZE c s1 speed ⟨s1.pos.x, s1.pos.y, target⟩ s1.e (some (hopAmounts c s retract))
  { s2 with box := s2.box.inclZ target }

/-- Conversion of `double` to `coord_t`: towards zero. -/
def trunc (q : ℚ) : Int := q.num.tdiv q.den

/-- `writeZhopStart`, 1338-1352, without the split. -/
def zhopStart0 (c : Cfg) (s : St) (h : Int) (speed : ℚ) (retract : Option ℚ) : St :=
  if 0 < h then writeZhop c s speed h retract else s

/-- `writeZhopStart`, 1338-1352. -/
def zhopStart (c : Cfg) (s : St) (h : Int) (speed : ℚ) (retract : Option ℚ) (ratio : ℚ) : St :=
  if retract.isSome ∧ 0 < ratio ∧ ratio < 1 then
    zhopStart0 c (zhopStart0 c s (trunc (h * ratio)) speed retract) h speed retract
  else zhopStart0 c s h speed retract

/-- `writeZhopEnd`, 1363-1375, without leftover and without split. -/
def zhopEnd0 (c : Cfg) (s : St) (speed : ℚ) (height : Int) (prime : Option ℚ) : St :=
  if s.hop ≠ 0 then
    let s1 := writeZhop c s speed height prime
    { s1 with pos := { s1.pos with z := s1.layerZ } }
  else s

/-- `writeZhopEnd`, 1363-1375, without leftover. The distance passed to the first half is `retraction_e_amount_current_`
(an amount in E units). -/
def zhopEnd1 (c : Cfg) (s : St) (speed : ℚ) (height : Int) (prime : Option ℚ) (ratio : ℚ) : St :=
  if s.hop ≠ 0 then
    if prime.isSome ∧ 0 < ratio ∧ ratio < 1 then
      zhopEnd0 c (zhopEnd0 c s speed (trunc (s.hop * ratio)) (some s.a.retrCur)) speed 0 prime
    else zhopEnd0 c s speed height prime
  else s

/-- `writeZhopEnd`, 1354-1376. -/
def zhopEnd (c : Cfg) (s : St) (speed : ℚ) (height : Int) (prime : Option ℚ) (ratio : ℚ) : St :=
  let s1 := match s.leftover with
    | some l => zhopEnd1 c { s with leftover := none } speed height (some l.1) l.2
    | none => s
  zhopEnd1 c s1 speed height prime ratio

/-- `writeTravel(Point3LL)`, 932-940 and 1020-1042. -/
def travel (c : Cfg) (s : St) (p : P3) (speed : ℚ) (retract : Option ℚ) : St :=
  let q : P3 := ⟨p.x, p.y, p.z + s.hop⟩
  if c.flavor = .BFB then writeMoveBFB c s q speed 0
  else
    let r := retract.map (amounts c s)
    if s.pos = q ∧ (r.map Amounts.has).getD false = false then s
    else writeFXYZE c s speed q s.e r

/-- `writeUnretractionAndPrime`, 1185-1231: the lines. -/
def primeLines (c : Cfg) (s : St) : St :=
  let prime := s.a.prime
  let pe := mm3ToE c s prime
  let s1 := { s with e := s.e + pe }
  if s1.a.retrCur ≠ 0 then
    if c.firmware s1.cur then
      let s2 := s1.emit .g11
      if prime ≠ 0 then
        { s2.emit (.move none none (some (s2.a.primeSpeed * 60)) (some (if c.relative then pe else s2.e))) with
          speed := s2.a.primeSpeed }
      else s2
    else
      let s2 := { s1 with e := s1.e + s1.a.retrCur }
      { s2.emit (.move none none (some (s2.a.primeSpeed * 60))
          (some (if c.relative then s2.a.retrCur + pe else s2.e))) with speed := s2.a.primeSpeed }
  else if prime ≠ 0 then
    { s1.emit (.move none none (some (s1.a.primeSpeed * 60)) (some (if c.relative then pe else s1.e))) with
      speed := s1.a.primeSpeed }
  else s1

/-- `writeUnretractionAndPrime`, 1234-1239: very long E values are avoided. -/
def bigReset (c : Cfg) (s : St) : St :=
  if 10000 < currentVolume c s ∧ c.flavor ≠ .BFB ∧ c.flavor ≠ .MAKERBOT then resetExtrusion c s else s

/-- `writeUnretractionAndPrime`, 1240-1244. -/
def clearRetracted (s : St) : St :=
  if s.a.retrCur ≠ 0 then s.upd s.cur fun a => { a with retrCur := 0 } else s

/-- `writeUnretractionAndPrime`, 1185-1245. -/
def unretract (c : Cfg) (s : St) : St :=
  let s2 := primeLines c s
  clearRetracted (bigReset c (s2.upd s2.cur fun a => { a with prime := 0 }))

/-- The flow rate offset, 1098-1107. -/
def flowOffset (s : St) (speed mm3 len : ℚ) : ℚ :=
  if len ≠ 0 then
    if s.maxOff < speed * mm3 * s.offFactor then s.maxOff else speed * mm3 * s.offFactor
  else 0

/-- Update of the flow rate offset, 1098-1113. -/
def updateOffset (s : St) (speed mm3 len : ℚ) (u : Bool) : St :=
  if u ∧ flowOffset s speed mm3 len ≠ s.eOff then { s.emit .note with eOff := flowOffset s speed mm3 len } else s

/-- `writeExtrusion(Point3LL)`, 942-950 and 1044-1120. -/
def extrude (c : Cfg) (s : St) (p : P3) (speed mm3 : ℚ) (u : Bool) : St :=
  if c.flavor = .BFB then writeMoveBFB c s p speed mm3
  else if s.pos = p then s
  else
    let perMm := mm3ToE c s mm3
    let s1 := if 0 < s.hop then zhopEnd c s 0 0 none 0 else s
    let len := c.len (p.x - s1.pos.x) (p.y - s1.pos.y) (p.z - s1.pos.z)
    let s2 := unretract c s1
    let s3 := updateOffset s2 speed mm3 len u
    let s4 := s3.upd s3.cur fun a => { a with lastWipe := a.lastWipe + perMm * len }
    writeFXYZE c s4 speed p (s4.e + perMm * len) none

/-- `RetractionConfig`, RetractionConfig.h:17-31: the fields used here. -/
structure RConfig where
  distance : ℚ
  speed : ℚ
  primeSpeed : ℚ
  primeVolume : ℚ
  window : ℚ
  countMax : Nat

/-- The limit on the number of retractions, 1264-1287: `none` if the retraction is refused, otherwise the new list of
volumes (most recent first). -/
def limitRetraction (c : Cfg) (s : St) (r : RConfig) (force : Bool) : Option (List ℚ) :=
  let v := currentVolume c s
  let h := s.a.hist.take r.countMax
  if !force ∧ r.countMax = 0 then none
  else if !force ∧ h.length = r.countMax ∧ v < h.getLast?.getD 0 + r.window * c.area s.cur then none
  else
    let h1 := v :: h
    some (if h1.length = r.countMax + 1 then h1.dropLast else h1)

/-- The volumes kept when the retraction is refused, 1267-1272. -/
def trimHist (s : St) (r : RConfig) : St := s.upd s.cur fun a => { a with hist := a.hist.take r.countMax }

/-- `writeRetraction`, 1247-1336: the state afterwards and the returned flag. -/
def retraction (c : Cfg) (s : St) (r : RConfig) (force switch : Bool) (dist : Option ℚ) : St × Bool :=
  if c.flavor = .BFB then
    if switch then
      let s1 := if s.a.retrCur = 0 then s.emit .other else s
      (s1.upd s1.cur fun a => { a with retrCur := 1 }, true)
    else (s, true)
  else
    match limitRetraction c s r force with
    | none => (trimHist s r, false)
    | some h =>
      let s1 := s.upd s.cur fun a => { a with hist := h }
      let am := amounts c s1 (dist.getD r.distance)
      if am.has = false then (s1, true)
      else if c.firmware s1.cur then
        if switch ∧ s1.a.retrCur ≠ 0 then (s1, true)
        else
          let s2 := s1.emit .g10
          (s2.upd s2.cur fun a => { a with retrCur := am.newE
                                           prime := a.prime + r.primeVolume }, true)
      else
        let speed := if am.diffE < 0 then r.speed else s1.a.primeSpeed
        let w := rawRetract c s1 am
        let s2 := { w.2.emit (.move none none (some (speed * 60)) (some w.1)) with speed := speed }
        (s2.upd s2.cur fun a => { a with primeSpeed := r.primeSpeed
                                         prime := a.prime + r.primeVolume }, true)

/-- A custom script, `writeCodeWithAbsoluteExtrusion`, 1583-1599; the surrounding `M82`/`M83` are not modelled. -/
def script (s : St) (present : Bool) : St := if present then s.emit .code else s

/-- `startExtruder`, 1486-1535. -/
def startExtruder (c : Cfg) (s : St) (t : Nat) : St :=
  let s1 := script s (c.prestartCode t)
  let s2 := s1.upd t fun a => { a with used := true }
  let s3 := if t ≠ s2.cur then s2.emit (.tool t) else s2
  let s4 := { s3 with pos := ⟨s3.pos.x + ((c.offset t).1 - (c.offset s3.cur).1),
                              s3.pos.y + ((c.offset t).2 - (c.offset s3.cur).2), s3.pos.z⟩
                      cur := t }
  let s5 := resetExtrusion c s4
  let s6 := script s5 (c.startCode t)
  { s6 with pos := { s6.pos with z := s6.pos.z + 1 } }

/-- `switchExtruder`, 1537-1572. -/
def switchExtruder (c : Cfg) (s : St) (t : Nat) (r : RConfig) (hop : Int) : St :=
  if s.cur = t then s
  else
    let s1 := if c.retractionEnable s.cur then (retraction c s r true true none).1 else s
    let s2 := if 0 < hop then zhopStart c s1 hop 0 none 0 else s1
    let s3 := resetExtrusion c s2
    let s4 := script s3 (c.endCode s3.cur)
    startExtruder c s4 t

/-- `resetExtruderToPrimed`, 1601-1606. -/
def resetToPrimed (s : St) (t : Nat) (r : ℚ) : St := s.upd t fun a => { a with retrCur := r }

/-- `WipeScriptConfig`, WipeScriptConfig.h. -/
structure WipeCfg where
  retractionEnable : Bool
  rconfig : RConfig
  hopEnable : Bool
  hopAmount : Int
  hopSpeed : ℚ
  brushX : Int
  repeatCount : Nat
  moveDistance : Int
  moveSpeed : ℚ

/-- `writeTravel(Point2LL)`, 923-926. -/
def travelXY (c : Cfg) (s : St) (x y : Int) (speed : ℚ) : St := travel c s ⟨x, y, s.layerZ⟩ speed none

/-- The repeated moves over the brush, 2098-2102: iterations `i`, `i+1`, … -/
def wipeMoves (c : Cfg) (w : WipeCfg) : Nat → Nat → St → St
  | 0, _, s => s
  | n + 1, i, s =>
    wipeMoves c w n (i + 1)
      (travelXY c s (s.pos.x + (if i % 2 ≠ 0 then -w.moveDistance else w.moveDistance)) s.pos.y w.moveSpeed)

/-- `insertWipeScript`, 2082-2122; the final pause has no effect here. -/
def wipe (c : Cfg) (s : St) (w : WipeCfg) : St :=
  let prev := s.pos
  let s0 := s.emit .note
  let s1 := if w.retractionEnable then (retraction c s0 w.rconfig false false none).1 else s0
  let s2 := if w.hopEnable then zhopStart c s1 w.hopAmount w.hopSpeed none 0 else s1
  let s3 := travelXY c s2 w.brushX s2.pos.y w.moveSpeed
  let s4 := wipeMoves c w w.repeatCount 0 s3
  let s5 := travel c s4 prev w.moveSpeed none
  let s6 := if w.hopEnable then zhopEnd c s5 w.hopSpeed 0 none 0 else s5
  let s7 := if w.retractionEnable then unretract c s6 else s6
  s7.emit .note

/-- The public calls. -/
inductive Op
  | travel (p : P3) (speed : ℚ) (retract : Option ℚ)
  | extrude (p : P3) (speed mm3 : ℚ) (updateOffset : Bool)
  | retraction (r : RConfig) (force switch : Bool) (dist : Option ℚ)
  | unretract
  | zhopStart (h : Int) (speed : ℚ) (retract : Option ℚ) (ratio : ℚ)
  | zhopEnd (speed : ℚ)
  | setLeftover (amount ratio : ℚ)
  | setZ (z : Int)
  | addPrime (v : ℚ)
  | setFlow (max factor : ℚ)
  | resetExtrusion
  | switch (t : Nat) (r : RConfig) (hop : Int)
  | start (t : Nat)
  | wipe (w : WipeCfg)

/-- One public call: `setZHopPrimeLeftover` 483-486, `setZ` 409-412, `addExtraPrimeAmount` 414-417,
`setFlowRateExtrusionSettings` 419-423, the others above. -/
def step (c : Cfg) (s : St) : Op → St
  | .travel p speed retract => travel c s p speed retract
  | .extrude p speed mm3 u => extrude c s p speed mm3 u
  | .retraction r force switch dist => (retraction c s r force switch dist).1
  | .unretract => unretract c s
  | .zhopStart h speed retract ratio => zhopStart c s h speed retract ratio
  | .zhopEnd speed => zhopEnd c s speed 0 none 0
  | .setLeftover amount ratio => { s with leftover := some (amount, ratio) }
  | .setZ z => { s with layerZ := z }
  | .addPrime v => s.upd s.cur fun a => { a with prime := a.prime + v }
  | .setFlow m f => { s with maxOff := m
                             offFactor := f }
  | .resetExtrusion => resetExtrusion c s
  | .switch t r hop => switchExtruder c s t r hop
  | .start t => startExtruder c s t
  | .wipe w => wipe c s w

/-- A history of calls. -/
def run (c : Cfg) (s : St) (ops : List Op) : St := ops.foldl (step c) s

end Verif.GCode
