import Verif.GCode.Model
import Verif.Text.Round

/-! # Requests with suppressed repetition

Model of the parts of `GCodeExport` (src/gcode_export/gcodeExport.cpp) that set fans, temperatures, accelerations and jerk.
The record of what was requested last decides whether a command is written. -/

namespace Verif.Requests

open Verif.GCode (Flavor)

/-- Settings that stay fixed: flavour, `fan_number_` and `machine_nozzle_temp_enabled` per extruder,
`machine_extruders_share_heater` (read from the extruder, taken to be the same for all), the number of extruders,
`always_write_active_tool_`, `machine_scale_fan_speed_zero_to_one`. -/
structure Cfg where
  flavor : Flavor
  fanNumber : Nat → Nat
  tempEnabled : Nat → Bool
  share : Bool
  extruders : Nat
  alwaysTool : Bool
  zeroToOne : Bool

/-- The lines written. `fan`/`fanOff`: `M106`/`M107` with fan number; `mbFan`: `M126`/`M127`; `temp`/`tempWait`:
`M104`/`M109` with the tool if one is written; `waitAll`: `M116`; `m105`; `bed`/`bedWait`: `M140`/`M190`; `acc`:
`M204 S`; `accP`: `M204 P` and `M201`; `accT`: `M204 T` and `M202`; `jerk`: `M205`, `M207`, `M566`, `M215`; `tool`: `T`. -/
inductive Cmd
  | fan (n : Nat) (v : ℚ)
  | fanOff (n : Nat)
  | mbFan (on : Bool)
  | temp (tool : Option Nat) (v : ℚ)
  | tempWait (tool : Option Nat) (v : ℚ)
  | waitAll
  | m105
  | bed (v : ℚ)
  | bedWait (v : ℚ)
  | acc (v : ℚ)
  | accP (v : ℚ)
  | accT (v : ℚ)
  | jerk (v : ℚ)
  | tool (t : Nat)
  deriving DecidableEq, Repr

/-- The record: `current_extruder_`, `current_fans_speeds_`, per extruder `current_temperature_` and
`waited_for_temperature_`, `bed_temperature_`, `current_print_acceleration_`, `current_travel_acceleration_`,
`current_jerk_`; and the output. -/
structure St where
  cur : Nat
  fan : Nat → Option ℚ
  temp : Nat → ℚ
  waited : Nat → Bool
  bed : ℚ
  pAcc : ℚ
  tAcc : ℚ
  jerk : ℚ
  out : List Cmd

def St.emit (s : St) (k : Cmd) : St := { s with out := s.out ++ [k] }

/-- The constructor, 51-84, `preSetup`, 90-160, and `setInitialTemp`, 179-186: nothing is known of the fans, the
accelerations and the jerk; temperatures are what the header announces, zero otherwise. -/
def St.init (t : Nat) (temps : Nat → ℚ) (bed : ℚ) : St where
  cur := t
  fan _ := none
  temp := temps
  waited _ := false
  bed := bed
  pAcc := -1
  tAcc := -1
  jerk := -1
  out := []

/-- The number that `PrecisionedDouble{p, x}` writes, string.h:153-191 and 194-211; the text is represented by the number
it denotes (see C10). -/
def printed (p : Nat) (x : ℚ) : ℚ :=
  if x < 0 then -((Text.roundHalfEven (|x| * 10 ^ p) : ℚ) / 10 ^ p) else (Text.roundHalfEven (|x| * 10 ^ p) : ℚ) / 10 ^ p

/-- Decimals of a fan value, 1706-1710. -/
def fanDigits (c : Cfg) : Nat := if c.zeroToOne then 2 else 1

/-- The number to be written for a fan speed, 1706-1710. -/
def fanValue (c : Cfg) (speed : ℚ) : ℚ := (if c.zeroToOne then speed else speed * 255) / 100

/-- `writeSpecificFanCommand`, 1676-1697: Makerbot. -/
def fanMakerbot (s : St) (speed : ℚ) (n : Nat) : St :=
  match s.fan n with
  | some old => if decide (50 ≤ speed) ≠ decide (50 ≤ old) then s.emit (.mbFan (decide (50 ≤ speed))) else s
  | none => s.emit (.mbFan (decide (50 ≤ speed)))

/-- The line for a fan, 1726-1737. -/
def fanLine (c : Cfg) (s : St) (speed : ℚ) (n : Nat) : St :=
  if Text.wouldWriteZero (fanDigits c) (fanValue c speed) then s.emit (.fanOff n)
  else s.emit (.fan n (printed (fanDigits c) (fanValue c speed)))

/-- `writeSpecificFanCommand`, 1698-1738: other flavours. -/
def fanNormal (c : Cfg) (s : St) (speed : ℚ) (n : Nat) : St :=
  match s.fan n with
  | some old =>
    if printed (fanDigits c) (fanValue c speed) ≠ printed (fanDigits c) (fanValue c old) then fanLine c s speed n else s
  | none => fanLine c s speed n

/-- `writeSpecificFanCommand`, 1671-1741. -/
def specificFan (c : Cfg) (s : St) (speed : ℚ) (n : Nat) : St :=
  let s1 := if c.flavor = .MAKERBOT then fanMakerbot s speed n else fanNormal c s speed n
  { s1 with fan := fun i => if i = n then some speed else s1.fan i }

/-- `writeFanCommand`, 1663-1669. -/
def fan (c : Cfg) (s : St) (speed : ℚ) (e : Option Nat) : St := specificFan c s speed (c.fanNumber (e.getD s.cur))

/-- `writeTemperatureCommand`, 1762-1776: with a shared heater all other extruders are updated. -/
def syncOthers (c : Cfg) (s : St) (e : Nat) (t : ℚ) (wait : Bool) : St :=
  { s with waited := fun i => if i < c.extruders ∧ i ≠ e ∧ (wait = true ∨ s.temp i < t) then wait else s.waited i
           temp := fun i => if i < c.extruders ∧ i ≠ e then t else s.temp i }

/-- `writeTemperatureCommand`, 1784-1798: the command itself. -/
def tempLine (c : Cfg) (s : St) (e : Nat) (t : ℚ) (wait : Bool) : St :=
  let tool := if e ≠ s.cur then some e else none
  if wait ∧ c.flavor ≠ .MAKERBOT then
    let s1 := if c.flavor = .MARLIN then s.emit .m105 else s
    { s1.emit (.tempWait tool (printed 1 t)) with waited := fun i => if i = e then true else s1.waited i }
  else { s.emit (.temp tool (printed 1 t)) with waited := fun i => if i = e then false else s.waited i }

/-- `writeTemperatureCommand`, 1784-1816: everything that is written. -/
def writeTemp (c : Cfg) (s : St) (e : Nat) (t : ℚ) (wait : Bool) : St :=
  let s1 := tempLine c s e t wait
  let s2 := if e ≠ s1.cur ∧ c.alwaysTool then s1.emit (.tool s1.cur) else s1
  let s3 := if wait ∧ c.flavor = .MAKERBOT then s2.emit .waitAll else s2
  { s3 with temp := fun i => if i = e then t else s3.temp i }

/-- `writeTemperatureCommand`, 1779-1816: a request that changes nothing is suppressed. -/
def tempUnlessSame (c : Cfg) (s : St) (e : Nat) (t : ℚ) (wait force : Bool) : St :=
  if (wait = false ∨ s.waited e = true) ∧ force = false ∧ s.temp e = t then s else writeTemp c s e t wait

/-- `writeTemperatureCommand`, 1743-1817. -/
def temp (c : Cfg) (s : St) (e : Nat) (t : ℚ) (wait force : Bool) : St :=
  if c.tempEnabled e = false then s
  else if c.share ∧ e ≠ s.cur then s
  else tempUnlessSame c (if c.share then syncOthers c s e t wait else s) e t wait force

/-- `writeBedTemperatureCommand`, 1819-1847. -/
def bed (c : Cfg) (s : St) (t : ℚ) (wait : Bool) : St :=
  if c.flavor = .ULTIGCODE then s
  else if s.bed ≠ t then
    let s1 := if wait then
        (if c.flavor = .MARLIN then (s.emit (.bed (printed 1 t))).emit .m105 else s).emit (.bedWait (printed 1 t))
      else s.emit (.bed (printed 1 t))
    { s1 with bed := t }
  else s

/-- `writePrintAcceleration`, 1867-1893 (the time estimate is not modelled). -/
def printAcc (c : Cfg) (s : St) (a : ℚ) : St :=
  let s1 := if s.pAcc ≠ a then
      match c.flavor with
      | .REPETIER => s.emit (.accP (printed 0 a))
      | .REPRAP => s.emit (.accP (printed 0 a))
      | _ => s.emit (.acc (printed 0 a))
    else s
  { s1 with pAcc := a }

/-- `writeTravelAcceleration`, 1895-1918. -/
def travelAcc (c : Cfg) (s : St) (a : ℚ) : St :=
  let s1 := match c.flavor with
    | .REPETIER => if s.tAcc ≠ a then s.emit (.accT (printed 0 a)) else s
    | .REPRAP => if s.tAcc ≠ a then s.emit (.accT (printed 0 a)) else s
    | _ => printAcc c s a
  { s1 with tAcc := a }

/-- The unit in which the jerk is written, 1924-1937. -/
def jerkUnit : Flavor → ℚ
  | .REPRAP => 60
  | .CHEETAH => 1000
  | _ => 1

/-- `writeJerk`, 1920-1950. -/
def jerk (c : Cfg) (s : St) (j : ℚ) : St :=
  if s.jerk ≠ j then { s.emit (.jerk (printed 2 (j * jerkUnit c.flavor))) with jerk := j } else s

/-- The calls. `tool`: the tool change of `startExtruder`, 1500-1519. `assumeBed`: at the start of the next mesh group
`preSetup`, 155-157, takes the bed to be at the final temperature of the previous group. -/
inductive Op
  | fan (speed : ℚ) (e : Option Nat)
  | specificFan (speed : ℚ) (n : Nat)
  | temp (e : Nat) (t : ℚ) (wait force : Bool)
  | bed (t : ℚ) (wait : Bool)
  | printAcc (a : ℚ)
  | travelAcc (a : ℚ)
  | jerk (j : ℚ)
  | tool (t : Nat)
  | assumeBed (t : ℚ)

def step (c : Cfg) (s : St) : Op → St
  | .fan v e => fan c s v e
  | .specificFan v n => specificFan c s v n
  | .temp e t w f => temp c s e t w f
  | .bed t w => bed c s t w
  | .printAcc a => printAcc c s a
  | .travelAcc a => travelAcc c s a
  | .jerk j => jerk c s j
  | .tool t => { (if t ≠ s.cur then s.emit (.tool t) else s) with cur := t }
  | .assumeBed t => { s with bed := t }

def run (c : Cfg) (s : St) (ops : List Op) : St := ops.foldl (step c) s

end Verif.Requests
