import Mathlib.Algebra.Order.Ring.Unbundled.Rat
import Mathlib.Algebra.Order.Field.Basic

/-! # Heating and cooling times (src/Preheat.cpp)

Doubles are rationals. Where the code divides by a speed that is not positive the result is infinite or not a
number; the theorems are about positive speeds. -/

namespace Verif.Heat

/-- The speeds of an extruder in degrees per second: "machine_nozzle_heat_up_speed",
"machine_nozzle_cool_down_speed" and "material_extrusion_cool_down_speed". -/
structure Speeds where
  heat : ℚ
  cool : ℚ
  extrusion : ℚ

/-- `heat_up_speed` (src/Preheat.cpp:23-27, 62-66, 132-136). -/
def Speeds.up (s : Speeds) (printing : Bool) : ℚ := if printing then s.heat - s.extrusion else s.heat

/-- `cool_down_speed` (src/Preheat.cpp:32-36, 56-60, 126-130). -/
def Speeds.down (s : Speeds) (printing : Bool) : ℚ := if printing then s.cool + s.extrusion else s.cool

/-- The constructor of `Duration` (include/settings/types/Duration.h:34-37): never negative. -/
def duration (x : ℚ) : ℚ := if x > 0 then x else 0

/-- `getTimeToGoFromTempToTemp` (src/Preheat.cpp:17-40). -/
def timeFromTo (s : Speeds) (before after : ℚ) (printing : Bool) : ℚ :=
  max 0 (if after > before then duration ((after - before) / s.up printing)
    else duration ((before - after) / s.down printing))

/-- `WarmUpResult` (include/Preheat.h:27-32) and `CoolDownResult` (lines 37-42): the window, the time for
heating (cooling), and the lowest (highest) temperature. -/
structure Plan where
  window : ℚ
  time : ℚ
  turn : ℚ
deriving DecidableEq

/-- The end of `getWarmUpPointAfterCoolDown` (src/Preheat.cpp:101-113): `extra` is the heating time so far,
`limited` the time window that is left, `outer` the temperature at both its ends. -/
def warmUpWithin (s : Speeds) (printing : Bool) (window extra limited outer mid stop : ℚ) : Plan :=
  let perDown := duration (1 / s.down printing)
  let perUp := duration (1 / s.up printing)
  let toHeat := timeFromTo s mid outer printing
  if toHeat * (1 + perDown / perUp) < limited then ⟨window, extra + duration toHeat, mid⟩
  else
    let t := extra + duration (duration (limited * perUp) / duration (perDown + perUp))
    ⟨window, t, max mid (stop - t / perUp)⟩

/-- `getWarmUpPointAfterCoolDown` (src/Preheat.cpp:52-120). -/
def warmUp (s : Speeds) (window start mid stop : ℚ) (printing : Bool) : Plan :=
  let perDown := duration (1 / s.down printing)
  let perUp := duration (1 / s.up printing)
  let extra := if start < stop then duration ((stop - start) * perUp) else duration ((start - stop) * perDown)
  let limited := window - extra
  if limited < 0 then ⟨duration window, 0, min start stop⟩
  else if start < stop then warmUpWithin s printing (duration window) extra limited start mid stop
  else warmUpWithin s printing (duration window) 0 limited stop mid stop

/-- The end of `getCoolDownPointAfterWarmUp` (src/Preheat.cpp:173-185). -/
def coolDownWithin (s : Speeds) (printing : Bool) (window extra limited outer mid stop : ℚ) : Plan :=
  let perDown := duration (1 / s.down printing)
  let perUp := duration (1 / s.up printing)
  let toCool := timeFromTo s mid outer printing
  if toCool * (1 + perDown / perUp) < limited then ⟨window, extra + duration toCool, mid⟩
  else
    let t := extra + duration (duration (limited * perUp) / duration (perDown + perUp))
    ⟨window, t, min mid (stop + t / perDown)⟩

/-- `getCoolDownPointAfterWarmUp` (src/Preheat.cpp:122-192); the assertion is not modelled. -/
def coolDown (s : Speeds) (window start mid stop : ℚ) (printing : Bool) : Plan :=
  let perDown := duration (1 / s.down printing)
  let perUp := duration (1 / s.up printing)
  let extra := if start < stop then duration ((stop - start) * perUp) else duration ((start - stop) * perDown)
  let limited := window - extra
  if limited < 0 then ⟨duration window, 0, max start stop⟩
  else if start < stop then coolDownWithin s printing (duration window) 0 limited stop mid stop
  else coolDownWithin s printing (duration window) extra limited start mid stop

end Verif.Heat
