import Verif.Requests.Model

/-! # The machine and the last request (specification for C23) -/

namespace Verif.Requests

/-- What the machine makes of tools and heaters: one heater for all tools; and whether a `T` in a temperature command
also selects the tool (as Smoothieware does). -/
structure MachineCfg where
  shared : Bool
  selects : Bool

/-- The machine's settings. `hot h`: heater `h` has certainly been at or above its target since the target was set. -/
structure Machine where
  fan : Nat → ℚ
  mbFan : Bool
  tool : Nat
  target : Nat → ℚ
  hot : Nat → Bool
  bed : ℚ
  bedHot : Bool
  acc : ℚ
  accP : ℚ
  accT : ℚ
  jerk : ℚ

/-- The heater of a tool. -/
def MachineCfg.heater (M : MachineCfg) (t : Nat) : Nat := if M.shared then 0 else t

/-- The tool selected by a temperature command for `t`. -/
def MachineCfg.select (M : MachineCfg) (m : Machine) : Option Nat → Nat
  | some t => if M.selects then t else m.tool
  | none => m.tool

def Machine.exec (M : MachineCfg) (m : Machine) : Cmd → Machine
  | .fan n v => { m with fan := fun i => if i = n then v else m.fan i }
  | .fanOff n => { m with fan := fun i => if i = n then 0 else m.fan i }
  | .mbFan b => { m with mbFan := b }
  | .temp t v =>
    { m with target := fun i => if i = M.heater (t.getD m.tool) then v else m.target i
             hot := fun i => if i = M.heater (t.getD m.tool) then m.hot i && decide (v ≤ m.target i) else m.hot i
             tool := M.select m t }
  | .tempWait t v =>
    { m with target := fun i => if i = M.heater (t.getD m.tool) then v else m.target i
             hot := fun i => if i = M.heater (t.getD m.tool) then true else m.hot i
             tool := M.select m t }
  | .waitAll => { m with hot := fun _ => true }
  | .m105 => m
  | .bed v => { m with bed := v
                       bedHot := m.bedHot && decide (v ≤ m.bed) }
  | .bedWait v => { m with bed := v
                           bedHot := true }
  | .acc v => { m with acc := v }
  | .accP v => { m with accP := v }
  | .accT v => { m with accT := v }
  | .jerk v => { m with jerk := v }
  | .tool t => { m with tool := t }

/-- The machine after everything that was written. -/
def Machine.after (M : MachineCfg) (m : Machine) (s : St) : Machine := s.out.foldl (Machine.exec M) m

/-- The extruder in use after a history that starts with `t`. -/
def toolAfter : Nat → List Op → Nat
  | t, [] => t
  | _, .tool u :: ops => toolAfter u ops
  | t, _ :: ops => toolAfter t ops

/-- The speed last requested for fan `n` in a history that starts with extruder `t`; `v` if none. -/
def lastFan (c : Cfg) (n : Nat) : Nat → Option ℚ → List Op → Option ℚ
  | _, v, [] => v
  | t, v, .fan x e :: ops => lastFan c n t (if c.fanNumber (e.getD t) = n then some x else v) ops
  | t, v, .specificFan x m :: ops => lastFan c n t (if m = n then some x else v) ops
  | _, v, .tool u :: ops => lastFan c n u v ops
  | t, v, _ :: ops => lastFan c n t v ops

/-- The temperature last requested for extruder `e`; `v` if none. -/
def lastTemp (e : Nat) : ℚ → List Op → ℚ
  | v, [] => v
  | v, .temp x t _ _ :: ops => lastTemp e (if x = e then t else v) ops
  | v, _ :: ops => lastTemp e v ops

/-- With a shared heater, the temperature last requested for the extruder in use at the time; `v` if none. -/
def lastShared (c : Cfg) : Nat → ℚ → List Op → ℚ
  | _, v, [] => v
  | cur, v, .temp x t _ _ :: ops => lastShared c cur (if x = cur ∧ c.tempEnabled x = true then t else v) ops
  | _, v, .tool u :: ops => lastShared c u v ops
  | cur, v, _ :: ops => lastShared c cur v ops

/-- The bed temperature last requested; `v` if none. -/
def lastBed : ℚ → List Op → ℚ
  | v, [] => v
  | _, .bed t _ :: ops => lastBed t ops
  | v, _ :: ops => lastBed v ops

/-- The acceleration last requested, for printing (`p`) and/or travelling (`t`). -/
def lastAcc (p t : Bool) : Option ℚ → List Op → Option ℚ
  | v, [] => v
  | v, .printAcc a :: ops => lastAcc p t (if p then some a else v) ops
  | v, .travelAcc a :: ops => lastAcc p t (if t then some a else v) ops
  | v, _ :: ops => lastAcc p t v ops

/-- The jerk last requested. -/
def lastJerk : Option ℚ → List Op → Option ℚ
  | v, [] => v
  | _, .jerk j :: ops => lastJerk (some j) ops
  | v, _ :: ops => lastJerk v ops

end Verif.Requests
