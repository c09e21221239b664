import Verif.Requests.HeatLemmas

/-! # C23: suppressed repetitions never leave the machine with a stale setting

`Machine.after M m s` is a machine that started as `m` and obeyed every line of `s.out`; `lastFan`, `lastTemp`, … (in
`Verif.Requests.Spec`) read the last request off the history. The text of a number is represented by the number it
denotes (`printed`). -/

namespace Verif.Requests

open Verif.GCode (Flavor)

/-! ## Fans -/

/-- **C23** (fans), without any condition on the speeds: after any history, a fan for which a speed was requested runs at
the number written for that speed, or is off although that number is the smallest step (0.1, or 0.01 if speeds are scaled to
0–1). The full claim has no such exception; see `C23_fan_counterexample`. -/
theorem C23_fan_partial (c : Cfg) (hf : c.flavor ≠ .MAKERBOT) (M : MachineCfg) (m : Machine) (t : Nat) (temps : Nat → ℚ)
    (b : ℚ) (ops : List Op) (n : Nat) (v : ℚ) (hv : lastFan c n t none ops = some v) :
    (m.after M (run c (.init t temps b) ops)).fan n = printed (fanDigits c) (fanValue c v) ∨
    (m.after M (run c (.init t temps b) ops)).fan n = 0 ∧
      |printed (fanDigits c) (fanValue c v)| = 1 / 10 ^ fanDigits c := by
  have key : ∀ (ops : List Op) (s : St), FanInv c (m.after M s) s n →
      FanInv c (m.after M (run c s ops)) (run c s ops) n := by
    intro ops
    induction ops with
    | nil => intro s h; exact h
    | cons op ops ih => intro s h; exact ih _ (fanInv_step hf s op n h)
  refine key ops (.init t temps b) (fun x hx => by simp [St.init] at hx) v ?_
  rw [fan_last]
  exact hv

/-- **C23** (fans): if no requested speed lies between half of the smallest step and the smallest step, the fan runs at the
number written for the speed last requested for it. -/
theorem C23_fan_clear_partial (c : Cfg) (hf : c.flavor ≠ .MAKERBOT) (M : MachineCfg) (m : Machine) (t : Nat) (temps : Nat → ℚ)
    (b : ℚ) (ops : List Op) (hops : ∀ op ∈ ops, ∀ x, op.fanSpeed = some x →
      |fanValue c x| * 10 ^ fanDigits c < 1 / 2 ∨ 1 ≤ |fanValue c x| * 10 ^ fanDigits c)
    (n : Nat) (v : ℚ) (hv : lastFan c n t none ops = some v) :
    (m.after M (run c (.init t temps b) ops)).fan n = printed (fanDigits c) (fanValue c v) := by
  have key : ∀ (ops : List Op) (s : St), (∀ op ∈ ops, ∀ x, op.fanSpeed = some x → ClearFan c x) →
      FanExact c (m.after M s) s n → FanExact c (m.after M (run c s ops)) (run c s ops) n := by
    intro ops
    induction ops with
    | nil => intro s _ h; exact h
    | cons op ops ih =>
      intro s hop h
      exact ih _ (fun o ho => hop o (List.mem_cons_of_mem _ ho)) (fanExact_step hf s op (hop op (by simp)) n h)
  refine key ops (.init t temps b) hops (fun x hx => by simp [St.init] at hx) v ?_
  rw [fan_last]
  exact hv

/-- A Marlin printer with two extruders, each with its own fan. -/
def exMarlin : Cfg where
  flavor := .MARLIN
  fanNumber e := e
  tempEnabled _ := true
  share := false
  extruders := 2
  alwaysTool := false
  zeroToOne := false

def exMachine : Machine where
  fan _ := 0
  mbFan := false
  tool := 0
  target _ := 0
  hot _ := false
  bed := 0
  bedHot := false
  acc := 0
  accP := 0
  accT := 0
  jerk := 0

def exPlain : MachineCfg where
  shared := false
  selects := false

/-- Half speed on fan 0, repeated (suppressed), then fan 1 after a tool change, then fan 0 off: machine and requests. -/
def exFanOps : List Op := [.fan 50 none, .fan 50 none, .tool 1, .fan 100 none, .fan 0 (some 0)]

example : (∀ op ∈ exFanOps, ∀ x, op.fanSpeed = some x → ClearFan exMarlin x) ∧
    lastFan exMarlin 0 0 none exFanOps = some 0 ∧ lastFan exMarlin 1 0 none exFanOps = some 100 ∧
    (run exMarlin (.init 0 (fun _ => 0) 0) exFanOps).out =
      [.fan 0 (1275 / 10), .tool 1, .fan 1 255, .fanOff 0] := by
  refine ⟨?_, rfl, rfl, by decide +kernel⟩
  intro op hop x hx
  simp only [exFanOps, List.mem_cons, List.not_mem_nil, or_false] at hop
  rcases hop with rfl | rfl | rfl | rfl | rfl <;>
    first
    | (simp only [Op.fanSpeed, Option.some.injEq] at hx; subst hx; unfold ClearFan fanValue fanDigits exMarlin; norm_num)
    | (simp [Op.fanSpeed] at hx)

/-- The exception is real: with speeds scaled to 0–1, a request of 0.7 % is written as `M107`, and a following request of
1 %, which would be written as 0.01, is suppressed as a repetition: the fan is off. -/
theorem C23_fan_counterexample :
    lastFan { exMarlin with zeroToOne := true } 0 0 none [.fan (7 / 10) none, .fan 1 none] = some 1 ∧
    (exMachine.after exPlain (run { exMarlin with zeroToOne := true } (.init 0 (fun _ => 0) 0)
      [.fan (7 / 10) none, .fan 1 none])).fan 0 = 0 ∧
    printed 2 (fanValue { exMarlin with zeroToOne := true } 1) = 1 / 100 := by
  refine ⟨rfl, by decide +kernel, by decide +kernel⟩

/-- **C23** (fans, Makerbot): if all requests are for the same fan, the fan is on exactly if the last speed requested was at
least half. -/
theorem C23_fan_makerbot_partial (c : Cfg) (hf : c.flavor = .MAKERBOT) (M : MachineCfg) (m : Machine) (t : Nat)
    (temps : Nat → ℚ) (b : ℚ) (n : Nat) (hn : ∀ e, c.fanNumber e = n) (ops : List Op)
    (hops : ∀ x k, Op.specificFan x k ∈ ops → k = n) (v : ℚ) (hv : lastFan c n t none ops = some v) :
    (m.after M (run c (.init t temps b) ops)).mbFan = decide (50 ≤ v) := by
  have key : ∀ (ops : List Op) (s : St), (∀ x k, Op.specificFan x k ∈ ops → k = n) →
      (∀ x, s.fan n = some x → (m.after M s).mbFan = decide (50 ≤ x)) →
      ∀ x, (run c s ops).fan n = some x → (m.after M (run c s ops)).mbFan = decide (50 ≤ x) := by
    intro ops
    induction ops with
    | nil => intro s _ h; exact h
    | cons op ops ih =>
      intro s hop h
      refine ih _ (fun x k hk => hop x k (List.mem_cons_of_mem _ hk)) ?_
      have keep : Leaves .mb s (step c s op) → (step c s op).fan = s.fan →
          ∀ x, (step c s op).fan n = some x → (m.after M (step c s op)).mbFan = decide (50 ≤ x) := by
        intro hl hr x hx
        have ha : (m.after M (step c s op)).mbFan = (m.after M s).mbFan := hl.agree
        rw [ha]; rw [hr] at hx; exact h x hx
      cases op with
      | fan v e => simp only [step, fan, hn]; exact mb_specific hf s v n h
      | specificFan v k =>
        have : k = n := hop v k (by simp)
        subst this
        exact mb_specific hf s v k h
      | temp e t w f => exact keep (leaves_temp .mb (by simp) s e t w f) (temp_rec s e t w f).1
      | bed t w => exact keep (leaves_bed .mb (by simp) s t w) (bed_rec s t w).1
      | printAcc a => exact keep (leaves_printAcc .mb (by simp) s a) (printAcc_rec s a).1
      | travelAcc a => exact keep (leaves_travelAcc .mb (by simp) s a) (travelAcc_rec s a).1
      | jerk j => exact keep (leaves_jerk .mb (by simp) s j) (jerk_rec s j).1
      | tool t => exact keep (leaves_tool .mb (by simp) s t) (tool_rec s t).1
      | assumeBed t => exact keep (leaves_assumeBed s t) rfl
  refine key ops (.init t temps b) hops (fun x hx => by simp [St.init] at hx) v ?_
  rw [fan_last]
  exact hv

/-- Makerbot with two fan numbers: both write the same line, but the record is kept per number. Fan 0 on, fan 1 off, fan 0
on again: the last request is suppressed and the fan is off. -/
theorem C23_fan_makerbot_counterexample :
    lastFan { exMarlin with flavor := .MAKERBOT } 0 0 none
      [.specificFan 100 0, .specificFan 0 1, .specificFan 100 0] = some 100 ∧
    (exMachine.after exPlain (run { exMarlin with flavor := .MAKERBOT } (.init 0 (fun _ => 0) 0)
      [.specificFan 100 0, .specificFan 0 1, .specificFan 100 0])).mbFan = false := by
  refine ⟨rfl, by decide +kernel⟩

example : lastFan { exMarlin with flavor := .MAKERBOT, fanNumber := fun _ => 0 } 0 0 none [.fan 20 none, .tool 1, .fan 80 none] = some 80 ∧
    (run { exMarlin with flavor := .MAKERBOT, fanNumber := fun _ => 0 } (.init 0 (fun _ => 0) 0)
      [.fan 20 none, .tool 1, .fan 80 none]).out = [.mbFan false, .tool 1, .mbFan true] := by
  refine ⟨rfl, by decide +kernel⟩

/-! ## Nozzle temperatures -/

/-- **C23** (nozzles, separate heaters): if the machine starts with the temperatures that are assumed, then after any history
every extruder with temperature control has the target last requested for it. Repeated requests, requests for extruders not
in use and tool changes are all allowed. If a `T` word in a temperature command also selects that tool on the machine
(`selects`), the active tool must be written back. -/
theorem C23_temp (c : Cfg) (M : MachineCfg) (hc : c.share = false) (hM : M.shared = false)
    (hsel : M.selects = true → c.alwaysTool = true) (m : Machine) (temps : Nat → ℚ) (b : ℚ)
    (hm : ∀ e, m.target e = printed 1 (temps e)) (ops : List Op) (e : Nat) (he : c.tempEnabled e = true) :
    (m.after M (run c (.init m.tool temps b) ops)).target e = printed 1 (lastTemp e (temps e) ops) := by
  have h := heat_run (m := m) hc hM hsel ops (.init m.tool temps b) ⟨rfl, hm, fun i hi => by simp [St.init] at hi⟩
  rw [h.target e, temp_last hc e he]
  rfl

/-- **C23** (nozzles, separate heaters, waiting): right after a request to wait, the heater has reached the target, whether or
not the command was written again. -/
theorem C23_temp_waited (c : Cfg) (M : MachineCfg) (hc : c.share = false) (hM : M.shared = false)
    (hsel : M.selects = true → c.alwaysTool = true) (m : Machine) (temps : Nat → ℚ) (b : ℚ)
    (hm : ∀ e, m.target e = printed 1 (temps e)) (ops : List Op) (e : Nat) (t : ℚ) (f : Bool) (he : c.tempEnabled e = true) :
    (m.after M (run c (.init m.tool temps b) (ops ++ [.temp e t true f]))).hot e = true ∧
    (m.after M (run c (.init m.tool temps b) (ops ++ [.temp e t true f]))).target e = printed 1 t := by
  have h := heat_run (m := m) hc hM hsel ops (.init m.tool temps b) ⟨rfl, hm, fun i hi => by simp [St.init] at hi⟩
  have hr : run c (.init m.tool temps b) (ops ++ [.temp e t true f]) = temp c (run c (.init m.tool temps b) ops) e t true f := by
    unfold run; rw [List.foldl_append]; rfl
  obtain ⟨h1, h2, _⟩ := heat_temp (m := m) hc hM hsel _ e t true f h
  rw [hr]
  refine ⟨(h2 he).2 rfl, ?_⟩
  rw [h1.target e, (h2 he).1]
  simp

/-- **C23** (nozzles, separate heaters): the machine's tool is the one last selected. -/
theorem C23_tool (c : Cfg) (M : MachineCfg) (hc : c.share = false) (hM : M.shared = false)
    (hsel : M.selects = true → c.alwaysTool = true) (m : Machine) (temps : Nat → ℚ) (b : ℚ)
    (hm : ∀ e, m.target e = printed 1 (temps e)) (ops : List Op) :
    (m.after M (run c (.init m.tool temps b) ops)).tool = toolAfter m.tool ops := by
  have h := heat_run (m := m) hc hM hsel ops (.init m.tool temps b) ⟨rfl, hm, fun i hi => by simp [St.init] at hi⟩
  rw [h.tool, cur_last]
  rfl

def exTempOps : List Op :=
  [.temp 0 200 false false, .temp 0 200 true false, .temp 0 200 true false, .temp 1 150 false false, .tool 1,
    .temp 1 210 true false, .temp 0 100 false false]

example : (∀ e, exMachine.target e = printed 1 ((fun _ => (0 : ℚ)) e)) ∧
    (run exMarlin (.init exMachine.tool (fun _ => 0) 0) exTempOps).out =
      [.temp none 200, .m105, .tempWait none 200, .temp (some 1) 150, .tool 1, .m105, .tempWait none 210, .temp (some 0) 100] ∧
    lastTemp 0 0 exTempOps = 100 ∧ lastTemp 1 0 exTempOps = 210 ∧ toolAfter 0 exTempOps = 1 := by
  refine ⟨fun _ => show (0 : ℚ) = printed 1 0 by decide +kernel, by decide +kernel, rfl, rfl, rfl⟩

/-- The condition on `selects` is needed: if the machine takes `T1` in `M104 T1` as a tool change and the tool is not written
back, the next temperature goes to the wrong heater. -/
theorem C23_temp_selects_counterexample :
    (exMachine.after { exPlain with selects := true } (run exMarlin (.init exMachine.tool (fun _ => 0) 0)
      [.temp 1 150 false false, .temp 0 200 false false])).target 0 = 0 ∧
    lastTemp 0 0 [.temp 1 150 false false, .temp 0 200 false false] = 200 := by
  refine ⟨by decide +kernel, rfl⟩

/-- **C23** (nozzles, one heater for all): the heater's target is the temperature last requested for the extruder that was in
use at the time of the request. -/
theorem C23_shared (c : Cfg) (M : MachineCfg) (hc : c.share = true) (hM : M.shared = true)
    (hsel : M.selects = true → c.alwaysTool = true) (m : Machine) (T0 b : ℚ) (hm : m.target 0 = printed 1 T0)
    (ht : m.tool < c.extruders) (ops : List Op) (hops : ∀ t, Op.tool t ∈ ops → t < c.extruders) :
    (m.after M (run c (.init m.tool (fun _ => T0) b) ops)).target 0 = printed 1 (lastShared c m.tool T0 ops) :=
  shared_last (m := m) hc hM hsel ops (.init m.tool (fun _ => T0) b) T0 hops
    ⟨rfl, ht, fun _ _ => hm, fun _ _ hi => by simp [St.init] at hi⟩ hm

/-- **C23** (nozzles, one heater for all, waiting): right after a request to wait for the extruder in use, the heater has
reached the target. -/
theorem C23_shared_waited (c : Cfg) (M : MachineCfg) (hc : c.share = true) (hM : M.shared = true)
    (hsel : M.selects = true → c.alwaysTool = true) (m : Machine) (T0 b : ℚ) (hm : m.target 0 = printed 1 T0)
    (ht : m.tool < c.extruders) (ops : List Op) (hops : ∀ t, Op.tool t ∈ ops → t < c.extruders) (t : ℚ) (f : Bool)
    (he : c.tempEnabled (toolAfter m.tool ops) = true) :
    (m.after M (run c (.init m.tool (fun _ => T0) b) (ops ++ [.temp (toolAfter m.tool ops) t true f]))).hot 0 = true ∧
    (m.after M (run c (.init m.tool (fun _ => T0) b) (ops ++ [.temp (toolAfter m.tool ops) t true f]))).target 0 =
      printed 1 t := by
  have h := shared_run (m := m) hc hM hsel ops (.init m.tool (fun _ => T0) b) hops
    ⟨rfl, ht, fun _ _ => hm, fun _ _ hi => by simp [St.init] at hi⟩
  have hr : run c (.init m.tool (fun _ => T0) b) (ops ++ [.temp (toolAfter m.tool ops) t true f]) =
      temp c (run c (.init m.tool (fun _ => T0) b) ops) (toolAfter m.tool ops) t true f := by
    unfold run; rw [List.foldl_append]; rfl
  have hcur : (run c (.init m.tool (fun _ => T0) b) ops).cur = toolAfter m.tool ops := cur_last ops _
  obtain ⟨_, h2, _⟩ := shared_temp (m := m) hc hM hsel _ (toolAfter m.tool ops) t true f h
  rw [hr]
  exact ⟨(h2 hcur.symm he).2 rfl, (h2 hcur.symm he).1⟩

def exShared : Cfg := { exMarlin with share := true }

def exSharedMachine : MachineCfg where
  shared := true
  selects := false

/-- The request for extruder 1 while 0 is in use is ignored; the one repeated after the tool change is suppressed. -/
example : exMachine.target 0 = printed 1 0 ∧ exMachine.tool < exShared.extruders ∧
    (run exShared (.init exMachine.tool (fun _ => 0) 0)
      [.temp 0 200 true false, .temp 1 100 false false, .tool 1, .temp 1 200 true false, .temp 1 220 false false]).out =
      [.m105, .tempWait none 200, .tool 1, .temp none 220] ∧
    lastShared exShared 0 0
      [.temp 0 200 true false, .temp 1 100 false false, .tool 1, .temp 1 200 true false, .temp 1 220 false false] = 220 := by
  refine ⟨by decide +kernel, by decide, by decide +kernel, rfl⟩

/-! ## Bed temperature -/

/-- **C23** (bed): the bed has the target last requested, in every flavour that controls the bed, as long as no assumption
about the bed is made in between (start of the next mesh group, see `C23_bed_assumed_counterexample`). -/
theorem C23_bed_partial (c : Cfg) (hf : c.flavor ≠ .ULTIGCODE) (M : MachineCfg) (m : Machine) (t : Nat) (temps : Nat → ℚ)
    (b : ℚ) (hm : m.bed = printed 1 b) (ops : List Op) (hops : ∀ x, Op.assumeBed x ∉ ops) :
    (m.after M (run c (.init t temps b) ops)).bed = printed 1 (lastBed b ops) := by
  have key : ∀ (ops : List Op) (s : St), (∀ x, Op.assumeBed x ∉ ops) → (m.after M s).bed = printed 1 s.bed →
      (m.after M (run c s ops)).bed = printed 1 (run c s ops).bed := by
    intro ops
    induction ops with
    | nil => intro s _ h; exact h
    | cons op ops ih =>
      intro s hn h
      exact ih _ (fun x hx => hn x (List.mem_cons_of_mem _ hx)) (bed_step hf s op (fun x hx => hn x (by simp [hx])) h)
  rw [key ops (.init t temps b) hops hm, bed_last hf ops _ hops]
  rfl

example : exMachine.bed = printed 1 0 ∧ (run exMarlin (.init 0 (fun _ => 0) 0)
      [.bed 60 true, .bed 60 false, .bed 50 false]).out = [.bed 60, .m105, .bedWait 60, .bed 50] ∧
    lastBed 0 [.bed 60 true, .bed 60 false, .bed 50 false] = 50 := by
  refine ⟨by decide +kernel, by decide +kernel, rfl⟩

/-- Waiting for the bed is not covered, and rightly: a request to wait is suppressed if the same temperature was requested
before without waiting. -/
theorem C23_bed_wait_counterexample :
    (run exMarlin (.init 0 (fun _ => 0) 0) [.bed 60 false, .bed 60 true]).out = [.bed 60] ∧
    (exMachine.after exPlain (run exMarlin (.init 0 (fun _ => 0) 0) [.bed 60 false, .bed 60 true])).bedHot = false := by
  refine ⟨by decide +kernel, by decide +kernel⟩

/-- At the next mesh group the bed is taken to be at the previous group's final temperature. If the previous group had one
layer only, that temperature was never requested; then the request for the initial temperature of the next group may be
suppressed: the bed stays at the previous initial temperature, 60, although 50 was requested. -/
theorem C23_bed_assumed_counterexample :
    (exMachine.after exPlain (run exMarlin (.init 0 (fun _ => 0) 0) [.bed 60 true, .assumeBed 50, .bed 50 true])).bed = 60 ∧
    lastBed 0 [.bed 60 true, .assumeBed 50, .bed 50 true] = 50 := by
  refine ⟨by decide +kernel, rfl⟩

/-! ## Acceleration and jerk -/

/-- **C23** (acceleration, flavours with one acceleration): the machine has the acceleration last requested, for printing or
travelling. -/
theorem C23_acc (c : Cfg) (hf : c.flavor ≠ .REPETIER ∧ c.flavor ≠ .REPRAP) (M : MachineCfg) (m : Machine) (t : Nat)
    (temps : Nat → ℚ) (b : ℚ) (ops : List Op) (hops : ∀ op ∈ ops, NonNeg op) (a : ℚ) (hlast : 0 ≤ a)
    (ha : lastAcc true true none ops = some a) :
    (m.after M (run c (.init t temps b) ops)).acc = printed 0 a := by
  have hs : ¬ Separate c := by rintro (h | h); exacts [hf.1 h, hf.2 h]
  have h := acc_run (c := c) (M := M) (m := m) ops (.init t temps b) hops
    ⟨fun _ h => absurd rfl h, fun _ h => absurd rfl h, fun _ h => absurd rfl h⟩
  have hl := pAcc_last (c := c) ops (.init t temps b) none rfl
  simp only [hs, not_false_eq_true, decide_true, ha, Option.getD_some] at hl
  rw [h.one hs (by rw [hl]; intro h; rw [h] at hlast; norm_num at hlast), hl]

/-- **C23** (acceleration, RepRap and Repetier): both accelerations are the ones last requested. -/
theorem C23_acc_separate (c : Cfg) (hf : c.flavor = .REPETIER ∨ c.flavor = .REPRAP) (M : MachineCfg) (m : Machine) (t : Nat)
    (temps : Nat → ℚ) (b : ℚ) (ops : List Op) (hops : ∀ op ∈ ops, NonNeg op) (a : ℚ) (hlast : 0 ≤ a) :
    (lastAcc true false none ops = some a → (m.after M (run c (.init t temps b) ops)).accP = printed 0 a) ∧
    (lastAcc false true none ops = some a → (m.after M (run c (.init t temps b) ops)).accT = printed 0 a) := by
  have hs : Separate c := hf
  have h := acc_run (c := c) (M := M) (m := m) ops (.init t temps b) hops
    ⟨fun _ h => absurd rfl h, fun _ h => absurd rfl h, fun _ h => absurd rfl h⟩
  constructor
  · intro ha
    have hl := pAcc_last (c := c) ops (.init t temps b) none rfl
    simp only [hs, not_true_eq_false, decide_false, ha, Option.getD_some] at hl
    rw [h.p hs (by rw [hl]; intro h; rw [h] at hlast; norm_num at hlast), hl]
  · intro ha
    have hl := tAcc_last (c := c) ops (.init t temps b) none rfl
    simp only [ha, Option.getD_some] at hl
    rw [h.t hs (by rw [hl]; intro h; rw [h] at hlast; norm_num at hlast), hl]

/-- **C23** (jerk): the machine has the jerk last requested, in the unit of the flavour. -/
theorem C23_jerk (c : Cfg) (M : MachineCfg) (m : Machine) (t : Nat) (temps : Nat → ℚ) (b : ℚ) (ops : List Op)
    (hops : ∀ op ∈ ops, NonNeg op) (j : ℚ) (hlast : 0 ≤ j) (hj : lastJerk none ops = some j) :
    (m.after M (run c (.init t temps b) ops)).jerk =
      printed 2 (j * match c.flavor with | .REPRAP => 60 | .CHEETAH => 1000 | _ => 1) := by
  have h := jerk_run (c := c) (M := M) (m := m) ops (.init t temps b) hops (fun h => absurd rfl h)
  have hl := jerk_last (c := c) ops (.init t temps b) none rfl
  simp only [hj, Option.getD_some] at hl
  rw [h (by rw [hl]; intro h; rw [h] at hlast; norm_num at hlast), hl]
  congr 1

example : (∀ op ∈ [Op.printAcc 3000, .jerk 20, .travelAcc 3000, .travelAcc 5000, .printAcc 3000], NonNeg op) ∧
    (run exMarlin (.init 0 (fun _ => 0) 0)
      [.printAcc 3000, .jerk 20, .travelAcc 3000, .travelAcc 5000, .printAcc 3000]).out =
      [.acc 3000, .jerk 20, .acc 5000, .acc 3000] ∧
    (run { exMarlin with flavor := .REPRAP } (.init 0 (fun _ => 0) 0)
      [.printAcc 3000, .jerk 20, .travelAcc 3000, .travelAcc 5000, .printAcc 3000]).out =
      [.accP 3000, .jerk 1200, .accT 3000, .accT 5000] := by
  refine ⟨?_, by decide +kernel, by decide +kernel⟩
  intro op hop
  simp only [List.mem_cons, List.not_mem_nil, or_false] at hop
  rcases hop with rfl | rfl | rfl | rfl | rfl <;> unfold NonNeg <;> norm_num

end Verif.Requests
