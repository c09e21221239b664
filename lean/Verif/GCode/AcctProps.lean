import Verif.GCode.FilLemmas
import Verif.GCode.ModeLemmas
import Verif.GCode.MotionProps

/-! # Filament: theorems C20 and C21 -/

namespace Verif.GCode

/-- The printer starts with tool `t`, a zero filament coordinate and no filament pushed. -/
def Printer.Fresh (t : Nat) (p : Printer) : Prop := p.tool = t ∧ p.le = 0 ∧ ∀ u, p.fil u = 0

theorem bal_fresh {P : PrinterCfg} {p0 : Printer} {c : Cfg} {ε : ℚ} {t : Nat} {ps : Nat → ℚ} (h : p0.Fresh t) (h0 : 0 ≤ ε) :
    Bal P p0 c ε (St.init t ps) := by
  have hb : ∀ u, base c (St.init t ps) u = 0 := by
    intro u; unfold base; simp [St.init]
  have he : (St.init t ps).e = 0 := rfl
  have hp : p0.after P (St.init t ps) = p0 := rfl
  refine ⟨h.1, fun _ u => ?_, fun _ => ⟨?_, fun u => ?_⟩⟩
  · rw [hp, hb, he, ite_self, h.2.2]; simp [errLines, St.init]
  · rw [hp, he, h.2.1]; simpa using h0
  · rw [hp, hb, h.2.2]; simp [errLines, St.init, h.2.1]

/-- **C20 (accounting), with rounding.** For every history without the flow-rate offset, in either extrusion mode, the
filament the printer has pushed with each tool is the exporter's reported amount, less what is retracted at the moment, up to
the rounding `ε` of a number for every line that can contribute. What the full statement also covers and this does not:
histories with a flow-rate extrusion offset (`C20_flow_offset` shows that they deviate) and callers outside `Allowed`. -/
theorem C20_accounting_partial (c : Cfg) (hs : Sane c) (P : PrinterCfg) (hP : P.relative = c.relative) (ε : ℚ) (h0 : 0 ≤ ε)
    (hε : ∀ x, |P.rE x - x| ≤ ε) (p0 : Printer) (t : Nat) (hp : p0.Fresh t) (ps : Nat → ℚ) (ops : List Op)
    (ha : AllAllowed c (St.init t ps) ops) (hf : NoFlow ops) (u : Nat) :
    let s := run c (St.init t ps) ops
    |(p0.after P s).fil u - (totalFilament c s u / kappa c u - retracted c s u)| ≤ ε * (errLines c.relative s.out + 1) := by
  have hi := (acct_run hs ops _ ha (inv_init t ps)).1
  exact (bal_path hs hP hε (epath_run hs ops _ ha rfl hf) (bal_fresh hp h0)).bound hs hi h0 u

/-- **C20 (accounting), exact numbers.** -/
theorem C20_accounting_exact_partial (c : Cfg) (hs : Sane c) (P : PrinterCfg) (hP : P.relative = c.relative)
    (hε : ∀ x, P.rE x = x) (p0 : Printer) (t : Nat) (hp : p0.Fresh t) (ps : Nat → ℚ) (ops : List Op)
    (ha : AllAllowed c (St.init t ps) ops) (hf : NoFlow ops) (u : Nat) :
    let s := run c (St.init t ps) ops
    (p0.after P s).fil u = totalFilament c s u / kappa c u - retracted c s u := by
  have h := C20_accounting_partial c hs P hP 0 (le_refl 0) (fun x => by rw [hε]; simp) p0 t hp ps ops ha hf u
  simp only [zero_mul, abs_nonpos_iff, sub_eq_zero] at h
  exact h

/-- **C20 (both modes).** The same calls in the other extrusion mode push the same filament, up to the rounding of the
lines of both outputs. -/
theorem C20_modes_agree_partial (c : Cfg) (hs : Sane c) (Pa Pr : PrinterCfg) (ha : Pa.relative = false)
    (hr : Pr.relative = true) (ε : ℚ) (h0 : 0 ≤ ε) (hεa : ∀ x, |Pa.rE x - x| ≤ ε) (hεr : ∀ x, |Pr.rE x - x| ≤ ε)
    (p0 : Printer) (t : Nat) (hp : p0.Fresh t) (ps : Nat → ℚ) (ops : List Op)
    (hall : AllAllowed c (St.init t ps) ops) (hf : NoFlow ops) (u : Nat) :
    let sa := run { c with relative := false } (St.init t ps) ops
    let sr := run { c with relative := true } (St.init t ps) ops
    |(p0.after Pa sa).fil u - (p0.after Pr sr).fil u| ≤ ε * (errLines false sa.out + errLines true sr.out + 2) := by
  intro sa sr
  have h1 := sim_run (b := false) hs ops (Sim.refl (St.init t ps)) hall
  have h2 := sim_run (b := true) hs ops (Sim.refl (St.init t ps)) hall
  have b1 := C20_accounting_partial (c.mode false) (sane_mode hs) Pa ha ε h0 hεa p0 t hp ps ops h1.2 hf u
  have b2 := C20_accounting_partial (c.mode true) (sane_mode hs) Pr hr ε h0 hεr p0 t hp ps ops h2.2 hf u
  simp only at b1 b2
  rw [sim_total h1.1, sim_retracted h1.1] at b1
  rw [sim_total h2.1, sim_retracted h2.1] at b2
  have hk : ∀ b, kappa (c.mode b) u = kappa c u := fun _ => rfl
  rw [hk] at b1 b2
  rw [abs_sub_comm] at b2
  have h3 := abs_sub_le ((p0.after Pa sa).fil u) (totalFilament c (run c (St.init t ps) ops) u / kappa c u -
    retracted c (run c (St.init t ps) ops) u) ((p0.after Pr sr).fil u)
  have h4 : |(p0.after Pa sa).fil u - (p0.after Pr sr).fil u| ≤
      ε * (errLines false sa.out + 1) + ε * (errLines true sr.out + 1) := h3.trans (add_le_add b1 b2)
  linarith

/-- The E words of an absolute printer are never relative to each other: nothing drifts, however long the history; in
relative mode the deviation may grow with the number of words. A printer without rounding agrees exactly. -/
theorem C20_modes_agree_exact_partial (c : Cfg) (hs : Sane c) (Pa Pr : PrinterCfg) (ha : Pa.relative = false)
    (hr : Pr.relative = true) (hεa : ∀ x, Pa.rE x = x) (hεr : ∀ x, Pr.rE x = x)
    (p0 : Printer) (t : Nat) (hp : p0.Fresh t) (ps : Nat → ℚ) (ops : List Op)
    (hall : AllAllowed c (St.init t ps) ops) (hf : NoFlow ops) (u : Nat) :
    (p0.after Pa (run { c with relative := false } (St.init t ps) ops)).fil u =
    (p0.after Pr (run { c with relative := true } (St.init t ps) ops)).fil u := by
  have h := C20_modes_agree_partial c hs Pa Pr ha hr 0 (le_refl 0) (fun x => by rw [hεa]; simp) (fun x => by rw [hεr]; simp)
    p0 t hp ps ops hall hf u
  simp only [zero_mul, abs_nonpos_iff, sub_eq_zero] at h
  exact h

/-- Two lines of the same length and volume, with a flow-rate offset in force. -/
def flowOps : List Op :=
  [.setFlow 3 1, .setZ 200, .travel ⟨0, 0, 200⟩ 100 none, .extrude ⟨6000, 0, 200⟩ 10 1 true,
   .extrude ⟨12000, 0, 200⟩ 10 1 true]

/-- **C20, the deviation.** With a flow-rate extrusion offset the relative mode adds the offset on every line again, so the
two modes push different amounts of filament. -/
theorem C20_flow_offset :
    (exPrinter.after ⟨false, id, id⟩ (run { exCfg with relative := false } (St.init 0 fun _ => 20) flowOps)).fil 0 ≠
    (exPrinter.after ⟨true, id, id⟩ (run { exCfg with relative := true } (St.init 0 fun _ => 20) flowOps)).fil 0 := by
  decide +kernel

/-! ## C21 -/

/-- **C21 (report).** After every history the reported amount of each tool is the sum of the requested volumes and of the
prime volumes. -/
theorem C21_report_partial (c : Cfg) (hs : Sane c) (t : Nat) (ps : Nat → ℚ) (ops : List Op)
    (ha : AllAllowed c (St.init t ps) ops) (u : Nat) :
    totalFilament c (run c (St.init t ps) ops) u = chargedSum c (St.init t ps) ops u := by
  have h := (acct_run hs ops _ ha (inv_init t ps)).2 u
  rw [h]
  have : totalFilament c (St.init t ps) u = 0 := by
    unfold totalFilament currentVolume; simp [St.init, St.a]
  rw [this, zero_add]

/-- Calls that do not extrude on their own. -/
def NoExtrusion : Op → Prop
  | .extrude _ _ _ _ => False
  | .unretract => False
  | .wipe _ => False
  | _ => True

theorem charged_noExtrusion {c : Cfg} (s : St) (op : Op) (h : NoExtrusion op) (u : Nat) : charged c s op u = 0 := by
  unfold charged
  cases op <;> simp_all [NoExtrusion]

/-- **C21 (neutral).** Retractions, tool changes, starts, resets, travels and hops, in any number and order after any
history, do not change the reported amount of any tool. -/
theorem C21_retraction_neutral_partial (c : Cfg) (hs : Sane c) (t : Nat) (ps : Nat → ℚ) (ops ops' : List Op)
    (ha : AllAllowed c (St.init t ps) (ops ++ ops')) (hn : ∀ op ∈ ops', NoExtrusion op) (u : Nat) :
    totalFilament c (run c (St.init t ps) (ops ++ ops')) u = totalFilament c (run c (St.init t ps) ops) u := by
  have hsplit : ∀ (xs : List Op) (s : St), AllAllowed c s (xs ++ ops') →
      AllAllowed c s xs ∧ AllAllowed c (run c s xs) ops' := by
    intro xs
    induction xs with
    | nil => intro s h; exact ⟨trivial, h⟩
    | cons x xs ih => intro s h; exact ⟨⟨h.1, (ih _ h.2).1⟩, (ih _ h.2).2⟩
  obtain ⟨h1, h2⟩ := hsplit ops _ ha
  obtain ⟨hi, _⟩ := acct_run hs ops _ h1 (inv_init t ps)
  rw [run_append, (acct_run hs ops' _ h2 hi).2 u]
  have : ∀ (xs : List Op) (s : St), (∀ op ∈ xs, NoExtrusion op) → chargedSum c s xs u = 0 := by
    intro xs
    induction xs with
    | nil => intro s _; rfl
    | cons x xs ih =>
      intro s h
      unfold chargedSum
      rw [charged_noExtrusion s x (h x (by simp)), ih _ (fun o ho => h o (List.mem_cons_of_mem _ ho)), add_zero]
  rw [this ops' _ hn, add_zero]

/-- **C21 (pending prime volume).** A retraction leaves the reported amount alone and adds its prime volume to what the next
priming owes, exactly when it wrote a line. -/
theorem C21_pending_prime (c : Cfg) (hs : Sane c) (s : St) (r : RConfig) (f w : Bool) (d : Option ℚ) :
    totalFilament c (retraction c s r f w d).1 s.cur = totalFilament c s s.cur ∧
    ((retraction c s r f w d).1.attr s.cur).prime =
      (s.attr s.cur).prime + if (retraction c s r f w d).1.out = s.out then 0 else r.primeVolume := by
  obtain ⟨h1, h2, _⟩ := charge_retraction hs s r f w d
  have hc := h1.cur
  refine ⟨?_, ?_⟩
  · have := h1.here
    rw [add_zero, ← here_eq, ← here_eq, hc] at this
    exact this
  · have ht : (retraction c s r f w d).1.attr s.cur = (retraction c s r f w d).1.a := by unfold St.a; rw [hc]
    rw [ht, h2]; rfl

/-- **C21 (primed).** After any history, an extrusion move leaves the filament neither retracted nor with a prime volume
pending. -/
theorem C21_primed_after_extrusion_partial (c : Cfg) (hs : Sane c) (t : Nat) (ps : Nat → ℚ) (ops : List Op) (p : P3)
    (v m : ℚ) (u : Bool) (ha : AllAllowed c (St.init t ps) (ops ++ [.extrude p v m u]))
    (hp : (run c (St.init t ps) ops).pos ≠ p) :
    let s := run c (St.init t ps) (ops ++ [.extrude p v m u])
    retracted c s s.cur = 0 ∧ (s.attr s.cur).prime = 0 ∧ (s.attr s.cur).retrCur = 0 := by
  have hsplit : ∀ (xs : List Op) (s : St), AllAllowed c s (xs ++ [.extrude p v m u]) →
      AllAllowed c s xs ∧ AllAllowed c (run c s xs) [.extrude p v m u] := by
    intro xs
    induction xs with
    | nil => intro s h; exact ⟨trivial, h⟩
    | cons x xs ih => intro s h; exact ⟨⟨h.1, (ih _ h.2).1⟩, (ih _ h.2).2⟩
  obtain ⟨h1, h2⟩ := hsplit ops _ ha
  have hi := (acct_run hs ops _ h1 (inv_init t ps)).1
  simp only [run_append]
  have he : run c (run c (St.init t ps) ops) [.extrude p v m u] = extrude c (run c (St.init t ps) ops) p v m u := rfl
  rw [he]
  obtain ⟨_, h3, h4⟩ := charge_extrude hs (run c (St.init t ps) ops) p v m u hp h2.1.1 h2.1.2 hi.maxOff hi.offFactor
    hi.eOff hi.fw
  refine ⟨?_, h3, h4⟩
  unfold retracted
  split
  · rfl
  · exact h4

/-- A travel with a retraction distance for a tool that retracts by firmware. -/
def fwOps : List Op :=
  [.setZ 200, .travel ⟨0, 0, 200⟩ 100 none, .extrude ⟨6000, 0, 200⟩ 10 1 false, .travel ⟨9000, 0, 200⟩ 100 (some 5)]

/-- **C21, outside the guarantee.** A tool with firmware retraction whose travel is given a retraction distance (the planner
only looks at the first extruder's setting when it decides on this) has the retraction deducted from its report. -/
theorem C21_firmware_travel :
    totalFilament { exCfg with firmware := fun _ => true } (run { exCfg with firmware := fun _ => true }
      (St.init 0 fun _ => 20) fwOps) 0 ≠
    chargedSum { exCfg with firmware := fun _ => true } (St.init 0 fun _ => 20) fwOps 0 := by
  decide +kernel

/-! ## Witnesses -/

theorem exSane : Sane exCfg := by
  refine ⟨by decide, fun _ => by norm_num [exCfg], fun x y z => ?_⟩
  show 0 ≤ |(x : ℚ)| + |(y : ℚ)| + |(z : ℚ)|
  positivity

example : exPrinter.Fresh 0 := ⟨rfl, rfl, fun _ => rfl⟩

theorem exAllowed : AllAllowed exCfg (St.init 0 fun _ => 20) exOps := by
  unfold exOps
  refine ⟨?_, ?_, ?_, ?_, ?_, ?_, ?_, ?_, ?_, ?_, ?_, trivial⟩ <;> simp [Allowed, exCfg]

example : NoFlow exOps := by intro m f h; simp [exOps] at h

example : AllAllowed exCfg (St.init 0 fun _ => 20) flowOps := by
  unfold flowOps
  refine ⟨?_, ?_, ?_, ?_, ?_, trivial⟩ <;> simp [Allowed, exCfg]

/-- The example history pushes filament with both tools and ends with the first one retracted. -/
example : let s := run exCfg (St.init 0 fun _ => 20) exOps
    totalFilament exCfg s 0 = 7000 ∧ totalFilament exCfg s 1 = 5000 ∧ retracted exCfg s 0 = 5 := by
  decide +kernel

example : (run exCfg (St.init 0 fun _ => 20) exOps).pos ≠ ⟨3000, 12000, 200⟩ := by decide +kernel

end Verif.GCode
