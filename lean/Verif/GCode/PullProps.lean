import Verif.GCode.PullLemmas
import Verif.GCode.AcctProps

/-! # C134: a retraction that is not refused pulls the filament back, and what is extruded afterwards is primed -/

namespace Verif.GCode

theorem allAllowed_append {c : Cfg} (ys : List Op) : ∀ (xs : List Op) (s : St), AllAllowed c s (xs ++ ys) →
    AllAllowed c s xs ∧ AllAllowed c (run c s xs) ys := by
  intro xs
  induction xs with
  | nil => intro s h; exact ⟨trivial, h⟩
  | cons x xs ih => intro s h; exact ⟨⟨h.1, (ih _ h.2).1⟩, (ih _ h.2).2⟩

/-- **C134 (E words).** After any history without a flow-rate offset, a retraction that is not refused leaves the
filament of the tool in use pulled back by the requested distance, up to a millionth: behind the position that the
volumes requested so far amount to. What the full statement also covers and this does not: histories with a flow-rate
offset and callers outside `Allowed` (see C20). -/
theorem C134_pulled_back_partial (c : Cfg) (hs : Sane c) (P : PrinterCfg) (hP : P.relative = c.relative)
    (hε : ∀ x, P.rE x = x) (p0 : Printer) (t : Nat) (hp : p0.Fresh t) (ps : Nat → ℚ) (ops : List Op) (r : RConfig)
    (f w : Bool) (d : Option ℚ) (ha : AllAllowed c (St.init t ps) ops) (hf : NoFlow ops)
    (hok : (retraction c (run c (St.init t ps) ops) r f w d).2 = true) (u : Nat) (hu : (run c (St.init t ps) ops).cur = u)
    (hfw : c.firmware u = false) :
    |(p0.after P (run c (St.init t ps) (ops ++ [.retraction r f w d]))).fil u -
      (chargedSum c (St.init t ps) ops u / kappa c u - inE c u (d.getD r.distance))| < 1 / 1000000 := by
  have ha' : AllAllowed c (St.init t ps) (ops ++ [.retraction r f w d]) := by
    have : ∀ (xs : List Op) (s : St), AllAllowed c s xs → AllAllowed c s (xs ++ [.retraction r f w d]) := by
      intro xs
      induction xs with
      | nil => intro s _; exact ⟨trivial, trivial⟩
      | cons x xs ih => intro s h; exact ⟨h.1, ih _ h.2⟩
    exact this ops _ ha
  have hf' : NoFlow (ops ++ [.retraction r f w d]) := by
    intro m g hm
    rcases List.mem_append.1 hm with h | h
    · exact hf m g h
    · simp at h
  have h1 := C20_accounting_exact_partial c hs P hP hε p0 t hp ps _ ha' hf' u
  have h2 := C21_retraction_neutral_partial c hs t ps ops [.retraction r f w d] ha' (by simp [NoExtrusion]) u
  have h3 := C21_report_partial c hs t ps ops ha u
  simp only at h1
  rw [h1, h2, h3]
  have h4 : run c (St.init t ps) (ops ++ [.retraction r f w d]) =
      (retraction c (run c (St.init t ps) ops) r f w d).1 := by rw [run_append]; rfl
  have h5 := retraction_amount hs (run c (St.init t ps) ops) r f w d hok (by rw [hu]; exact hfw)
  rw [hu] at h5
  unfold retracted
  rw [h4, hfw]
  simp only [Bool.false_eq_true, if_false]
  rw [abs_sub_comm] at h5
  calc _ = |inE c u (d.getD r.distance) - ((retraction c (run c (St.init t ps) ops) r f w d).1.attr u).retrCur| := by
        congr 1; ring
    _ < _ := h5

/-- **C134 (E words, primed).** After any history, the call that primes puts the filament where all volumes requested
and primed so far amount to: nothing stays pulled back. -/
theorem C134_primed_partial (c : Cfg) (hs : Sane c) (P : PrinterCfg) (hP : P.relative = c.relative)
    (hε : ∀ x, P.rE x = x) (p0 : Printer) (t : Nat) (hp : p0.Fresh t) (ps : Nat → ℚ) (ops : List Op)
    (ha : AllAllowed c (St.init t ps) (ops ++ [.unretract])) (hf : NoFlow ops) (u : Nat)
    (hu : (run c (St.init t ps) ops).cur = u) :
    (p0.after P (run c (St.init t ps) (ops ++ [.unretract]))).fil u =
      chargedSum c (St.init t ps) (ops ++ [.unretract]) u / kappa c u := by
  have hf' : NoFlow (ops ++ [.unretract]) := by
    intro m g hm
    rcases List.mem_append.1 hm with h | h
    · exact hf m g h
    · simp at h
  have h1 := C20_accounting_exact_partial c hs P hP hε p0 t hp ps _ ha hf' u
  have h3 := C21_report_partial c hs t ps _ ha u
  simp only at h1
  rw [h1, h3]
  have h4 : run c (St.init t ps) (ops ++ [.unretract]) = unretract c (run c (St.init t ps) ops) := by
    rw [run_append]; rfl
  have h5 := (charge_unretract hs (run c (St.init t ps) ops))
  have : retracted c (unretract c (run c (St.init t ps) ops)) u = 0 := by
    unfold retracted
    split
    · rfl
    · have := h5.2.2.1
      unfold St.a at this
      rwa [h5.1.cur, hu] at this
  rw [h4, this, sub_zero]

/-- **C134 (firmware).** For a tool that retracts by firmware: after any history whose retractions have positive
distances, a retraction that is not refused leaves the tool in use pulled back. -/
theorem C134_firmware_pulled_back_partial (c : Cfg) (hs : Sane c) (t : Nat) (ps : Nat → ℚ) (ops : List Op) (r : RConfig)
    (f w : Bool) (d : Option ℚ) (ha : AllAllowed c (St.init t ps) ops) (hp : ∀ op ∈ ops, PullsBack op)
    (hok : (retraction c (run c (St.init t ps) ops) r f w d).2 = true) (u : Nat) (hu : (run c (St.init t ps) ops).cur = u)
    (hfw : c.firmware u = true) (hd : 0 < d.getD r.distance) (hbig : 1 / 1000000 ≤ inE c u (d.getD r.distance)) :
    (pulled t (run c (St.init t ps) (ops ++ [.retraction r f w d])).out).tool = u ∧
    (pulled t (run c (St.init t ps) (ops ++ [.retraction r f w d])).out).back u = true := by
  have hj := agree_run (t := t) hs ops _ ha hp (inv_init t ps) (agree_init t ps)
  obtain ⟨h1, h2, h3⟩ := agree_retraction hs _ r f w d hd hj
  have h4 : run c (St.init t ps) (ops ++ [.retraction r f w d]) =
      (retraction c (run c (St.init t ps) ops) r f w d).1 := by rw [run_append]; rfl
  rw [h4]
  refine ⟨by rw [h1.1, h2, hu], ?_⟩
  rw [h1.2 u hfw]
  rw [hu] at h3
  exact h3 hok hfw hbig

/-- **C134 (firmware, primed).** After any history whose retractions have positive distances, an extrusion that moves
the nozzle leaves the tool in use not pulled back: the line was preceded by a `G11` if one was due. The same holds for
the call that primes. -/
theorem C134_firmware_primed_partial (c : Cfg) (hs : Sane c) (t : Nat) (ps : Nat → ℚ) (ops : List Op)
    (hp : ∀ op ∈ ops, PullsBack op) (op : Op)
    (hop : op = .unretract ∨ ∃ p v m b, op = .extrude p v m b ∧ (run c (St.init t ps) ops).pos ≠ p)
    (ha : AllAllowed c (St.init t ps) (ops ++ [op])) (u : Nat) (hu : (run c (St.init t ps) ops).cur = u)
    (hfw : c.firmware u = true) :
    (pulled t (run c (St.init t ps) (ops ++ [op])).out).tool = u ∧
    (pulled t (run c (St.init t ps) (ops ++ [op])).out).back u = false := by
  obtain ⟨h1, h2⟩ := allAllowed_append _ _ _ ha
  have hi := (acct_run hs ops _ h1 (inv_init t ps)).1
  have hj := agree_run (t := t) hs ops _ h1 hp (inv_init t ps) (agree_init t ps)
  have key : ∀ s' : St, run c (St.init t ps) (ops ++ [op]) = s' → Agree c t s' → s'.cur = u → (s'.attr u).retrCur = 0 →
      (pulled t (run c (St.init t ps) (ops ++ [op])).out).tool = u ∧
      (pulled t (run c (St.init t ps) (ops ++ [op])).out).back u = false := by
    intro s' hs' hj' hc' hr'
    rw [hs']
    refine ⟨by rw [hj'.1, hc'], ?_⟩
    have := hj'.2 u hfw
    rw [hr'] at this
    simpa using this
  rcases hop with rfl | ⟨p, v, m, b, rfl, hpos⟩
  · have h3 := agree_unretract (c := c) _ hj
    refine key _ (by rw [run_append]; rfl) h3.1 (by rw [h3.2.1, hu]) ?_
    rw [← hu]; exact h3.2.2
  · have h3 := charge_extrude hs (run c (St.init t ps) ops) p v m b hpos h2.1.1 h2.1.2 hi.maxOff hi.offFactor
      hi.eOff hi.fw
    refine key (extrude c (run c (St.init t ps) ops) p v m b) (by rw [run_append]; rfl)
      (agree_extrude hs _ p v m b hi hj) (by rw [h3.1.cur, hu]) ?_
    have h4 := h3.2.2
    unfold St.a at h4
    rwa [h3.1.cur, hu] at h4

/-- **C134 (refused).** A retraction that is refused writes nothing. -/
theorem C134_refused (c : Cfg) (s : St) (r : RConfig) (f w : Bool) (d : Option ℚ)
    (hok : (retraction c s r f w d).2 = false) : (retraction c s r f w d).1.out = s.out :=
  retraction_refused s r f w d hok

/-! ## The exception -/

/-- A tool with firmware retraction is pulled back by a tool change and retracts by a distance of zero later. -/
def zeroOps : List Op :=
  [.setZ 200, .travel ⟨0, 0, 200⟩ 100 none, .extrude ⟨6000, 0, 200⟩ 10 1 false, .switch 1 ⟨16, 20, 20, 0, 1, 90⟩ 0,
   .switch 0 ⟨16, 20, 20, 0, 1, 90⟩ 0, .retraction ⟨0, 20, 20, 0, 1, 90⟩ false false none, .travel ⟨9000, 0, 200⟩ 100 none,
   .extrude ⟨9000, 6000, 200⟩ 10 1 false]

def fwCfg : Cfg := { exCfg with firmware := fun _ => true, retractionEnable := fun _ => true }

/-- **C134, counterexample.** With a retraction distance of zero, the exporter takes the tool for primed although the
printer was told to pull it back twice: the following line is printed without a `G11`, with the filament pulled back. -/
theorem C134_zero_distance_counterexample : ∃ (c : Cfg) (t : Nat) (ps : Nat → ℚ) (ops : List Op) (p : P3) (v m : ℚ),
    Sane c ∧ AllAllowed c (St.init t ps) (ops ++ [.extrude p v m false]) ∧ c.firmware 0 = true ∧
    (run c (St.init t ps) ops).pos ≠ p ∧
    (pulled t (run c (St.init t ps) (ops ++ [.extrude p v m false])).out).tool = 0 ∧
    (pulled t (run c (St.init t ps) (ops ++ [.extrude p v m false])).out).back 0 = true := by
  refine ⟨fwCfg, 0, fun _ => 20, zeroOps.dropLast, ⟨9000, 6000, 200⟩, 10, 1,
    ⟨exSane.flavor, exSane.area, exSane.len⟩, ?_, rfl, by decide +kernel, by decide +kernel, by decide +kernel⟩
  show AllAllowed _ _ [_, _, _, _, _, _, _, _]
  refine ⟨?_, ?_, ?_, ?_, ?_, ?_, ?_, ?_, trivial⟩ <;> simp [Allowed]

/-! ## Witnesses -/

/-- Extrude, retract, travel, extrude: with firmware retraction and with E words. -/
def pullOps : List Op :=
  [.setZ 200, .travel ⟨0, 0, 200⟩ 100 none, .extrude ⟨6000, 0, 200⟩ 10 1 false]

def pullR : RConfig := ⟨5, 20, 20, 0, 1, 90⟩

example : AllAllowed fwCfg (St.init 0 fun _ => 20) pullOps ∧ (∀ op ∈ pullOps, PullsBack op) ∧
    (retraction fwCfg (run fwCfg (St.init 0 fun _ => 20) pullOps) pullR false false none).2 = true ∧
    (1 : ℚ) / 1000000 ≤ inE fwCfg 0 5 := by
  refine ⟨⟨?_, ?_, ?_, trivial⟩, ?_, by decide +kernel, by decide +kernel⟩
  · simp [Allowed]
  · simp [Allowed]
  · simp [Allowed]
  · simp [pullOps, PullsBack]

example : let s := run fwCfg (St.init 0 fun _ => 20) (pullOps ++ [.retraction pullR false false none])
    (pulled 0 s.out).back 0 = true ∧
    (pulled 0 (run fwCfg s [.travel ⟨9000, 0, 200⟩ 100 none, .extrude ⟨9000, 6000, 200⟩ 10 1 false]).out).back 0 = false := by
  decide +kernel

/-- With E words the filament is 5 mm behind after the retraction. -/
example : AllAllowed exCfg (St.init 0 fun _ => 20) pullOps ∧ NoFlow pullOps ∧
    (retraction exCfg (run exCfg (St.init 0 fun _ => 20) pullOps) pullR false false none).2 = true ∧
    (exPrinter.after ⟨exCfg.relative, id, id⟩ (run exCfg (St.init 0 fun _ => 20)
      (pullOps ++ [.retraction pullR false false none]))).fil 0 =
    (exPrinter.after ⟨exCfg.relative, id, id⟩ (run exCfg (St.init 0 fun _ => 20) pullOps)).fil 0 - 5 := by
  refine ⟨⟨?_, ?_, ?_, trivial⟩, ?_, by decide +kernel, by decide +kernel⟩
  · simp [Allowed, exCfg]
  · simp [Allowed]
  · simp [Allowed]
  · intro m f h; simp [pullOps] at h

end Verif.GCode
