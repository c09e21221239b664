import Verif.GCode.RetrLemmas
import Verif.GCode.AcctProps
import Mathlib.Tactic.FinCases

/-! # The limit on retractions: theorems C22 -/

namespace Verif.GCode

/-- **C22.** For every history: among the retractions that were performed with a tool and are subject to the limit (not
forced, not at a tool change, not during a wipe), at most `N` lie in any window of filament shorter than the configured one
(`W` mm of filament, i.e. `W * area` mm³), where filament is what the exporter reports as extruded at the moment of the
retraction. -/
theorem C22_window (c : Cfg) (hs : Sane c) (N : Nat) (W : ℚ) (t : Nat) (ps : Nat → ℚ) (ops : List Op)
    (hN : ∀ op ∈ ops, LimitIs N W op) (hp : ∀ op ∈ ops, PrimesForward op) (ha : AllAllowed c (St.init t ps) ops)
    (u : Nat) (a : ℚ) :
    ((retrLog c u (St.init t ps) ops []).filter
      fun e => !e.1 && decide (a ≤ e.2) && decide (e.2 < a + W * c.area u)).length ≤ N :=
  goodLog_count a (log_run hs N W u ops (St.init t ps) [] hN hp ha (inv_init t ps) (fun _ => le_refl _)
    (by simp [absHist, St.init]) (by simp) trivial)

/-- **C22 (each retraction).** After any history, a retraction that is subject to the limit is refused when the limit is zero
or when the last `N` retractions of the tool — forced ones included — all lie less than a window back. Primes and
extrusion amounts may be anything here. -/
theorem C22_refused (c : Cfg) (hs : Sane c) (N : Nat) (W : ℚ) (t : Nat) (ps : Nat → ℚ) (ops : List Op)
    (hN : ∀ op ∈ ops, LimitIs N W op) (r : RConfig) (hr : r.countMax = N ∧ r.window = W) (w : Bool) (d : Option ℚ)
    (hfull : N = 0 ∨ ∃ x, (retrLog c (run c (St.init t ps) ops).cur (St.init t ps) ops [])[N - 1]? = some x ∧
      totalFilament c (run c (St.init t ps) ops) (run c (St.init t ps) ops).cur <
        x.2 + W * c.area (run c (St.init t ps) ops).cur) :
    (retraction c (run c (St.init t ps) ops) r false w d).2 = false ∧
    (retraction c (run c (St.init t ps) ops) r false w d).1.out = (run c (St.init t ps) ops).out := by
  generalize hs' : run c (St.init t ps) ops = s at *
  have hh : (absHist s s.cur).take N = ((retrLog c s.cur (St.init t ps) ops []).map Prod.snd).take N := by
    rw [← hs']
    exact hist_run hs N W _ ops (St.init t ps) [] hN (by simp [absHist, St.init])
  have h2 : (retraction c s r false w d).2 = false := by
    by_contra hc
    have hacc : (retraction c s r false w d).2 = true := by simpa using hc
    have hf := performed_far hs N W s (.retraction r false w d) ⟨hr.1.ge, fun _ => hr⟩ s.cur _ hh (totalFilament c s s.cur)
      (by unfold performed; rw [if_pos rfl]; dsimp only; rw [if_pos hacc])
    rcases hfull with h0 | ⟨x, hx, hlt⟩
    · omega
    · exact absurd (hf.2 x hx) (not_le.mpr hlt)
  refine ⟨h2, ?_⟩
  unfold retraction at h2 ⊢
  rw [if_neg hs.flavor] at h2 ⊢
  cases hl : limitRetraction c s r false with
  | none => rfl
  | some h =>
    exfalso
    rw [hl] at h2
    dsimp only at h2
    split at h2
    · simp at h2
    · split at h2
      · split at h2 <;> simp at h2
      · simp at h2

/-- **C22 (not overzealous).** After any history, a retraction with a positive limit is performed when fewer than `N`
retractions of the tool were performed before, or when the `N`-th last one is at least a window back. -/
theorem C22_performed (c : Cfg) (hs : Sane c) (N : Nat) (W : ℚ) (t : Nat) (ps : Nat → ℚ) (ops : List Op)
    (hN : ∀ op ∈ ops, LimitIs N W op) (r : RConfig) (hr : r.countMax = N ∧ r.window = W) (w : Bool) (d : Option ℚ)
    (hpos : 0 < N)
    (hfree : ∀ x, (retrLog c (run c (St.init t ps) ops).cur (St.init t ps) ops [])[N - 1]? = some x →
      x.2 + W * c.area (run c (St.init t ps) ops).cur ≤
        totalFilament c (run c (St.init t ps) ops) (run c (St.init t ps) ops).cur) :
    (retraction c (run c (St.init t ps) ops) r false w d).2 = true := by
  generalize hs' : run c (St.init t ps) ops = s at *
  have hh : (absHist s s.cur).take N = ((retrLog c s.cur (St.init t ps) ops []).map Prod.snd).take N := by
    rw [← hs']
    exact hist_run hs N W _ ops (St.init t ps) [] hN (by simp [absHist, St.init])
  have hl : limitRetraction c s r false ≠ none := by
    unfold limitRetraction
    simp only [Bool.not_false, true_and]
    rw [hr.1, hr.2, if_neg (by omega)]
    split
    · rename_i hc
      exfalso
      obtain ⟨hlen, hlt⟩ := hc
      rw [List.length_take] at hlen
      have hN1 : N - 1 < s.a.hist.length := by omega
      have hlast : (s.a.hist.take N).getLast?.getD 0 = s.a.hist[N - 1] := by
        have hl2 : (s.a.hist.take N).length = N := by rw [List.length_take]; omega
        rw [List.getLast?_eq_getElem?, hl2, List.getElem?_take, if_pos (by omega), List.getElem?_eq_getElem hN1]; rfl
      rw [hlast] at hlt
      have h1 := congrArg (fun l : List ℚ => l[N - 1]?) hh
      simp only [List.getElem?_take] at h1
      rw [if_pos (by omega), if_pos (by omega)] at h1
      unfold absHist at h1
      rw [List.getElem?_map, List.getElem?_map] at h1
      have h3 : (s.attr s.cur).hist = s.a.hist := rfl
      rw [h3, List.getElem?_eq_getElem hN1] at h1
      simp only [Option.map_some] at h1
      obtain ⟨x, hx, hxe⟩ := Option.map_eq_some_iff.mp h1.symm
      have := hfree x hx
      rw [hxe] at this
      have hT : totalFilament c s s.cur = (s.attr s.cur).total + currentVolume c s := by
        unfold totalFilament; rw [if_pos rfl]
      rw [hT] at this
      linarith
    · simp
  unfold retraction
  rw [if_neg hs.flavor]
  cases hl' : limitRetraction c s r false with
  | none => exact absurd hl' hl
  | some h =>
    dsimp only
    split
    · rfl
    · split
      · split <;> rfl
      · rfl

/-- **C22 (forced).** A forced retraction is never refused. -/
theorem C22_forced (c : Cfg) (hs : Sane c) (s : St) (r : RConfig) (w : Bool) (d : Option ℚ) :
    (retraction c s r true w d).2 = true := (retraction_hist hs s r true w d).2.2.2 rfl

/-- **C22 (BFB).** The BFB flavour, which the theorems above exclude, writes nothing for a retraction outside a tool
change. -/
theorem C22_bfb (c : Cfg) (hb : c.flavor = .BFB) (s : St) (r : RConfig) (f : Bool) (d : Option ℚ) :
    (retraction c s r f false d).1 = s := by
  unfold retraction
  rw [if_pos hb]
  simp

/-! ## Witnesses -/

/-- A limit of two retractions per 10 mm of filament (60 mm³). -/
def limR : RConfig := ⟨5, 30, 20, 0, 10, 2⟩

/-- Print 20 mm³ and retract, four times; then 60 mm³ more and retract again. -/
def limOps : List Op :=
  [.setZ 200, .travel ⟨0, 0, 200⟩ 100 none,
   .extrude ⟨20, 0, 200⟩ 50 1 false, .retraction limR false false none,
   .extrude ⟨40, 0, 200⟩ 50 1 false, .retraction limR false false none,
   .extrude ⟨60, 0, 200⟩ 50 1 false, .retraction limR false false none,
   .extrude ⟨120, 0, 200⟩ 50 1 false, .retraction limR false false none]

example : ∀ op ∈ limOps, LimitIs 2 10 op := by
  intro op h
  fin_cases h <;> simp [LimitIs, limR]

example : ∀ op ∈ limOps, PrimesForward op := by
  intro op h
  fin_cases h <;> simp [PrimesForward, limR]

example : AllAllowed exCfg (St.init 0 fun _ => 20) limOps := by
  unfold limOps
  refine ⟨?_, ?_, ?_, ?_, ?_, ?_, ?_, ?_, ?_, ?_, trivial⟩ <;> simp [Allowed, exCfg]

/-- The third of the four retractions is refused, the fourth is performed. -/
example : retrLog exCfg 0 (St.init 0 fun _ => 20) limOps [] = [(false, 120), (false, 40), (false, 20)] := by
  decide +kernel

/-- One more retraction right afterwards would meet the hypotheses of `C22_performed`, yet another one those of
`C22_refused`. -/
example : (retrLog exCfg 0 (St.init 0 fun _ => 20) limOps [])[2 - 1]? = some (false, 40) ∧
    totalFilament exCfg (run exCfg (St.init 0 fun _ => 20) limOps) 0 = 120 ∧ (40 : ℚ) + 10 * exCfg.area 0 ≤ 120 ∧
    (run exCfg (St.init 0 fun _ => 20) limOps).cur = 0 := by
  decide +kernel

example : (retrLog exCfg 0 (St.init 0 fun _ => 20) (limOps.take 6) [])[2 - 1]? = some (false, 20) ∧
    totalFilament exCfg (run exCfg (St.init 0 fun _ => 20) (limOps.take 6)) 0 < 20 + 10 * exCfg.area 0 := by
  decide +kernel

end Verif.GCode
