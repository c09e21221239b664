import Verif.GCode.MotionLemmas
import Mathlib.Tactic.NormNum

/-! # Positions: theorems C18, C19, C47, C48 -/

namespace Verif.GCode

theorem home_syncXY {P : PrinterCfg} {p0 : Printer} {c : Cfg} {t : Nat} {ps : Nat → ℚ} (h : p0.Home c t) :
    SyncXY P p0 c (St.init t ps) := ⟨h.1, h.2.1⟩

theorem home_syncT {P : PrinterCfg} {p0 : Printer} {c : Cfg} {t : Nat} {ps : Nat → ℚ} (h : p0.Home c t) :
    SyncT P p0 (St.init t ps) := h.2.2.2.2

theorem home_syncZ {P : PrinterCfg} {p0 : Printer} {c : Cfg} {t : Nat} {ps : Nat → ℚ} (h : p0.Home c t) :
    SyncZ P p0 (St.init t ps) := h.2.2.1

theorem home_syncF {P : PrinterCfg} {p0 : Printer} {c : Cfg} {t : Nat} {ps : Nat → ℚ} (h : p0.Home c t) :
    SyncF P p0 (St.init t ps) := by
  show p0.f = 1 * 60
  rw [h.2.2.2.1]; norm_num

theorem after_pos {P : PrinterCfg} {p0 : Printer} (s : St) (q : P3) : p0.after P { s with pos := q } = p0.after P s :=
  after_out rfl

theorem run_append (c : Cfg) (s : St) (a b : List Op) : run c s (a ++ b) = run c (run c s a) b := by
  simp [run, List.foldl_append]

/-- **C18 (X and Y).** After every history of calls the printer's X and Y are the exporter's recorded position corrected
by the offset of the active nozzle, and the printer's tool is the exporter's current extruder. -/
theorem C18_recorded (c : Cfg) (P : PrinterCfg) (p0 : Printer) (t : Nat) (ps : Nat → ℚ) (h0 : p0.Home c t)
    (ops : List Op) :
    let s := run c (St.init t ps) ops
    (p0.after P s).x = s.pos.x - (c.offset s.cur).1 ∧ (p0.after P s).y = s.pos.y - (c.offset s.cur).2 ∧
    (p0.after P s).tool = s.cur := by
  have h := good_run (P := P) (p0 := p0) (c := c) ops (St.init t ps)
  exact ⟨(h.xy (home_syncXY h0)).1, (h.xy (home_syncXY h0)).2, h.t (home_syncT h0)⟩

/-- **C18 (X and Y), travel.** After any history, a travel request puts the nozzle at the requested X and Y. -/
theorem C18_travel (c : Cfg) (P : PrinterCfg) (p0 : Printer) (t : Nat) (ps : Nat → ℚ) (h0 : p0.Home c t)
    (ops : List Op) (p : P3) (v : ℚ) (r : Option ℚ) :
    let s := run c (St.init t ps) (ops ++ [.travel p v r])
    (p0.after P s).x = p.x - (c.offset (run c (St.init t ps) ops).cur).1 ∧
    (p0.after P s).y = p.y - (c.offset (run c (St.init t ps) ops).cur).2 := by
  have h := C18_recorded c P p0 t ps h0 (ops ++ [.travel p v r])
  have hf := travel_frame (c := c) (run c (St.init t ps) ops) p v r
  simp only [run_append] at h ⊢
  have he : run c (run c (St.init t ps) ops) [.travel p v r] = travel c (run c (St.init t ps) ops) p v r := rfl
  rw [he] at h ⊢
  rw [hf.1, hf.2.1] at h
  exact ⟨h.1, h.2.1⟩

theorem zhopEnd_cur {c : Cfg} (s : St) (v : ℚ) : (zhopEnd c s v 0 none 0).cur = s.cur := by
    have h0 : ∀ (s : St) v h r, (zhopEnd0 c s v h r).cur = s.cur := by
      intro s v h r
      unfold zhopEnd0; split
      · exact (moved_writeZhop (P := ⟨true, id, id⟩) (p0 := ⟨0, 0, 0, 0, 0, 0, fun _ => 0⟩) (c := c) s v h r).cur
      · rfl
    have h1 : ∀ (s : St) v h r q, (zhopEnd1 c s v h r q).cur = s.cur := by
      intro s v h r q
      unfold zhopEnd1; split
      · split
        · rw [h0, h0]
        · rw [h0]
      · rfl
    unfold zhopEnd
    rw [h1]
    split
    · rw [h1]
    · rfl

theorem extrude_cur (c : Cfg) (s : St) (p : P3) (v m : ℚ) (u : Bool) : (extrude c s p v m u).cur = s.cur := by
  by_cases hb : c.flavor = .BFB
  · unfold extrude; rw [if_pos hb]
    exact (bfb_spec (P := ⟨true, id, id⟩) (p0 := ⟨0, 0, 0, 0, 0, 0, fun _ => 0⟩) (c := c) s p v m).2.1
  · by_cases hp : s.pos = p
    · unfold extrude; rw [if_neg hb, if_pos hp]
    · obtain ⟨e, he⟩ := extrude_eq (c := c) s p v m u hb hp
      rw [he, (moved_writeFXYZE (P := ⟨true, id, id⟩) (p0 := ⟨0, 0, 0, 0, 0, 0, fun _ => 0⟩) _ _ _ _ _).cur,
        (preExtrude_quiet (P := ⟨true, id, id⟩) (p0 := ⟨0, 0, 0, 0, 0, 0, fun _ => 0⟩) s p v m u).cur]
      split
      · exact zhopEnd_cur _ _
      · rfl

/-- **C18 (X and Y), extrusion.** After any history, an extrusion request puts the nozzle at the requested X and Y. -/
theorem C18_extrude (c : Cfg) (P : PrinterCfg) (p0 : Printer) (t : Nat) (ps : Nat → ℚ) (h0 : p0.Home c t)
    (ops : List Op) (p : P3) (v m : ℚ) (u : Bool) :
    let s := run c (St.init t ps) (ops ++ [.extrude p v m u])
    (p0.after P s).x = p.x - (c.offset (run c (St.init t ps) ops).cur).1 ∧
    (p0.after P s).y = p.y - (c.offset (run c (St.init t ps) ops).cur).2 := by
  have h := C18_recorded c P p0 t ps h0 (ops ++ [.extrude p v m u])
  simp only [run_append] at h ⊢
  have he : run c (run c (St.init t ps) ops) [.extrude p v m u] = extrude c (run c (St.init t ps) ops) p v m u := rfl
  rw [he] at h ⊢
  rw [extrude_pos, extrude_cur] at h
  exact ⟨h.1, h.2.1⟩

theorem keepZ_track {P : PrinterCfg} {p0 : Printer} {c : Cfg} (ops : List Op) :
    ∀ (s : St) (k : Bool), NoSplit ops → SplitFree s → (k = true → SyncZ P p0 s) →
      SplitFree (run c s ops) ∧ (trackHeight c s k ops = true → SyncZ P p0 (run c s ops)) := by
  induction ops with
  | nil => intro s k _ hs h; exact ⟨hs, h⟩
  | cons op ops ih =>
    intro s k hn hs h
    have hn' : NoSplit ops := fun a r hm => hn a r (List.mem_cons_of_mem _ hm)
    have wrap : ∀ {s' : St}, KeepZ P p0 s s' → heightKnown c s k op = k → s' = step c s op →
        SplitFree (step c s op) ∧ (heightKnown c s k op = true → SyncZ P p0 (step c s op)) := by
      rintro s' hk he rfl
      rw [he]
      exact ⟨hk.sf hs, fun hk' => hk.z hs (h hk')⟩
    have key : SplitFree (step c s op) ∧ (heightKnown c s k op = true → SyncZ P p0 (step c s op)) := by
      cases op with
      | travel p v r =>
        refine ⟨(keepZ_travel (P := P) (p0 := p0) s p v r).sf hs, fun hk => travel_syncZ s p v r ?_⟩
        simp only [heightKnown, Bool.or_eq_true, decide_eq_true_eq] at hk
        rcases hk with (hk | hk) | hk
        · exact Or.inl (h hk)
        · exact Or.inr (Or.inl hk)
        · exact Or.inr (Or.inr hk)
      | extrude p v m u =>
        refine ⟨(keepZ_extrude (P := P) (p0 := p0) s p v m u).sf hs, fun hk => ?_⟩
        simp only [heightKnown, Bool.or_eq_true, decide_eq_true_eq] at hk
        rcases hk with ((hk | hk) | hk) | hk
        · exact (keepZ_extrude s p v m u).z hs (h hk)
        · exact extrude_syncZ s p v m u (Or.inl hk)
        · exact extrude_syncZ s p v m u (Or.inr (Or.inl hk))
        · exact extrude_syncZ s p v m u (Or.inr (Or.inr ⟨hk.1, hs, hk.2⟩))
      | retraction r f w d => exact wrap (quiet_retraction (c := c) s r f w d).keepZ rfl rfl
      | unretract => exact wrap (quiet_unretract (c := c) s).keepZ rfl rfl
      | zhopStart hh v r ra => exact wrap (keepZ_zhopStart (c := c) s hh v r ra) rfl rfl
      | zhopEnd v => exact wrap (keepZ_zhopEnd (c := c) s v) rfl rfl
      | setLeftover a r =>
        refine ⟨fun l hl => ?_, fun hk => ?_⟩
        · simp only [step, Option.some.injEq] at hl
          rw [← hl]; exact hn a r (by simp)
        · have := h hk
          simpa [SyncZ, Printer.after, step] using this
      | setZ z => exact wrap (keepZ_same (s' := step c s (.setZ z)) rfl rfl rfl) rfl rfl
      | addPrime v => exact wrap (keepZ_same (s' := step c s (.addPrime v)) rfl rfl rfl) rfl rfl
      | setFlow m f => exact wrap (keepZ_same (s' := step c s (.setFlow m f)) rfl rfl rfl) rfl rfl
      | resetExtrusion => exact wrap (quiet_resetExtrusion (c := c) s).keepZ rfl rfl
      | switch t r hh =>
        by_cases hc : s.cur = t
        · have : step c s (.switch t r hh) = s := by simp [step, switchExtruder, hc]
          rw [this]
          refine ⟨hs, fun hk => h ?_⟩
          simp only [heightKnown, Bool.and_eq_true] at hk
          exact hk.1
        · refine ⟨?_, fun hk => ?_⟩
          · have hl : (switchExtruder c s t r hh).leftover = s.leftover := switch_leftover s t r hh
            exact splitFree_same hl hs
          · simp [heightKnown, hc] at hk
      | start t =>
        refine ⟨?_, fun hk => ?_⟩
        · exact splitFree_same (start_leftover s t) hs
        · simp [heightKnown] at hk
      | wipe w => exact wrap (keepZ_wipe (c := c) s w) rfl rfl
    exact ih (step c s op) _ hn' key.1 key.2

/-- **C18 (height), partial.** For every history without split z-hop ends, as long as the recorded height is trustworthy
(`trackHeight`: no tool change since the last move that had to write a Z word), the printer is at the recorded height.
What is missing: histories with split z-hop ends, and moves after a tool change that request exactly one micron more than
the height before it; both really go wrong, see `C18_height_after_tool_change` and `C19_split_stays_raised`. -/
theorem C18_height_partial (c : Cfg) (P : PrinterCfg) (p0 : Printer) (t : Nat) (ps : Nat → ℚ) (h0 : p0.Home c t)
    (ops : List Op) (hn : NoSplit ops) (hk : trackHeight c (St.init t ps) true ops = true) :
    (p0.after P (run c (St.init t ps) ops)).z = (run c (St.init t ps) ops).pos.z :=
  (keepZ_track ops (St.init t ps) true hn (fun l hl => by simp [St.init] at hl) (fun _ => home_syncZ h0)).2 hk

/-- **C18 (height), travel, partial.** -/
theorem C18_travel_height_partial (c : Cfg) (P : PrinterCfg) (p0 : Printer) (t : Nat) (ps : Nat → ℚ)
    (h0 : p0.Home c t) (ops : List Op) (hn : NoSplit ops) (p : P3) (v : ℚ) (r : Option ℚ)
    (hk : trackHeight c (St.init t ps) true ops = true ∨
      p.z + (run c (St.init t ps) ops).hop ≠ (run c (St.init t ps) ops).pos.z) :
    (p0.after P (run c (St.init t ps) (ops ++ [.travel p v r]))).z = p.z + (run c (St.init t ps) ops).hop := by
  rw [run_append]
  have h : SyncZ P p0 (travel c (run c (St.init t ps) ops) p v r) := by
    apply travel_syncZ
    rcases hk with hk | hk
    · exact Or.inl (C18_height_partial c P p0 t ps h0 ops hn hk)
    · exact Or.inr (Or.inr hk)
  have hf := travel_frame (c := c) (run c (St.init t ps) ops) p v r
  unfold SyncZ at h
  rw [hf.1] at h
  exact h

/-- **C18 (height), extrusion, partial.** -/
theorem C18_extrude_height_partial (c : Cfg) (P : PrinterCfg) (p0 : Printer) (t : Nat) (ps : Nat → ℚ)
    (h0 : p0.Home c t) (ops : List Op) (hn : NoSplit ops) (p : P3) (v m : ℚ) (u : Bool)
    (hk : trackHeight c (St.init t ps) true (ops ++ [.extrude p v m u]) = true) :
    (p0.after P (run c (St.init t ps) (ops ++ [.extrude p v m u]))).z = p.z := by
  have hn' : NoSplit (ops ++ [.extrude p v m u]) := by
    intro a r hm
    simp at hm
    exact hn a r hm
  have h := C18_height_partial c P p0 t ps h0 _ hn' hk
  rw [h, run_append]
  exact congrArg P3.z (extrude_pos (run c (St.init t ps) ops) p v m u)

/-- **C18, the counterexample.** After a tool change (without custom scripts), a travel request to one micron above the
height recorded before the change (and not further than the hop) leaves the nozzle at its old height. -/
theorem C18_height_after_tool_change (c : Cfg) (P : PrinterCfg) (p0 : Printer) (s : St) (t : Nat) (p : P3) (v : ℚ)
    (hb : c.flavor ≠ .BFB) (hpre : c.prestartCode t = false) (hst : c.startCode t = false)
    (hz : SyncZ P p0 s) (hp : p.z + s.hop = s.pos.z + 1) :
    (p0.after P (travel c (startExtruder c s t) p v none)).z ≠ p.z + s.hop := by
  have h1 : (p0.after P (startExtruder c s t)).z = (p0.after P s).z ∧ (startExtruder c s t).pos.z = s.pos.z + 1 ∧
      (startExtruder c s t).hop = s.hop := by
    unfold startExtruder
    simp only [hpre, hst, script]
    simp only [Bool.false_eq_true, if_false]
    have hr : ∀ (s' : St) q, (p0.after P { resetExtrusion c s' with pos := q }).z = (p0.after P s').z := by
      intro s' q
      rw [after_pos]
      exact (quiet_resetExtrusion (P := P) (p0 := p0) (c := c) s').z
    have hr2 := fun s' => (quiet_resetExtrusion (P := P) (p0 := p0) (c := c) s').pos
    have hr3 := fun s' => (quiet_resetExtrusion (P := P) (p0 := p0) (c := c) s').hop
    refine ⟨?_, ?_, ?_⟩
    · rw [hr]
      split
      · have : ∀ s' : St, ∀ q, (p0.after P { s'.emit (.tool t) with
            pos := q
            cur := t }).z = (p0.after P s').z := by
          intro s' q
          have : ∀ s1 : St, p0.after P { s1 with
            pos := q
            cur := t } = p0.after P s1 := fun s1 => after_out rfl
          rw [this, after_emit]; rfl
        rw [this]; rfl
      · rfl
    · simp only [hr2]
      split <;> rfl
    · simp only [hr3]
      split <;> rfl
  have h2 : (p0.after P (travel c (startExtruder c s t) p v none)).z = (p0.after P (startExtruder c s t)).z := by
    unfold travel
    rw [if_neg hb]
    simp only
    split
    · rfl
    · apply (moved_writeFXYZE (P := P) (p0 := p0) (c := c) _ _ _ _ _).zstuck
      simp only [h1.2.1, h1.2.2]
      exact hp
  rw [h2, h1.1]
  unfold SyncZ at hz
  omega

/-- **C19, partial.** After every history without split z-hop ends (and with a trustworthy recorded height), if the nozzle
is raised, ending the hop puts the printer at the layer height, at unchanged X and Y, and the exporter knows. What is
missing: split ends, which really leave the nozzle raised (`C19_split_stays_raised`). -/
theorem C19_hop_end_partial (c : Cfg) (P : PrinterCfg) (p0 : Printer) (t : Nat) (ps : Nat → ℚ) (h0 : p0.Home c t)
    (ops : List Op) (hn : NoSplit ops) (hk : trackHeight c (St.init t ps) true ops = true) (v : ℚ)
    (hh : (run c (St.init t ps) ops).hop ≠ 0) :
    let s := run c (St.init t ps) ops
    let s' := run c (St.init t ps) (ops ++ [.zhopEnd v])
    (p0.after P s').z = s.layerZ ∧ (p0.after P s').x = (p0.after P s).x ∧ (p0.after P s').y = (p0.after P s).y ∧
    s'.hop = 0 ∧ s'.pos = ⟨s.pos.x, s.pos.y, s.layerZ⟩ := by
  have hk' := keepZ_track (P := P) (p0 := p0) (c := c) ops (St.init t ps) true hn (fun l hl => by simp [St.init] at hl)
    (fun _ => home_syncZ h0)
  have hg := C18_recorded c P p0 t ps h0 ops
  have hg' := C18_recorded c P p0 t ps h0 (ops ++ [.zhopEnd v])
  simp only [run_append] at hg' ⊢
  generalize run c (St.init t ps) ops = s at *
  have he : run c s [.zhopEnd v] = zhopEnd c s v 0 none 0 := rfl
  rw [he] at hg' ⊢
  have h := zhopEnd_spec (P := P) (p0 := p0) (c := c) s v hk'.1 hh
  have hz := h.2.2.2.2 (Or.inl (hk'.2 hk))
  unfold SyncZ at hz
  have hcur : (zhopEnd c s v 0 none 0).cur = s.cur := zhopEnd_cur s v
  rw [h.1, hcur] at hg'
  refine ⟨?_, ?_, ?_, h.2.1, h.1⟩
  · rw [hz, h.1]
  · rw [hg'.1, hg.1]
  · rw [hg'.2.1, hg.2.1]

/-- **C19, raising.** A z-hop of positive height puts the printer that much above the layer height. -/
theorem C19_hop_start (c : Cfg) (P : PrinterCfg) (p0 : Printer) (s : St) (hz : SyncZ P p0 s) (h : Int) (hh : 0 < h)
    (v : ℚ) (r : Option ℚ) (ratio : ℚ) :
    (p0.after P (step c s (.zhopStart h v r ratio))).z = s.layerZ + h ∧ (step c s (.zhopStart h v r ratio)).hop = h := by
  have h0 : ∀ s : St, SyncZ P p0 s → SyncZ P p0 (zhopStart0 c s h v r) ∧ (zhopStart0 c s h v r).pos.z = s.layerZ + h ∧
      (zhopStart0 c s h v r).hop = h := by
    intro s hz
    unfold zhopStart0
    rw [if_pos hh]
    have hm := moved_writeZhop (P := P) (p0 := p0) (c := c) s v h r
    refine ⟨hm.z (Or.inl (by simpa [SyncZ, Printer.after] using hz)), ?_, hm.hop⟩
    rw [hm.pos]
  have h1 : ∀ (s : St) (k : Int), SyncZ P p0 s → SyncZ P p0 (zhopStart0 c s k v r) ∧
      (zhopStart0 c s k v r).layerZ = s.layerZ := by
    intro s k hz
    unfold zhopStart0
    split
    · have hm := moved_writeZhop (P := P) (p0 := p0) (c := c) s v k r
      exact ⟨hm.z (Or.inl (by simpa [SyncZ, Printer.after] using hz)), hm.layerZ⟩
    · exact ⟨hz, rfl⟩
  show (p0.after P (zhopStart c s h v r ratio)).z = _ ∧ (zhopStart c s h v r ratio).hop = h
  unfold zhopStart
  split
  · have ha := h1 s (trunc (h * ratio)) hz
    have hb := h0 _ ha.1
    have := hb.1
    unfold SyncZ at this
    rw [this, hb.2.1, ha.2]
    exact ⟨rfl, hb.2.2⟩
  · have hb := h0 s hz
    have := hb.1
    unfold SyncZ at this
    rw [this, hb.2.1]
    exact ⟨rfl, hb.2.2⟩

/-- **C19, the counterexample, for all states.** If a split end is pending (`0 < ratio < 1`) and the intermediate height
`trunc (hop * ratio)` is not zero, ending the hop leaves the printer above the layer by that intermediate height, while
the exporter believes it to be at the layer height. -/
theorem C19_split_stays_raised (c : Cfg) (P : PrinterCfg) (p0 : Printer) (s : St) (hz : SyncZ P p0 s) (hh : s.hop ≠ 0)
    (amount ratio : ℚ) (hl : s.leftover = some (amount, ratio)) (h0 : 0 < ratio) (h1 : ratio < 1)
    (hi : trunc (s.hop * ratio) ≠ 0) (v : ℚ) :
    (p0.after P (step c s (.zhopEnd v))).z = s.layerZ + trunc (s.hop * ratio) ∧
    (step c s (.zhopEnd v)).pos.z = s.layerZ ∧ (step c s (.zhopEnd v)).hop = 0 ∧
    (step c s (.zhopEnd v)).layerZ = s.layerZ := by
  show (p0.after P (zhopEnd c s v 0 none 0)).z = _ ∧ (zhopEnd c s v 0 none 0).pos.z = _ ∧
    (zhopEnd c s v 0 none 0).hop = 0 ∧ (zhopEnd c s v 0 none 0).layerZ = _
  unfold zhopEnd
  rw [hl]
  simp only
  generalize hs0 : ({ s with leftover := none } : St) = s0
  have hz0 : SyncZ P p0 s0 := by subst hs0; simpa [SyncZ, Printer.after] using hz
  have e1 : s0.hop = s.hop := by subst hs0; rfl
  have e2 : s0.layerZ = s.layerZ := by subst hs0; rfl
  have key : (p0.after P (zhopEnd1 c s0 v 0 (some amount) ratio)).z = s0.layerZ + trunc (s0.hop * ratio) ∧
      (zhopEnd1 c s0 v 0 (some amount) ratio).pos.z = s0.layerZ ∧ (zhopEnd1 c s0 v 0 (some amount) ratio).hop = 0 ∧
      (zhopEnd1 c s0 v 0 (some amount) ratio).layerZ = s0.layerZ := by
    unfold zhopEnd1
    rw [if_pos (by rw [e1]; exact hh), if_pos ⟨rfl, h0, h1⟩]
    have hA : (p0.after P (zhopEnd0 c s0 v (trunc (s0.hop * ratio)) (some s0.a.retrCur))).z =
        s0.layerZ + trunc (s0.hop * ratio) ∧
        (zhopEnd0 c s0 v (trunc (s0.hop * ratio)) (some s0.a.retrCur)).pos.z = s0.layerZ ∧
        (zhopEnd0 c s0 v (trunc (s0.hop * ratio)) (some s0.a.retrCur)).hop = trunc (s0.hop * ratio) ∧
        (zhopEnd0 c s0 v (trunc (s0.hop * ratio)) (some s0.a.retrCur)).layerZ = s0.layerZ := by
      unfold zhopEnd0
      rw [if_pos (by rw [e1]; exact hh)]
      have hm := moved_writeZhop (P := P) (p0 := p0) (c := c) s0 v (trunc (s0.hop * ratio)) (some s0.a.retrCur)
      have hzz := hm.z (Or.inl (by simpa [SyncZ, Printer.after] using hz0))
      unfold SyncZ at hzz
      rw [hm.pos] at hzz
      refine ⟨?_, hm.layerZ, hm.hop, hm.layerZ⟩
      rw [after_pos]
      exact hzz
    generalize zhopEnd0 c s0 v (trunc (s0.hop * ratio)) (some s0.a.retrCur) = sA at hA ⊢
    unfold zhopEnd0
    rw [if_pos (by rw [hA.2.2.1, e1]; exact hi)]
    have hm := moved_writeZhop (P := P) (p0 := p0) (c := c) sA v 0 (some amount)
    have hst := hm.zstuck (by simp [hA.2.1, hA.2.2.2])
    refine ⟨?_, hm.layerZ.trans hA.2.2.2, hm.hop, hm.layerZ.trans hA.2.2.2⟩
    have ho : p0.after P { sA with hop := 0 } = p0.after P sA := after_out rfl
    rw [after_pos, hst, ho]
    exact hA.1
  rw [zhopEnd1_idle _ _ _ _ _ key.2.2.1]
  rw [e1, e2] at key
  exact key

/-- **C19, the consequence.** An extrusion requested at the layer height right then is printed above it. -/
theorem C19_split_extrudes_raised (c : Cfg) (P : PrinterCfg) (p0 : Printer) (s : St) (hb : c.flavor ≠ .BFB)
    (hz : SyncZ P p0 s) (hh : s.hop ≠ 0)
    (amount ratio : ℚ) (hl : s.leftover = some (amount, ratio)) (h0 : 0 < ratio) (h1 : ratio < 1)
    (hi : trunc (s.hop * ratio) ≠ 0) (v v' mm3 : ℚ) (x y : Int) (u : Bool) :
    (p0.after P (run c s [.zhopEnd v, .extrude ⟨x, y, s.layerZ⟩ v' mm3 u])).z = s.layerZ + trunc (s.hop * ratio) := by
  have h := C19_split_stays_raised c P p0 s hz hh amount ratio hl h0 h1 hi v
  show (p0.after P (extrude c (step c s (.zhopEnd v)) _ v' mm3 u)).z = _
  generalize step c s (.zhopEnd v) = s1 at h ⊢
  by_cases hp : s1.pos = ⟨x, y, s.layerZ⟩
  · unfold extrude; rw [if_neg hb, if_pos hp]; exact h.1
  · obtain ⟨e, he⟩ := extrude_eq (c := c) s1 ⟨x, y, s.layerZ⟩ v' mm3 u hb hp
    have hq := preExtrude_quiet (P := P) (p0 := p0) (c := c) s1 ⟨x, y, s.layerZ⟩ v' mm3 u
    rw [if_neg (by omega)] at hq
    rw [he, (moved_writeFXYZE (P := P) (p0 := p0) (c := c) _ _ _ _ _).zstuck (by rw [hq.pos]; exact h.2.1.symm), hq.z]
    exact h.1

/-- **C47.** Except for BFB printers: after any history, a travel request that emits anything is executed at the requested
speed (the modal feed rate of the printer is the requested speed, in mm/min). -/
theorem C47_travel_speed (c : Cfg) (hb : c.flavor ≠ .BFB) (P : PrinterCfg) (p0 : Printer) (t : Nat) (ps : Nat → ℚ)
    (h0 : p0.Home c t) (ops : List Op) (p : P3) (v : ℚ) (r : Option ℚ) :
    let s := run c (St.init t ps) ops
    let s' := run c (St.init t ps) (ops ++ [.travel p v r])
    s'.out = s.out ∨ ((p0.after P s').f = v * 60 ∧ ∃ xy z f e, s'.out = s.out ++ [.move xy z f e]) := by
  have hg := (good_run (P := P) (p0 := p0) (c := c) ops (St.init t ps)).f hb (home_syncF h0)
  simp only [run_append]
  generalize run c (St.init t ps) ops = s at *
  show (travel c s p v r).out = s.out ∨ ((p0.after P (travel c s p v r)).f = v * 60 ∧
    ∃ xy z f e, (travel c s p v r).out = s.out ++ [.move xy z f e])
  unfold travel
  rw [if_neg hb]
  simp only
  split
  · left; rfl
  · right
    have hm := moved_writeFXYZE (P := P) (p0 := p0) (c := c) s v ⟨p.x, p.y, p.z + s.hop⟩ s.e (r.map (amounts c s))
    refine ⟨?_, ?_⟩
    · have := hm.f hg
      unfold SyncF at this
      rw [this, hm.speed]
    · obtain ⟨s2, ew, xy, heq, _, _, _, _, _, _, _, hout⟩ :=
        writeFXYZE_eq (c := c) s v ⟨p.x, p.y, p.z + s.hop⟩ s.e (r.map (amounts c s))
      rw [heq]
      rw [← hout]
      exact ⟨_, _, _, _, rfl⟩

/-- **C47.** Likewise for an extrusion request: its own line (the last one emitted) runs at the requested speed. -/
theorem C47_extrude_speed (c : Cfg) (hb : c.flavor ≠ .BFB) (P : PrinterCfg) (p0 : Printer) (t : Nat) (ps : Nat → ℚ)
    (h0 : p0.Home c t) (ops : List Op) (p : P3) (v m : ℚ) (u : Bool) :
    let s := run c (St.init t ps) ops
    let s' := run c (St.init t ps) (ops ++ [.extrude p v m u])
    s'.out = s.out ∨ ((p0.after P s').f = v * 60 ∧ ∃ xy z f e, s'.out.getLast? = some (.move xy z f e)) := by
  have hg := (good_run (P := P) (p0 := p0) (c := c) ops (St.init t ps)).f hb (home_syncF h0)
  simp only [run_append]
  generalize run c (St.init t ps) ops = s at *
  show (extrude c s p v m u).out = s.out ∨ ((p0.after P (extrude c s p v m u)).f = v * 60 ∧
    ∃ xy z f e, (extrude c s p v m u).out.getLast? = some (.move xy z f e))
  by_cases hp : s.pos = p
  · left; unfold extrude; rw [if_neg hb, if_pos hp]
  · right
    obtain ⟨e, he⟩ := extrude_eq (c := c) s p v m u hb hp
    have hgx := (good_extrude (P := P) (p0 := p0) (c := c) s p v m u).f hb hg
    unfold SyncF at hgx
    rw [he] at hgx ⊢
    have hm := moved_writeFXYZE (P := P) (p0 := p0) (c := c) (preExtrude c s p v m u) v p e none
    refine ⟨by rw [hgx, hm.speed], ?_⟩
    obtain ⟨s2, ew, xy, heq, _⟩ := writeFXYZE_eq (c := c) (preExtrude c s p v m u) v p e none
    rw [heq]
    exact ⟨_, _, _, _, List.getLast?_concat⟩

theorem zhopEnd_xy {c : Cfg} (s : St) (v : ℚ) : (zhopEnd c s v 0 none 0).pos.x = s.pos.x ∧
    (zhopEnd c s v 0 none 0).pos.y = s.pos.y := by
  have h0 : ∀ (s : St) v h r, (zhopEnd0 c s v h r).pos.x = s.pos.x ∧ (zhopEnd0 c s v h r).pos.y = s.pos.y := by
    intro s v h r
    unfold zhopEnd0; split
    · have hm := moved_writeZhop (P := ⟨true, id, id⟩) (p0 := ⟨0, 0, 0, 0, 0, 0, fun _ => 0⟩) (c := c) s v h r
      simp [hm.pos]
    · exact ⟨rfl, rfl⟩
  have h1 : ∀ (s : St) v h r q, (zhopEnd1 c s v h r q).pos.x = s.pos.x ∧ (zhopEnd1 c s v h r q).pos.y = s.pos.y := by
    intro s v h r q
    unfold zhopEnd1; split
    · split
      · rw [(h0 _ _ _ _).1, (h0 _ _ _ _).1, (h0 _ _ _ _).2, (h0 _ _ _ _).2]; exact ⟨rfl, rfl⟩
      · exact h0 _ _ _ _
    · exact ⟨rfl, rfl⟩
  unfold zhopEnd
  rw [(h1 _ _ _ _ _).1, (h1 _ _ _ _ _).2]
  split
  · exact ⟨(h1 _ _ _ _ _).1, (h1 _ _ _ _ _).2⟩
  · exact ⟨rfl, rfl⟩

theorem wipeMoves_frame {c : Cfg} (w : WipeCfg) (n : Nat) : ∀ (i : Nat) (s : St),
    (wipeMoves c w n i s).cur = s.cur ∧ (wipeMoves c w n i s).hop = s.hop ∧ (wipeMoves c w n i s).layerZ = s.layerZ ∧
    (wipeMoves c w n i s).leftover = s.leftover := by
  induction n with
  | zero => intro i s; exact ⟨rfl, rfl, rfl, rfl⟩
  | succ n ih =>
    intro i s
    unfold wipeMoves
    have h := ih (i + 1) (travelXY c s (s.pos.x + (if i % 2 ≠ 0 then -w.moveDistance else w.moveDistance)) s.pos.y w.moveSpeed)
    have hf := travel_frame (c := c) s ⟨s.pos.x + (if i % 2 ≠ 0 then -w.moveDistance else w.moveDistance), s.pos.y, s.layerZ⟩ w.moveSpeed none
    unfold travelXY at h ⊢
    exact ⟨h.1.trans hf.2.1, h.2.1.trans hf.2.2.1, h.2.2.1.trans hf.2.2.2.1, h.2.2.2.trans hf.2.2.2.2⟩

/-- The states inside a wipe: before the return travel, and after it. -/
theorem wipe_frame {c : Cfg} (s : St) (w : WipeCfg) : ∃ s5 : St,
    s5.pos = ⟨s.pos.x, s.pos.y, s.pos.z + s5.hop⟩ ∧ s5.layerZ = s.layerZ ∧ s5.leftover = s.leftover ∧
    s5.hop = (if w.hopEnable = true ∧ 0 < w.hopAmount then w.hopAmount else s.hop) ∧
    (wipe c s w).pos = (if w.hopEnable then zhopEnd c s5 w.hopSpeed 0 none 0 else s5).pos ∧
    (wipe c s w).hop = (if w.hopEnable then zhopEnd c s5 w.hopSpeed 0 none 0 else s5).hop := by
  have hs1 : ∀ s0 : St, Quiet ⟨true, id, id⟩ ⟨0, 0, 0, 0, 0, 0, fun _ => 0⟩ s0
      (if w.retractionEnable then (retraction c s0 w.rconfig false false none).1 else s0) := by
    intro s0
    split
    · exact quiet_retraction _ _ _ _ _
    · exact .refl s0
  have hs2 : ∀ s1 : St, (if w.hopEnable then zhopStart c s1 w.hopAmount w.hopSpeed none 0 else s1).layerZ = s1.layerZ ∧
      (if w.hopEnable then zhopStart c s1 w.hopAmount w.hopSpeed none 0 else s1).leftover = s1.leftover ∧
      (if w.hopEnable then zhopStart c s1 w.hopAmount w.hopSpeed none 0 else s1).hop =
        (if w.hopEnable = true ∧ 0 < w.hopAmount then w.hopAmount else s1.hop) := by
    intro s1
    by_cases he : w.hopEnable
    · rw [if_pos he]
      have : zhopStart c s1 w.hopAmount w.hopSpeed none 0 = zhopStart0 c s1 w.hopAmount w.hopSpeed none := by
        unfold zhopStart; rw [if_neg (by simp)]
      rw [this]
      unfold zhopStart0
      by_cases hh : 0 < w.hopAmount
      · rw [if_pos hh, if_pos ⟨he, hh⟩]
        have hm := moved_writeZhop (P := ⟨true, id, id⟩) (p0 := ⟨0, 0, 0, 0, 0, 0, fun _ => 0⟩) (c := c) s1 w.hopSpeed
          w.hopAmount none
        exact ⟨hm.layerZ, hm.leftover, hm.hop⟩
      · rw [if_neg hh, if_neg (fun h => hh h.2)]; exact ⟨rfl, rfl, rfl⟩
    · rw [if_neg he, if_neg (fun h => he h.1)]; exact ⟨rfl, rfl, rfl⟩
  unfold wipe
  simp only
  have h1 := hs1 (s.emit .note)
  generalize (if w.retractionEnable then (retraction c (s.emit .note) w.rconfig false false none).1 else s.emit .note) = s1 at h1 ⊢
  have h2 := hs2 s1
  generalize (if w.hopEnable then zhopStart c s1 w.hopAmount w.hopSpeed none 0 else s1) = s2 at h2 ⊢
  have h3 := travel_frame (c := c) s2 ⟨w.brushX, s2.pos.y, s2.layerZ⟩ w.moveSpeed none
  have h4 := wipeMoves_frame (c := c) w w.repeatCount 0 (travelXY c s2 w.brushX s2.pos.y w.moveSpeed)
  unfold travelXY at h4 ⊢
  generalize wipeMoves c w w.repeatCount 0 (travel c s2 ⟨w.brushX, s2.pos.y, s2.layerZ⟩ w.moveSpeed none) = s4 at h4 ⊢
  have h5 := travel_frame (c := c) s4 s.pos w.moveSpeed none
  refine ⟨travel c s4 s.pos w.moveSpeed none, ?_, ?_, ?_, ?_, ?_, ?_⟩
  · rw [h5.1, h5.2.2.1]
  · rw [h5.2.2.2.1, h4.2.2.1, h3.2.2.2.1, h2.1, h1.layerZ]; rfl
  · rw [h5.2.2.2.2, h4.2.2.2, h3.2.2.2.2, h2.2.1, h1.leftover]; rfl
  · rw [h5.2.2.1, h4.2.1, h3.2.2.1, h2.2.2, h1.hop]; rfl
  · have hu := fun s6 => (quiet_unretract (P := ⟨true, id, id⟩) (p0 := ⟨0, 0, 0, 0, 0, 0, fun _ => 0⟩) (c := c) s6).pos
    by_cases hr : w.retractionEnable
    · simp only [if_pos hr, emit_pos, hu]
    · simp only [if_neg hr, emit_pos]
  · have hu := fun s6 => (quiet_unretract (P := ⟨true, id, id⟩) (p0 := ⟨0, 0, 0, 0, 0, 0, fun _ => 0⟩) (c := c) s6).hop
    by_cases hr : w.retractionEnable
    · simp only [if_pos hr, emit_hop, hu]
    · simp only [if_neg hr, emit_hop]

theorem wipe_cur {c : Cfg} (s : St) (w : WipeCfg) : (wipe c s w).cur = s.cur := by
  have hq : ∀ {a b : St}, Quiet ⟨true, id, id⟩ ⟨0, 0, 0, 0, 0, 0, fun _ => 0⟩ a b → b.cur = a.cur := fun h => h.cur
  have hz0 : ∀ (s : St) h v r, (zhopStart0 c s h v r).cur = s.cur := by
    intro s h v r
    unfold zhopStart0; split
    · exact (moved_writeZhop (P := ⟨true, id, id⟩) (p0 := ⟨0, 0, 0, 0, 0, 0, fun _ => 0⟩) (c := c) s v h r).cur
    · rfl
  have hz : ∀ (s : St) h v r q, (zhopStart c s h v r q).cur = s.cur := by
    intro s h v r q
    unfold zhopStart; split
    · rw [hz0, hz0]
    · rw [hz0]
  unfold wipe
  simp only [emit_cur]
  have e7 : ∀ s6 : St, (if w.retractionEnable then unretract c s6 else s6).cur = s6.cur := by
    intro s6; split
    · exact hq (quiet_unretract s6)
    · rfl
  have e6 : ∀ s5 : St, (if w.hopEnable then zhopEnd c s5 w.hopSpeed 0 none 0 else s5).cur = s5.cur := by
    intro s5; split
    · exact zhopEnd_cur _ _
    · rfl
  have e2 : ∀ s1 : St, (if w.hopEnable then zhopStart c s1 w.hopAmount w.hopSpeed none 0 else s1).cur = s1.cur := by
    intro s1; split
    · exact hz _ _ _ _ _
    · rfl
  have e1 : ∀ s0 : St, (if w.retractionEnable then (retraction c s0 w.rconfig false false none).1 else s0).cur = s0.cur := by
    intro s0; split
    · exact hq (quiet_retraction s0 _ _ _ _)
    · rfl
  rw [e7, e6, (travel_frame _ _ _ _).2.1, (wipeMoves_frame w _ _ _).1]
  unfold travelXY
  rw [(travel_frame _ _ _ _).2.1, e2, e1]
  rfl

/-- **C48 (X, Y).** After any history, wiping the nozzle on the brush returns the printer to the X and Y it came from. -/
theorem C48_wipe_returns (c : Cfg) (P : PrinterCfg) (p0 : Printer) (t : Nat) (ps : Nat → ℚ) (h0 : p0.Home c t)
    (ops : List Op) (w : WipeCfg) :
    let s := run c (St.init t ps) ops
    let s' := run c (St.init t ps) (ops ++ [.wipe w])
    (p0.after P s').x = (p0.after P s).x ∧ (p0.after P s').y = (p0.after P s).y := by
  have h := C18_recorded c P p0 t ps h0 ops
  have h' := C18_recorded c P p0 t ps h0 (ops ++ [.wipe w])
  simp only [run_append] at h' ⊢
  generalize run c (St.init t ps) ops = s at *
  have he : run c s [.wipe w] = wipe c s w := rfl
  rw [he] at h' ⊢
  obtain ⟨s5, hp, _, _, _, hpos, _⟩ := wipe_frame (c := c) s w
  have hxy : (wipe c s w).pos.x = s.pos.x ∧ (wipe c s w).pos.y = s.pos.y := by
    rw [hpos]
    split
    · rw [(zhopEnd_xy s5 w.hopSpeed).1, (zhopEnd_xy s5 w.hopSpeed).2, hp]; exact ⟨rfl, rfl⟩
    · rw [hp]; exact ⟨rfl, rfl⟩
  rw [wipe_cur, hxy.1, hxy.2] at h'
  exact ⟨h'.1.trans h.1.symm, h'.2.1.trans h.2.1.symm⟩

/-- **C48 (height), partial.** If the nozzle is not raised and is at the layer height (and no split hop end is pending),
wiping also returns it to that height. What is missing: a nozzle that is already raised, see `C48_raised`. -/
theorem C48_wipe_height_partial (c : Cfg) (P : PrinterCfg) (p0 : Printer) (s : St) (w : WipeCfg)
    (hz : SyncZ P p0 s) (hh : s.hop = 0) (hl : s.pos.z = s.layerZ) (hsf : SplitFree s) :
    (p0.after P (step c s (.wipe w))).z = (p0.after P s).z ∧ (step c s (.wipe w)).pos = s.pos := by
  obtain ⟨s5, hp, hlz, hlo, hhop, hpos, _⟩ := wipe_frame (c := c) s w
  have hk := (keepZ_wipe (P := P) (p0 := p0) (c := c) s w).z hsf hz
  have hpos' : (wipe c s w).pos = s.pos := by
    rw [hpos]
    by_cases he : w.hopEnable = true ∧ 0 < w.hopAmount
    · rw [if_pos he.1]
      rw [if_pos he] at hhop
      have := zhopEnd_spec (P := P) (p0 := p0) (c := c) s5 w.hopSpeed (splitFree_same hlo hsf) (by omega)
      rw [this.1, hp, hlz, ← hl]
    · rw [if_neg he, hh] at hhop
      have h5 : s5.pos = s.pos := by rw [hp, hhop]; simp
      split
      · rcases zhopEnd_idle (c := c) s5 w.hopSpeed hhop with h | h <;> rw [h] <;> exact h5
      · exact h5
  refine ⟨?_, hpos'⟩
  unfold SyncZ at hk hz
  show (p0.after P (wipe c s w)).z = _
  rw [hk, hz, hpos']

/-- **C48, the counterexample, for all states.** If the nozzle is raised and the wipe itself does not hop, the nozzle ends
higher than before by the hop. -/
theorem C48_raised (c : Cfg) (P : PrinterCfg) (p0 : Printer) (s : St) (w : WipeCfg)
    (hz : SyncZ P p0 s) (hh : s.hop ≠ 0) (hsf : SplitFree s) (hw : w.hopEnable = false) :
    (p0.after P (step c s (.wipe w))).z = (p0.after P s).z + s.hop ∧
    (p0.after P (step c s (.wipe w))).z ≠ (p0.after P s).z := by
  obtain ⟨s5, hp, _, _, hhop, hpos, _⟩ := wipe_frame (c := c) s w
  have hk := (keepZ_wipe (P := P) (p0 := p0) (c := c) s w).z hsf hz
  unfold SyncZ at hk hz
  have e : (p0.after P (step c s (.wipe w))).z = (p0.after P s).z + s.hop := by
    show (p0.after P (wipe c s w)).z = _
    rw [hk, hz, hpos, hw]
    simp only [Bool.false_eq_true, if_false]
    rw [hp, hhop, hw]
    simp
  exact ⟨e, by omega⟩

/-! ## Witnesses -/

/-- A Marlin printer with two nozzles. -/
def exCfg : Cfg where
  flavor := .MARLIN
  relative := false
  area _ := 6
  offset t := if t = 1 then (18000, 0) else (0, 0)
  firmware _ := false
  zhopSpeed _ := 5
  retractionEnable _ := true
  prestartCode _ := false
  startCode _ := false
  endCode _ := false
  len x y z := |(x : ℚ)| + |(y : ℚ)| + |(z : ℚ)|

def exR : RConfig := ⟨5, 30, 20, 0, 10, 100⟩

/-- Travel, print, hop, travel, print, change tool, print with the other nozzle. -/
def exOps : List Op :=
  [.setZ 200, .travel ⟨1000, 2000, 200⟩ 100 none, .extrude ⟨5000, 2000, 200⟩ 50 1 false,
   .retraction exR false false none, .zhopStart 400 0 none 0, .travel ⟨9000, 9000, 200⟩ 100 none,
   .extrude ⟨9000, 12000, 200⟩ 50 1 false, .switch 1 exR 1000, .travel ⟨3000, 4000, 200⟩ 100 none,
   .extrude ⟨3000, 9000, 200⟩ 50 1 false, .zhopStart 400 0 none 0]

def exPrinter : Printer := ⟨0, 0, 20000, 60, 0, 0, fun _ => 0⟩

example : exPrinter.Home exCfg 0 := ⟨rfl, rfl, rfl, rfl, rfl⟩

example : NoSplit exOps := by intro a r h; simp [exOps] at h

example : trackHeight exCfg (St.init 0 fun _ => 20) true exOps = true := by decide +kernel

example : (run exCfg (St.init 0 fun _ => 20) exOps).hop ≠ 0 := by decide +kernel

/-- A split end pending after a hop of 400 with ratio 1/2: the printer ends 200 above the layer. -/
example : let s := run exCfg (St.init 0 fun _ => 20) [.setZ 200, .travel ⟨1000, 2000, 200⟩ 100 none,
      .setLeftover 1 (1 / 2), .zhopStart 400 0 none 0]
    s.hop ≠ 0 ∧ s.leftover = some (1, 1 / 2) ∧ trunc (s.hop * (1 / 2)) = 200 ∧
    SyncZ ⟨false, id, id⟩ exPrinter s := by
  refine ⟨by decide +kernel, by decide +kernel, by decide +kernel, ?_⟩
  unfold SyncZ
  decide +kernel

/-- A nozzle at the layer height, not raised, as in `C48_wipe_height_partial`. -/
example : let s := run exCfg (St.init 0 fun _ => 20) [.setZ 200, .travel ⟨1000, 2000, 200⟩ 100 none,
      .extrude ⟨5000, 2000, 200⟩ 50 1 false]
    s.hop = 0 ∧ s.pos.z = s.layerZ ∧ s.leftover = none ∧ SyncZ ⟨false, id, id⟩ exPrinter s := by
  refine ⟨by decide +kernel, by decide +kernel, by decide +kernel, ?_⟩
  unfold SyncZ
  decide +kernel

end Verif.GCode
