import Verif.GCode.FilLemmas

/-! # The exporter's bookkeeping does not depend on the extrusion mode -/

namespace Verif.GCode

variable {c : Cfg} {b : Bool}

/-- The same exporter with another extrusion mode. -/
def Cfg.mode (c : Cfg) (b : Bool) : Cfg := { c with relative := b }

/-- Equal up to the emitted lines. -/
def Sim (s s' : St) : Prop := ∃ o, s' = { s with out := o }

theorem Sim.refl (s : St) : Sim s s := ⟨s.out, rfl⟩

theorem sim_emit {s s' : St} (h : Sim s s') (k k' : Cmd) : Sim (s.emit k) (s'.emit k') := by
  obtain ⟨o, rfl⟩ := h; exact ⟨_, rfl⟩

theorem sim_upd {s s' : St} (h : Sim s s') (f : Attr → Attr) : Sim (s.upd s.cur f) (s'.upd s'.cur f) := by
  obtain ⟨o, rfl⟩ := h; exact ⟨_, rfl⟩

theorem sim_reset {s s' : St} (h : Sim s s') : Sim (resetExtrusion c s) (resetExtrusion (c.mode b) s') := by
  obtain ⟨o, rfl⟩ := h
  have hv : ∀ s1 : St, currentVolume (c.mode b) s1 = currentVolume c s1 := fun _ => rfl
  unfold resetExtrusion
  simp only [hv]
  cases hr : c.relative <;> cases b <;> exact ⟨_, rfl⟩

theorem sim_eWord {s s' : St} (h : Sim s s') (e : ℚ) (r : Option Amounts) :
    Sim (eWord c s e r).2 (eWord (c.mode b) s' e r).2 ∧
    ((eWord c s e r).1 = none ↔ (eWord (c.mode b) s' e r).1 = none) := by
  obtain ⟨o, rfl⟩ := h
  unfold eWord
  cases r with
  | some r =>
    dsimp only
    split
    · exact ⟨⟨_, rfl⟩, by simp⟩
    · exact ⟨⟨_, rfl⟩, by simp⟩
  | none =>
    dsimp only
    split
    · exact ⟨⟨_, rfl⟩, by simp⟩
    · exact ⟨⟨_, rfl⟩, by simp⟩

theorem sim_writeFXYZE {s s' : St} (h : Sim s s') (v : ℚ) (p : P3) (e : ℚ) (r : Option Amounts) :
    Sim (writeFXYZE c s v p e r) (writeFXYZE (c.mode b) s' v p e r) := by
  obtain ⟨o, rfl⟩ := h
  have h1 : Sim (if s.speed ≠ v then { s with speed := v } else s)
      (if s.speed ≠ v then { ({ s with out := o } : St) with speed := v } else { s with out := o }) := by
    split <;> exact ⟨o, rfl⟩
  unfold writeFXYZE
  simp only
  generalize (if s.speed ≠ v then { s with speed := v } else s) = s1 at *
  generalize (if s.speed ≠ v then { ({ s with out := o } : St) with speed := v } else { s with out := o }) = s1' at *
  obtain ⟨o1, rfl⟩ := h1
  have hs2 : Sim { s1 with box := s1.box.incl ⟨(gcodePos c s1 p.x p.y).1, (gcodePos c s1 p.x p.y).2, p.z⟩ }
    { ({ s1 with out := o1 } : St) with
      box := s1.box.incl ⟨(gcodePos (c.mode b) { s1 with out := o1 } p.x p.y).1,
        (gcodePos (c.mode b) { s1 with out := o1 } p.x p.y).2, p.z⟩ } := ⟨o1, rfl⟩
  obtain ⟨⟨o3, h3⟩, _⟩ := sim_eWord (c := c) (b := b) hs2 e r
  dsimp only at h3 ⊢
  rw [h3]
  exact ⟨_, rfl⟩

theorem sim_writeZhop {s s' : St} (h : Sim s s') (v : ℚ) (hh : Int) (d : Option ℚ) :
    Sim (writeZhop c s v hh d) (writeZhop (c.mode b) s' v hh d) := by
  obtain ⟨o, rfl⟩ := h
  unfold writeZhop
  dsimp only
  have h1 : Sim { s with hop := hh } { ({ s with out := o } : St) with hop := hh } := ⟨o, rfl⟩
  have ha : hopAmounts (c.mode b) { s with out := o } d = hopAmounts c s d := by cases d <;> rfl
  rw [ha]
  obtain ⟨o2, h2⟩ := sim_writeFXYZE (c := c) (b := b) h1 (if v = 0 then c.zhopSpeed s.cur else v)
    ⟨s.pos.x, s.pos.y, s.layerZ + hh⟩ s.e (some (hopAmounts c s d))
  have e1 : (c.mode b).zhopSpeed = c.zhopSpeed := rfl
  dsimp only at h2
  rw [e1, h2]
  exact ⟨o2, rfl⟩

theorem sim_zhopStart0 {s s' : St} (h : Sim s s') (hh : Int) (v : ℚ) (d : Option ℚ) :
    Sim (zhopStart0 c s hh v d) (zhopStart0 (c.mode b) s' hh v d) := by
  unfold zhopStart0; split
  · exact sim_writeZhop h _ _ _
  · exact h

theorem sim_zhopStart {s s' : St} (h : Sim s s') (hh : Int) (v : ℚ) (d : Option ℚ) (q : ℚ) :
    Sim (zhopStart c s hh v d q) (zhopStart (c.mode b) s' hh v d q) := by
  unfold zhopStart; split
  · exact sim_zhopStart0 (sim_zhopStart0 h _ _ _) _ _ _
  · exact sim_zhopStart0 h _ _ _

theorem Sim.hop {s s' : St} (h : Sim s s') : s'.hop = s.hop := by obtain ⟨o, rfl⟩ := h; rfl
theorem Sim.a {s s' : St} (h : Sim s s') : s'.a = s.a := by obtain ⟨o, rfl⟩ := h; rfl
theorem Sim.cur {s s' : St} (h : Sim s s') : s'.cur = s.cur := by obtain ⟨o, rfl⟩ := h; rfl
theorem Sim.pos {s s' : St} (h : Sim s s') : s'.pos = s.pos := by obtain ⟨o, rfl⟩ := h; rfl
theorem Sim.layerZ {s s' : St} (h : Sim s s') : s'.layerZ = s.layerZ := by obtain ⟨o, rfl⟩ := h; rfl
theorem Sim.e {s s' : St} (h : Sim s s') : s'.e = s.e := by obtain ⟨o, rfl⟩ := h; rfl
theorem Sim.leftover {s s' : St} (h : Sim s s') : s'.leftover = s.leftover := by obtain ⟨o, rfl⟩ := h; rfl

theorem sim_zhopEnd0 {s s' : St} (h : Sim s s') (hh : Int) (v : ℚ) (d : Option ℚ) :
    Sim (zhopEnd0 c s v hh d) (zhopEnd0 (c.mode b) s' v hh d) := by
  unfold zhopEnd0
  rw [h.hop]
  split
  · obtain ⟨o, ho⟩ := sim_writeZhop (c := c) (b := b) h v hh d
    dsimp only
    rw [ho]
    exact ⟨o, rfl⟩
  · exact h

theorem sim_zhopEnd1 {s s' : St} (h : Sim s s') (hh : Int) (v : ℚ) (d : Option ℚ) (q : ℚ) :
    Sim (zhopEnd1 c s v hh d q) (zhopEnd1 (c.mode b) s' v hh d q) := by
  unfold zhopEnd1
  rw [h.hop, h.a]
  split
  · split
    · exact sim_zhopEnd0 (sim_zhopEnd0 h _ _ _) _ _ _
    · exact sim_zhopEnd0 h _ _ _
  · exact h

theorem sim_zhopEnd {s s' : St} (h : Sim s s') (hh : Int) (v : ℚ) (d : Option ℚ) (q : ℚ) :
    Sim (zhopEnd c s v hh d q) (zhopEnd (c.mode b) s' v hh d q) := by
  unfold zhopEnd
  dsimp only
  rw [h.leftover]
  apply sim_zhopEnd1
  cases s.leftover with
  | none => exact h
  | some l =>
    apply sim_zhopEnd1
    obtain ⟨o, rfl⟩ := h
    exact ⟨o, rfl⟩

theorem sim_travel (hs : Sane c) {s s' : St} (h : Sim s s') (p : P3) (v : ℚ) (d : Option ℚ) :
    Sim (travel c s p v d) (travel (c.mode b) s' p v d) := by
  have hf : ¬ (c.mode b).flavor = .BFB := hs.flavor
  have ha : amounts (c.mode b) s' = amounts c s := by obtain ⟨o, rfl⟩ := h; rfl
  unfold travel
  dsimp only
  rw [if_neg hs.flavor, if_neg hf, h.pos, h.hop, ha, h.e]
  split
  · exact h
  · exact sim_writeFXYZE h _ _ _ _

theorem sim_primeLines {s s' : St} (h : Sim s s') : Sim (primeLines c s) (primeLines (c.mode b) s') := by
  obtain ⟨o, rfl⟩ := h
  have hm : mm3ToE (c.mode b) { s with out := o } = mm3ToE c s := rfl
  have hf : (c.mode b).firmware = c.firmware := rfl
  unfold primeLines
  dsimp only [St.a, St.emit]
  rw [hm, hf]
  by_cases h1 : (s.attr s.cur).retrCur = 0 <;> by_cases h2 : c.firmware s.cur = true <;>
    by_cases h3 : (s.attr s.cur).prime = 0 <;>
    simp only [h1, h2, h3, ne_eq, not_true_eq_false, not_false_eq_true, if_true, if_false, Bool.false_eq_true] <;>
    exact ⟨_, rfl⟩

theorem sim_unretract {s s' : St} (h : Sim s s') : Sim (unretract c s) (unretract (c.mode b) s') := by
  have hb : ∀ {s s' : St}, Sim s s' → Sim (bigReset c s) (bigReset (c.mode b) s') := by
    intro s s' h
    have hv : currentVolume (c.mode b) s' = currentVolume c s := by obtain ⟨o, rfl⟩ := h; rfl
    have hf : (c.mode b).flavor = c.flavor := rfl
    unfold bigReset
    rw [hv, hf]
    split
    · exact sim_reset h
    · exact h
  have hcl : ∀ {s s' : St}, Sim s s' → Sim (clearRetracted s) (clearRetracted s') := by
    intro s s' h
    unfold clearRetracted
    rw [h.a]
    split
    · exact sim_upd h _
    · exact h
  unfold unretract
  dsimp only
  exact hcl (hb (sim_upd (sim_primeLines h) _))

theorem sim_updateOffset {s s' : St} (h : Sim s s') (v m len : ℚ) (u : Bool) :
    Sim (updateOffset s v m len u) (updateOffset s' v m len u) := by
  have hf : flowOffset s' v m len = flowOffset s v m len := by obtain ⟨o, rfl⟩ := h; rfl
  have ho : s'.eOff = s.eOff := by obtain ⟨o, rfl⟩ := h; rfl
  unfold updateOffset
  rw [hf, ho]
  split
  · obtain ⟨o, rfl⟩ := h; exact ⟨_, rfl⟩
  · exact h

theorem sim_extrude (hs : Sane c) {s s' : St} (h : Sim s s') (p : P3) (v m : ℚ) (u : Bool) :
    Sim (extrude c s p v m u) (extrude (c.mode b) s' p v m u) := by
  have hf : ¬ (c.mode b).flavor = .BFB := hs.flavor
  unfold extrude
  dsimp only
  rw [if_neg hs.flavor, if_neg hf, h.pos]
  split
  · exact h
  · have h1 : Sim (if 0 < s.hop then zhopEnd c s 0 0 none 0 else s) (if 0 < s'.hop then zhopEnd (c.mode b) s' 0 0 none 0 else s') := by
      rw [h.hop]
      split
      · exact sim_zhopEnd h _ _ _ _
      · exact h
    generalize (if 0 < s.hop then zhopEnd c s 0 0 none 0 else s) = s1 at *
    generalize (if 0 < s'.hop then zhopEnd (c.mode b) s' 0 0 none 0 else s') = s1' at *
    have hm : mm3ToE (c.mode b) s' m = mm3ToE c s m := by obtain ⟨o, rfl⟩ := h; rfl
    have hl : (c.mode b).len = c.len := rfl
    rw [hm, hl, h1.pos]
    generalize c.len (p.x - s1.pos.x) (p.y - s1.pos.y) (p.z - s1.pos.z) = len
    have h4 := sim_upd (sim_updateOffset (sim_unretract (c := c) (b := b) h1) v m len u)
      (fun a => { a with lastWipe := a.lastWipe + mm3ToE c s m * len })
    have := sim_writeFXYZE (c := c) (b := b) h4 v p ((updateOffset (unretract c s1) v m len u).e + mm3ToE c s m * len) none
    have he : (updateOffset (unretract (c.mode b) s1') v m len u).e = (updateOffset (unretract c s1) v m len u).e :=
      (sim_updateOffset (sim_unretract (c := c) (b := b) h1) v m len u).e
    have he' : ((updateOffset (unretract (c.mode b) s1') v m len u).upd
        (updateOffset (unretract (c.mode b) s1') v m len u).cur
        (fun a => { a with lastWipe := a.lastWipe + mm3ToE c s m * len })).e =
        (updateOffset (unretract c s1) v m len u).e := he
    rw [he']
    exact this

theorem sim_retraction (hs : Sane c) {s s' : St} (h : Sim s s') (r : RConfig) (f w : Bool) (d : Option ℚ) :
    Sim (retraction c s r f w d).1 (retraction (c.mode b) s' r f w d).1 ∧
    (retraction (c.mode b) s' r f w d).2 = (retraction c s r f w d).2 := by
  have hf : ¬ (c.mode b).flavor = .BFB := hs.flavor
  have hl : limitRetraction (c.mode b) s' r f = limitRetraction c s r f := by obtain ⟨o, rfl⟩ := h; rfl
  unfold retraction
  rw [if_neg hs.flavor, if_neg hf, hl]
  cases limitRetraction c s r f with
  | none => exact ⟨sim_upd h (fun a => { a with hist := a.hist.take r.countMax }), rfl⟩
  | some hh =>
    dsimp only
    have h1 := sim_upd h (fun a => { a with hist := hh })
    generalize (s.upd s.cur fun a => { a with hist := hh }) = s1 at *
    generalize (s'.upd s'.cur fun a => { a with hist := hh }) = s1' at *
    have ha : amounts (c.mode b) s1' = amounts c s1 := by obtain ⟨o, rfl⟩ := h1; rfl
    rw [ha, h1.cur, h1.a]
    have hfw : (c.mode b).firmware = c.firmware := rfl
    rw [hfw]
    split
    · exact ⟨h1, rfl⟩
    · split
      · split
        · exact ⟨h1, rfl⟩
        · dsimp only
          exact ⟨sim_upd (sim_emit h1 .g10 .g10) _, rfl⟩
      · obtain ⟨o, rfl⟩ := h1
        exact ⟨⟨_, rfl⟩, rfl⟩

theorem sim_script {s s' : St} (h : Sim s s') (x : Bool) : Sim (script s x) (script s' x) := by
  unfold script; split
  · exact sim_emit h _ _
  · exact h

theorem sim_start {s s' : St} (h : Sim s s') (t : Nat) : Sim (startExtruder c s t) (startExtruder (c.mode b) s' t) := by
  have e1 : (c.mode b).prestartCode = c.prestartCode := rfl
  have e2 : (c.mode b).startCode = c.startCode := rfl
  have e3 : (c.mode b).offset = c.offset := rfl
  unfold startExtruder
  dsimp only
  rw [e1, e2, e3]
  have h1 := sim_script h (c.prestartCode t)
  generalize script s (c.prestartCode t) = s1 at *
  generalize script s' (c.prestartCode t) = s1' at *
  have h2 : Sim (s1.upd t fun a => { a with used := true }) (s1'.upd t fun a => { a with used := true }) := by
    obtain ⟨o, rfl⟩ := h1; exact ⟨o, rfl⟩
  generalize (s1.upd t fun a => { a with used := true }) = s2 at *
  generalize (s1'.upd t fun a => { a with used := true }) = s2' at *
  have h3 : Sim (if t ≠ s2.cur then s2.emit (.tool t) else s2) (if t ≠ s2'.cur then s2'.emit (.tool t) else s2') := by
    rw [h2.cur]; split
    · exact sim_emit h2 _ _
    · exact h2
  generalize (if t ≠ s2.cur then s2.emit (.tool t) else s2) = s3 at *
  generalize (if t ≠ s2'.cur then s2'.emit (.tool t) else s2') = s3' at *
  obtain ⟨o3, rfl⟩ := h3
  have h4 : Sim { s3 with pos := ⟨s3.pos.x + ((c.offset t).1 - (c.offset s3.cur).1),
                                  s3.pos.y + ((c.offset t).2 - (c.offset s3.cur).2), s3.pos.z⟩
                          cur := t }
    { ({ s3 with out := o3 } : St) with pos := ⟨s3.pos.x + ((c.offset t).1 - (c.offset s3.cur).1),
                                                s3.pos.y + ((c.offset t).2 - (c.offset s3.cur).2), s3.pos.z⟩
                                        cur := t } := ⟨o3, rfl⟩
  obtain ⟨o, ho⟩ := sim_script (sim_reset (c := c) (b := b) h4) (c.startCode t)
  dsimp only at ho ⊢
  rw [ho]
  exact ⟨o, rfl⟩

theorem sim_switch (hs : Sane c) {s s' : St} (h : Sim s s') (t : Nat) (r : RConfig) (hop : Int) :
    Sim (switchExtruder c s t r hop) (switchExtruder (c.mode b) s' t r hop) := by
  have e1 : (c.mode b).retractionEnable = c.retractionEnable := rfl
  have e2 : (c.mode b).endCode = c.endCode := rfl
  unfold switchExtruder
  rw [h.cur, e1, e2]
  split
  · exact h
  · dsimp only
    have h1 : Sim (if c.retractionEnable s.cur then (retraction c s r true true none).1 else s)
        (if c.retractionEnable s.cur then (retraction (c.mode b) s' r true true none).1 else s') := by
      split
      · exact (sim_retraction hs h _ _ _ _).1
      · exact h
    generalize (if c.retractionEnable s.cur then (retraction c s r true true none).1 else s) = s1 at *
    generalize (if c.retractionEnable s.cur then (retraction (c.mode b) s' r true true none).1 else s') = s1' at *
    have h2 : Sim (if 0 < hop then zhopStart c s1 hop 0 none 0 else s1) (if 0 < hop then zhopStart (c.mode b) s1' hop 0 none 0 else s1') := by
      split
      · exact sim_zhopStart h1 _ _ _ _
      · exact h1
    have h3 := sim_reset (c := c) (b := b) h2
    rw [h3.cur]
    exact sim_start (sim_script h3 _) t

theorem sim_wipeMoves (hs : Sane c) (w : WipeCfg) (n : Nat) : ∀ (i : Nat) {s s' : St}, Sim s s' →
    Sim (wipeMoves c w n i s) (wipeMoves (c.mode b) w n i s') := by
  induction n with
  | zero => intro i s s' h; exact h
  | succ n ih =>
    intro i s s' h
    refine ih (i + 1) ?_
    unfold travelXY
    rw [h.pos, h.layerZ]
    exact sim_travel hs h _ _ _

theorem sim_wipe (hs : Sane c) {s s' : St} (h : Sim s s') (w : WipeCfg) : Sim (wipe c s w) (wipe (c.mode b) s' w) := by
  unfold wipe
  dsimp only
  rw [h.pos]
  have h0 := sim_emit h .note .note
  generalize s.emit .note = s0 at *
  generalize s'.emit .note = s0' at *
  have h1 : Sim (if w.retractionEnable then (retraction c s0 w.rconfig false false none).1 else s0)
      (if w.retractionEnable then (retraction (c.mode b) s0' w.rconfig false false none).1 else s0') := by
    split
    · exact (sim_retraction hs h0 _ _ _ _).1
    · exact h0
  generalize (if w.retractionEnable then (retraction c s0 w.rconfig false false none).1 else s0) = s1 at *
  generalize (if w.retractionEnable then (retraction (c.mode b) s0' w.rconfig false false none).1 else s0') = s1' at *
  have h2 : Sim (if w.hopEnable then zhopStart c s1 w.hopAmount w.hopSpeed none 0 else s1)
      (if w.hopEnable then zhopStart (c.mode b) s1' w.hopAmount w.hopSpeed none 0 else s1') := by
    split
    · exact sim_zhopStart h1 _ _ _ _
    · exact h1
  generalize (if w.hopEnable then zhopStart c s1 w.hopAmount w.hopSpeed none 0 else s1) = s2 at *
  generalize (if w.hopEnable then zhopStart (c.mode b) s1' w.hopAmount w.hopSpeed none 0 else s1') = s2' at *
  have h3 : Sim (travelXY c s2 w.brushX s2.pos.y w.moveSpeed) (travelXY (c.mode b) s2' w.brushX s2'.pos.y w.moveSpeed) := by
    unfold travelXY
    rw [h2.pos, h2.layerZ]
    exact sim_travel hs h2 _ _ _
  have h5 := sim_travel hs (sim_wipeMoves (b := b) hs w w.repeatCount 0 h3) (b := b) s.pos w.moveSpeed none
  have h6 := sim_zhopEnd (c := c) (b := b) h5 0 w.hopSpeed none 0
  have h6' : Sim (if w.hopEnable then zhopEnd c (travel c (wipeMoves c w w.repeatCount 0 (travelXY c s2 w.brushX s2.pos.y w.moveSpeed)) s.pos w.moveSpeed none) w.hopSpeed 0 none 0 else (travel c (wipeMoves c w w.repeatCount 0 (travelXY c s2 w.brushX s2.pos.y w.moveSpeed)) s.pos w.moveSpeed none))
     (if w.hopEnable then zhopEnd (c.mode b) (travel (c.mode b) (wipeMoves (c.mode b) w w.repeatCount 0 (travelXY (c.mode b) s2' w.brushX s2'.pos.y w.moveSpeed)) s.pos w.moveSpeed none) w.hopSpeed 0 none 0 else (travel (c.mode b) (wipeMoves (c.mode b) w w.repeatCount 0 (travelXY (c.mode b) s2' w.brushX s2'.pos.y w.moveSpeed)) s.pos w.moveSpeed none)) := by
    split
    · exact h6
    · exact h5
  apply sim_emit
  by_cases hr : w.retractionEnable = true
  · rw [if_pos hr, if_pos hr]
    exact sim_unretract h6'
  · rw [if_neg hr, if_neg hr]
    exact h6'

theorem sim_step (hs : Sane c) {s s' : St} (h : Sim s s') (op : Op) : Sim (step c s op) (step (c.mode b) s' op) := by
  cases op with
  | travel p v r => exact sim_travel hs h _ _ _
  | extrude p v m u => exact sim_extrude hs h _ _ _ _
  | retraction r f w d => exact (sim_retraction hs h _ _ _ _).1
  | unretract => exact sim_unretract h
  | zhopStart hh v r q => exact sim_zhopStart h _ _ _ _
  | zhopEnd v => exact sim_zhopEnd h _ _ _ _
  | setLeftover a r => obtain ⟨o, rfl⟩ := h; exact ⟨o, rfl⟩
  | setZ z => obtain ⟨o, rfl⟩ := h; exact ⟨o, rfl⟩
  | addPrime v => exact sim_upd h (fun a => { a with prime := a.prime + v })
  | setFlow m f => obtain ⟨o, rfl⟩ := h; exact ⟨o, rfl⟩
  | resetExtrusion => exact sim_reset h
  | switch t r hh => exact sim_switch hs h _ _ _
  | start t => exact sim_start h _
  | wipe w => exact sim_wipe hs h _

theorem sim_allowed {s s' : St} (h : Sim s s') (op : Op) (ha : Allowed c s op) : Allowed (c.mode b) s' op := by
  obtain ⟨o, rfl⟩ := h
  cases op <;> exact ha

theorem sim_run (hs : Sane c) (ops : List Op) : ∀ {s s' : St}, Sim s s' → AllAllowed c s ops →
    Sim (run c s ops) (run (c.mode b) s' ops) ∧ AllAllowed (c.mode b) s' ops := by
  induction ops with
  | nil => intro s s' h _; exact ⟨h, trivial⟩
  | cons op ops ih =>
    intro s s' h ha
    obtain ⟨h1, h2⟩ := ih (sim_step (b := b) hs h op) ha.2
    exact ⟨h1, sim_allowed h op ha.1, h2⟩

theorem sim_total {s s' : St} (h : Sim s s') (t : Nat) : totalFilament (c.mode b) s' t = totalFilament c s t := by
  obtain ⟨o, rfl⟩ := h; rfl

theorem sim_retracted {s s' : St} (h : Sim s s') (t : Nat) : retracted (c.mode b) s' t = retracted c s t := by
  obtain ⟨o, rfl⟩ := h; rfl

theorem sane_mode (hs : Sane c) : Sane (c.mode b) := ⟨hs.flavor, hs.area, hs.len⟩

end Verif.GCode
