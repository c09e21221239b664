import Verif.GCode.Printer

/-! # Lemmas on positions: how each exporter function moves the printer -/

namespace Verif.GCode

variable {P : PrinterCfg} {p0 : Printer} {c : Cfg}

theorem after_emit (s : St) (cmd : Cmd) : p0.after P (s.emit cmd) = (p0.after P s).exec P cmd := by
  simp [Printer.after, St.emit]

theorem after_out {s s' : St} (h : s'.out = s.out) : p0.after P s' = p0.after P s := by
  simp [Printer.after, h]

@[simp] theorem upd_pos (s : St) (t f) : (s.upd t f).pos = s.pos := rfl
@[simp] theorem upd_cur (s : St) (t f) : (s.upd t f).cur = s.cur := rfl
@[simp] theorem upd_hop (s : St) (t f) : (s.upd t f).hop = s.hop := rfl
@[simp] theorem upd_layerZ (s : St) (t f) : (s.upd t f).layerZ = s.layerZ := rfl
@[simp] theorem upd_leftover (s : St) (t f) : (s.upd t f).leftover = s.leftover := rfl
@[simp] theorem upd_box (s : St) (t f) : (s.upd t f).box = s.box := rfl
@[simp] theorem upd_out (s : St) (t f) : (s.upd t f).out = s.out := rfl
@[simp] theorem upd_speed (s : St) (t f) : (s.upd t f).speed = s.speed := rfl
@[simp] theorem upd_e (s : St) (t f) : (s.upd t f).e = s.e := rfl
@[simp] theorem upd_eOff (s : St) (t f) : (s.upd t f).eOff = s.eOff := rfl
@[simp] theorem upd_maxOff (s : St) (t f) : (s.upd t f).maxOff = s.maxOff := rfl
@[simp] theorem upd_offFactor (s : St) (t f) : (s.upd t f).offFactor = s.offFactor := rfl
@[simp] theorem emit_pos (s : St) (k) : (s.emit k).pos = s.pos := rfl
@[simp] theorem emit_cur (s : St) (k) : (s.emit k).cur = s.cur := rfl
@[simp] theorem emit_hop (s : St) (k) : (s.emit k).hop = s.hop := rfl
@[simp] theorem emit_layerZ (s : St) (k) : (s.emit k).layerZ = s.layerZ := rfl
@[simp] theorem emit_leftover (s : St) (k) : (s.emit k).leftover = s.leftover := rfl
@[simp] theorem emit_box (s : St) (k) : (s.emit k).box = s.box := rfl
@[simp] theorem emit_attr (s : St) (k) : (s.emit k).attr = s.attr := rfl
@[simp] theorem emit_e (s : St) (k) : (s.emit k).e = s.e := rfl
@[simp] theorem emit_eOff (s : St) (k) : (s.emit k).eOff = s.eOff := rfl
@[simp] theorem emit_speed (s : St) (k) : (s.emit k).speed = s.speed := rfl
@[simp] theorem emit_out (s : St) (k) : (s.emit k).out = s.out ++ [k] := rfl
@[simp] theorem emit_maxOff (s : St) (k) : (s.emit k).maxOff = s.maxOff := rfl
@[simp] theorem emit_offFactor (s : St) (k) : (s.emit k).offFactor = s.offFactor := rfl
theorem upd_a (s : St) (f) : (s.upd s.cur f).a = f s.a := by simp [St.upd, St.a]

@[simp] theorem pushE_x (p : Printer) (v) : (p.pushE P v).x = p.x := by unfold Printer.pushE; split <;> rfl
@[simp] theorem pushE_y (p : Printer) (v) : (p.pushE P v).y = p.y := by unfold Printer.pushE; split <;> rfl
@[simp] theorem pushE_z (p : Printer) (v) : (p.pushE P v).z = p.z := by unfold Printer.pushE; split <;> rfl
@[simp] theorem pushE_f (p : Printer) (v) : (p.pushE P v).f = p.f := by unfold Printer.pushE; split <;> rfl
@[simp] theorem pushE_tool (p : Printer) (v) : (p.pushE P v).tool = p.tool := by unfold Printer.pushE; split <;> rfl

theorem exec_move_x (p : Printer) (xy z f e) :
    (p.exec P (.move xy z f e)).x = (xy.map (·.1)).getD p.x := by
  cases xy <;> cases z <;> cases f <;> cases e <;> simp [Printer.exec]

theorem exec_move_y (p : Printer) (xy z f e) :
    (p.exec P (.move xy z f e)).y = (xy.map (·.2)).getD p.y := by
  cases xy <;> cases z <;> cases f <;> cases e <;> simp [Printer.exec]

theorem exec_move_z (p : Printer) (xy z f e) : (p.exec P (.move xy z f e)).z = z.getD p.z := by
  cases xy <;> cases z <;> cases f <;> cases e <;> simp [Printer.exec]

theorem exec_move_f (p : Printer) (xy z f e) : (p.exec P (.move xy z f e)).f = f.getD p.f := by
  cases xy <;> cases z <;> cases f <;> cases e <;> simp [Printer.exec]

theorem exec_move_tool (p : Printer) (xy z f e) : (p.exec P (.move xy z f e)).tool = p.tool := by
  cases xy <;> cases z <;> cases f <;> cases e <;> simp [Printer.exec]

/-! ## What the invariants say -/

/-- Steps that do not move the head: the recorded position, tool, hop and layer height stay, and so does the printer's
position. -/
structure Quiet (P : PrinterCfg) (p0 : Printer) (s s' : St) : Prop where
  pos : s'.pos = s.pos
  cur : s'.cur = s.cur
  hop : s'.hop = s.hop
  layerZ : s'.layerZ = s.layerZ
  leftover : s'.leftover = s.leftover
  box : s'.box = s.box
  x : (p0.after P s').x = (p0.after P s).x
  y : (p0.after P s').y = (p0.after P s).y
  z : (p0.after P s').z = (p0.after P s).z
  tool : (p0.after P s').tool = (p0.after P s).tool
  f : SyncF P p0 s → SyncF P p0 s'

theorem Quiet.refl (s : St) : Quiet P p0 s s := ⟨rfl, rfl, rfl, rfl, rfl, rfl, rfl, rfl, rfl, rfl, id⟩

theorem Quiet.trans {s s' s'' : St} (h : Quiet P p0 s s') (h' : Quiet P p0 s' s'') : Quiet P p0 s s'' :=
  ⟨h'.pos.trans h.pos, h'.cur.trans h.cur, h'.hop.trans h.hop, h'.layerZ.trans h.layerZ,
    h'.leftover.trans h.leftover, h'.box.trans h.box, h'.x.trans h.x, h'.y.trans h.y, h'.z.trans h.z,
    h'.tool.trans h.tool, fun hf => h'.f (h.f hf)⟩

theorem Quiet.syncXY {s s' : St} (h : Quiet P p0 s s') (hs : SyncXY P p0 c s) : SyncXY P p0 c s' := by
  unfold SyncXY at *; rw [h.x, h.y, h.pos, h.cur]; exact hs

theorem Quiet.syncZ {s s' : St} (h : Quiet P p0 s s') (hs : SyncZ P p0 s) : SyncZ P p0 s' := by
  unfold SyncZ at *; rw [h.z, h.pos]; exact hs

theorem Quiet.syncT {s s' : St} (h : Quiet P p0 s s') (hs : SyncT P p0 s) : SyncT P p0 s' := by
  unfold SyncT at *; rw [h.tool, h.cur]; exact hs

/-- Changing anything but position, tool, hop, layer height, speed and output is quiet. -/
theorem quiet_same {s s' : St} (hp : s'.pos = s.pos) (hc : s'.cur = s.cur) (hh : s'.hop = s.hop)
    (hl : s'.layerZ = s.layerZ) (hv : s'.leftover = s.leftover) (hb : s'.box = s.box) (hs : s'.speed = s.speed)
    (ho : s'.out = s.out) : Quiet P p0 s s' := by
  have h := after_out (P := P) (p0 := p0) ho
  exact ⟨hp, hc, hh, hl, hv, hb, by rw [h], by rw [h], by rw [h], by rw [h], by unfold SyncF; rw [h, hs]; exact id⟩

theorem quiet_upd (s : St) (t f) : Quiet P p0 s (s.upd t f) := quiet_same rfl rfl rfl rfl rfl rfl rfl rfl

theorem quiet_emit (s : St) (k : Cmd) (hk : k = .g92 ∨ k = .g10 ∨ k = .g11 ∨ k = .note ∨ k = .other) :
    Quiet P p0 s (s.emit k) := by
  refine ⟨rfl, rfl, rfl, rfl, rfl, rfl, ?_, ?_, ?_, ?_, ?_⟩ <;>
  · try unfold SyncF
    rw [after_emit]
    rcases hk with rfl | rfl | rfl | rfl | rfl <;> simp [Printer.exec]

/-- A line with only a feed rate and an E word, the recorded speed being set accordingly. -/
theorem quiet_eLine (s : St) (v : ℚ) (e : ℚ) :
    Quiet P p0 s { s.emit (.move none none (some (v * 60)) (some e)) with speed := v } := by
  have h : p0.after P { s.emit (.move none none (some (v * 60)) (some e)) with speed := v } =
      (p0.after P s).exec P (.move none none (some (v * 60)) (some e)) := by
    rw [← after_emit]; exact after_out rfl
  refine ⟨rfl, rfl, rfl, rfl, rfl, rfl, ?_, ?_, ?_, ?_, ?_⟩
  · rw [h, exec_move_x]; rfl
  · rw [h, exec_move_y]; rfl
  · rw [h, exec_move_z]; rfl
  · rw [h, exec_move_tool]
  · intro _; unfold SyncF; rw [h, exec_move_f]; rfl

theorem quiet_resetExtrusion (s : St) : Quiet P p0 s (resetExtrusion c s) := by
  unfold resetExtrusion
  simp only
  have h1 : Quiet P p0 s (if c.relative then s else s.emit .g92) := by
    split
    · exact .refl s
    · exact quiet_emit s _ (by simp)
  refine h1.trans ?_
  exact quiet_same rfl rfl rfl rfl rfl rfl rfl rfl

theorem quiet_primeLines (s : St) : Quiet P p0 s (primeLines c s) := by
  have h1 : ∀ v, Quiet P p0 s { s with e := v } := fun v => quiet_same rfl rfl rfl rfl rfl rfl rfl rfl
  unfold primeLines
  simp only
  split
  · split
    · split
      · exact (h1 _).trans ((quiet_emit _ _ (by simp)).trans (quiet_eLine _ _ _))
      · exact (h1 _).trans (quiet_emit _ _ (by simp))
    · refine (h1 (s.e + mm3ToE c s s.a.prime + s.a.retrCur)).trans ?_
      exact quiet_eLine _ _ _
  · split
    · exact (h1 _).trans (quiet_eLine _ _ _)
    · exact h1 _

theorem quiet_bigReset (s : St) : Quiet P p0 s (bigReset c s) := by
  unfold bigReset; split
  · exact quiet_resetExtrusion s
  · exact .refl s

theorem quiet_clearRetracted (s : St) : Quiet P p0 s (clearRetracted s) := by
  unfold clearRetracted; split
  · exact quiet_upd _ _ _
  · exact .refl s

theorem quiet_unretract (s : St) : Quiet P p0 s (unretract c s) := by
  unfold unretract
  simp only
  exact (quiet_primeLines s).trans ((quiet_upd _ _ _).trans ((quiet_bigReset _).trans (quiet_clearRetracted _)))

theorem quiet_updateOffset (s : St) (speed mm3 len : ℚ) (u : Bool) :
    Quiet P p0 s (updateOffset s speed mm3 len u) := by
  unfold updateOffset
  split
  · exact (quiet_emit s .note (by simp)).trans (quiet_same rfl rfl rfl rfl rfl rfl rfl rfl)
  · exact .refl s

theorem quiet_rawRetract (s : St) (r : Amounts) : Quiet P p0 s (rawRetract c s r).2 :=
  quiet_same rfl rfl rfl rfl rfl rfl rfl rfl

theorem quiet_retraction (s : St) (r : RConfig) (force switch : Bool) (dist : Option ℚ) :
    Quiet P p0 s (retraction c s r force switch dist).1 := by
  unfold retraction
  split
  · split
    · simp only
      split
      · exact (quiet_emit s _ (by simp)).trans (quiet_upd _ _ _)
      · exact quiet_upd _ _ _
    · exact .refl s
  · split
    · dsimp only; exact quiet_upd s s.cur _
    · simp only
      split
      · dsimp only; exact quiet_upd s s.cur _
      · split
        · split
          · dsimp only; exact quiet_upd s s.cur _
          · dsimp only
            refine Quiet.trans ?_ (quiet_upd _ _ _)
            refine Quiet.trans ?_ (quiet_emit _ _ (by simp))
            exact quiet_upd s s.cur _
        · dsimp only
          refine Quiet.trans ?_ (quiet_upd _ _ _)
          refine Quiet.trans ?_ (quiet_eLine _ _ _)
          refine Quiet.trans ?_ (quiet_rawRetract _ _)
          exact quiet_upd s s.cur _

/-! ## Moves -/

/-- What a (non-BFB) move line does. -/
structure Moved (P : PrinterCfg) (p0 : Printer) (c : Cfg) (s s' : St) (speed : ℚ) (p : P3) : Prop where
  pos : s'.pos = p
  cur : s'.cur = s.cur
  hop : s'.hop = s.hop
  layerZ : s'.layerZ = s.layerZ
  leftover : s'.leftover = s.leftover
  box : s'.box = s.box.incl ⟨(gcodePos c s p.x p.y).1, (gcodePos c s p.x p.y).2, p.z⟩
  xy : SyncXY P p0 c s → SyncXY P p0 c s'
  z : SyncZ P p0 s ∨ p.z ≠ s.pos.z → SyncZ P p0 s'
  zstuck : p.z = s.pos.z → (p0.after P s').z = (p0.after P s).z
  tool : (p0.after P s').tool = (p0.after P s).tool
  f : SyncF P p0 s → SyncF P p0 s'
  speed : s'.speed = speed

/-- The words of the line written by `writeFXYZE` and the state before the line. -/
theorem writeFXYZE_eq (s : St) (speed : ℚ) (p : P3) (e : ℚ) (r : Option Amounts) : ∃ (s2 : St) (ew : Option ℚ) (xy : Option (Int × Int)),
    writeFXYZE c s speed p e r =
      { s2.emit (.move xy (if p.z ≠ s.pos.z then some p.z else none)
        (if s.speed ≠ speed then some (speed * 60) else none) ew) with pos := p } ∧
    (xy = some (gcodePos c s p.x p.y) ∨ (xy = none ∧ p.x = s.pos.x ∧ p.y = s.pos.y)) ∧
    s2.cur = s.cur ∧ s2.hop = s.hop ∧ s2.layerZ = s.layerZ ∧ s2.leftover = s.leftover ∧ s2.speed = speed ∧
    s2.box = s.box.incl ⟨(gcodePos c s p.x p.y).1, (gcodePos c s p.x p.y).2, p.z⟩ ∧ s2.out = s.out := by
  have hg : ∀ t : St, t.cur = s.cur → gcodePos c t p.x p.y = gcodePos c s p.x p.y := by
    intro t h; unfold gcodePos; rw [h]
  unfold writeFXYZE
  simp only
  have hs1 : (if s.speed ≠ speed then { s with speed := speed } else s) = { s with speed := speed } := by
    by_cases h : s.speed = speed
    · subst h; simp
    · simp [h]
  rw [hs1]
  refine ⟨_, _, _, rfl, ?_, ?_⟩
  · have key : ∀ (A : Prop) [Decidable A] (g : Int × Int),
        (if A then some g else if p.x ≠ s.pos.x ∨ p.y ≠ s.pos.y then some g else none) = some g ∨
        ((if A then some g else if p.x ≠ s.pos.x ∨ p.y ≠ s.pos.y then some g else none) = none ∧
          p.x = s.pos.x ∧ p.y = s.pos.y) := by
      intro A _ g
      by_cases hA : A
      · simp [hA]
      · by_cases hB : p.x ≠ s.pos.x ∨ p.y ≠ s.pos.y
        · simp [hB]
        · right
          rw [if_neg hA, if_neg hB]
          simp only [not_or, not_not] at hB
          exact ⟨rfl, hB⟩
    exact key _ _
  · cases r with
    | some r =>
      by_cases hr : r.has = true
      · simp only [eWord, hr, if_true, rawRetract]; exact ⟨rfl, rfl, rfl, rfl, rfl, rfl, rfl⟩
      · simp only [eWord, hr]; exact ⟨rfl, rfl, rfl, rfl, rfl, rfl, rfl⟩
    | none =>
      simp only [eWord]
      split <;> exact ⟨rfl, rfl, rfl, rfl, rfl, rfl, rfl⟩

theorem moved_writeFXYZE (s : St) (speed : ℚ) (p : P3) (e : ℚ) (r : Option Amounts) :
    Moved P p0 c s (writeFXYZE c s speed p e r) speed p := by
  obtain ⟨s2, ew, xy, heq, hxy, hcur, hhop, hlz, hlo, hsp, hbox, hout⟩ := writeFXYZE_eq (c := c) s speed p e r
  rw [heq]
  have h : p0.after P { s2.emit (.move xy (if p.z ≠ s.pos.z then some p.z else none)
        (if s.speed ≠ speed then some (speed * 60) else none) ew) with pos := p } =
      (p0.after P s).exec P (.move xy (if p.z ≠ s.pos.z then some p.z else none)
        (if s.speed ≠ speed then some (speed * 60) else none) ew) := by
    rw [← after_out (P := P) (p0 := p0) hout, ← after_emit]; exact after_out rfl
  refine ⟨rfl, hcur, hhop, hlz, hlo, hbox, ?_, ?_, ?_, ?_, ?_, hsp⟩
  · intro hs
    unfold SyncXY at *
    rw [h, exec_move_x, exec_move_y]
    simp only [emit_cur, hcur]
    rcases hxy with rfl | ⟨rfl, hx, hy⟩
    · simp [gcodePos]
    · simp [hs, hx, hy]
  · intro hz
    unfold SyncZ at *
    rw [h, exec_move_z]
    by_cases he : p.z = s.pos.z
    · simp only [he, ne_eq, not_true_eq_false, if_false, Option.getD_none]
      rcases hz with hz | hz
      · exact hz
      · exact absurd he hz
    · simp [he]
  · intro he
    rw [h, exec_move_z]; simp [he]
  · rw [h, exec_move_tool]
  · intro hf
    unfold SyncF at *
    rw [h, exec_move_f]
    simp only [emit_speed, hsp]
    by_cases he : s.speed = speed
    · simp [he, hf]
    · simp [he]

theorem box_incl_inclZ (b : Box) (p : P3) : (b.incl p).inclZ p.z = b.incl p := by
  simp [Box.incl, Box.inclZ]

/-- What a z-hop line does. -/
theorem moved_writeZhop (s : St) (speed : ℚ) (height : Int) (r : Option ℚ) :
    Moved P p0 c { s with hop := height } (writeZhop c s speed height r)
      (if speed = 0 then c.zhopSpeed s.cur else speed) ⟨s.pos.x, s.pos.y, s.layerZ + height⟩ := by
  unfold writeZhop
  simp only
  have h := moved_writeFXYZE (P := P) (p0 := p0) (c := c) { s with hop := height }
    (if speed = 0 then c.zhopSpeed s.cur else speed) ⟨s.pos.x, s.pos.y, s.layerZ + height⟩ s.e
    (some (hopAmounts c s r))
  generalize writeFXYZE c { s with hop := height } (if speed = 0 then c.zhopSpeed s.cur else speed)
    ⟨s.pos.x, s.pos.y, s.layerZ + height⟩ s.e
    (some (hopAmounts c s r)) = s' at h ⊢
  have ha : p0.after P { s' with box := s'.box.inclZ (s.layerZ + height) } = p0.after P s' := after_out rfl
  refine ⟨h.pos, h.cur, h.hop, h.layerZ, h.leftover, ?_, ?_, ?_, ?_, ?_, ?_, h.speed⟩
  · simp only [h.box]; rw [box_incl_inclZ _ ⟨_, _, s.layerZ + height⟩]
  · intro hs; have := h.xy hs; unfold SyncXY at *; rw [ha]; exact this
  · intro hz; have := h.z hz; unfold SyncZ at *; rw [ha]; exact this
  · intro he; rw [ha]; exact h.zstuck he
  · rw [ha]; exact h.tool
  · intro hf; have := h.f hf; unfold SyncF at *; rw [ha]; exact this

/-- X, Y, tool and (except for BFB) feed rate stay synchronised. -/
structure Good (P : PrinterCfg) (p0 : Printer) (c : Cfg) (s s' : St) : Prop where
  xy : SyncXY P p0 c s → SyncXY P p0 c s'
  t : SyncT P p0 s → SyncT P p0 s'
  f : c.flavor ≠ .BFB → SyncF P p0 s → SyncF P p0 s'

theorem Good.refl (s : St) : Good P p0 c s s := ⟨id, id, fun _ => id⟩

theorem Good.trans {s s' s'' : St} (h : Good P p0 c s s') (h' : Good P p0 c s' s'') : Good P p0 c s s'' :=
  ⟨fun a => h'.xy (h.xy a), fun a => h'.t (h.t a), fun b a => h'.f b (h.f b a)⟩

theorem Quiet.good {s s' : St} (h : Quiet P p0 s s') : Good P p0 c s s' := ⟨h.syncXY, h.syncT, fun _ => h.f⟩

theorem Moved.good {s s' : St} {v : ℚ} {p : P3} (h : Moved P p0 c s s' v p) : Good P p0 c s s' :=
  ⟨h.xy, fun ht => by unfold SyncT at *; rw [h.tool, h.cur]; exact ht, fun _ => h.f⟩

theorem good_same {s s' : St} (hx : s'.pos.x = s.pos.x) (hy : s'.pos.y = s.pos.y) (hc : s'.cur = s.cur)
    (ho : s'.out = s.out) (hv : s'.speed = s.speed) : Good P p0 c s s' := by
  have h := after_out (P := P) (p0 := p0) ho
  refine ⟨?_, ?_, ?_⟩
  · unfold SyncXY; rw [h, hx, hy, hc]; exact id
  · unfold SyncT; rw [h, hc]; exact id
  · unfold SyncF; rw [h, hv]; exact fun _ => id

theorem good_writeZhop (s : St) (speed : ℚ) (height : Int) (r : Option ℚ) :
    Good P p0 c s (writeZhop c s speed height r) :=
  (good_same (s := s) (s' := { s with hop := height }) rfl rfl rfl rfl rfl).trans (moved_writeZhop s speed height r).good

theorem good_zhopStart0 (s : St) (h : Int) (speed : ℚ) (r : Option ℚ) :
    Good P p0 c s (zhopStart0 c s h speed r) := by
  unfold zhopStart0; split
  · exact good_writeZhop _ _ _ _
  · exact .refl s

theorem good_zhopStart (s : St) (h : Int) (speed : ℚ) (r : Option ℚ) (ratio : ℚ) :
    Good P p0 c s (zhopStart c s h speed r ratio) := by
  unfold zhopStart; split
  · exact (good_zhopStart0 _ _ _ _).trans (good_zhopStart0 _ _ _ _)
  · exact good_zhopStart0 _ _ _ _

theorem good_zhopEnd0 (s : St) (speed : ℚ) (h : Int) (r : Option ℚ) :
    Good P p0 c s (zhopEnd0 c s speed h r) := by
  unfold zhopEnd0; split
  · exact (good_writeZhop _ _ _ _).trans (good_same rfl rfl rfl rfl rfl)
  · exact .refl s

theorem good_zhopEnd1 (s : St) (speed : ℚ) (h : Int) (r : Option ℚ) (ratio : ℚ) :
    Good P p0 c s (zhopEnd1 c s speed h r ratio) := by
  unfold zhopEnd1; split
  · split
    · exact (good_zhopEnd0 _ _ _ _).trans (good_zhopEnd0 _ _ _ _)
    · exact good_zhopEnd0 _ _ _ _
  · exact .refl s

theorem good_zhopEnd (s : St) (speed : ℚ) (h : Int) (r : Option ℚ) (ratio : ℚ) :
    Good P p0 c s (zhopEnd c s speed h r ratio) := by
  unfold zhopEnd
  refine Good.trans ?_ (good_zhopEnd1 _ _ _ _ _)
  split
  · exact (good_same (s := s) (s' := { s with leftover := none }) rfl rfl rfl rfl rfl).trans (good_zhopEnd1 _ _ _ _ _)
  · exact .refl s

theorem bfbOn_spec (s : St) (rpm : ℚ) :
    (bfbOn s rpm).cur = s.cur ∧ (bfbOn s rpm).hop = s.hop ∧ (bfbOn s rpm).layerZ = s.layerZ ∧
    (bfbOn s rpm).leftover = s.leftover ∧ (bfbOn s rpm).box = s.box ∧
    (p0.after P (bfbOn s rpm)).tool = (p0.after P s).tool := by
  unfold bfbOn
  by_cases h1 : s.a.retrCur = 0 <;> by_cases h2 : s.speed = rpm <;> simp [h1, h2, Printer.after, Printer.exec]

theorem bfbOff_spec (s : St) :
    (bfbOff s).cur = s.cur ∧ (bfbOff s).hop = s.hop ∧ (bfbOff s).layerZ = s.layerZ ∧
    (bfbOff s).leftover = s.leftover ∧ (bfbOff s).box = s.box ∧
    (p0.after P (bfbOff s)).tool = (p0.after P s).tool := by
  unfold bfbOff
  by_cases h1 : s.a.retrCur = 0 <;> simp [h1, Printer.after, Printer.exec]

theorem bfbPrep_spec (s : St) (p : P3) (speed mm3 : ℚ) :
    (bfbPrep c s p speed mm3).2.cur = s.cur ∧
    (bfbPrep c s p speed mm3).2.hop = s.hop ∧ (bfbPrep c s p speed mm3).2.layerZ = s.layerZ ∧
    (bfbPrep c s p speed mm3).2.leftover = s.leftover ∧ (bfbPrep c s p speed mm3).2.box = s.box ∧
    (p0.after P (bfbPrep c s p speed mm3).2).tool = (p0.after P s).tool := by
  unfold bfbPrep
  simp only
  split
  · exact bfbOn_spec s _
  · exact bfbOff_spec s

/-- A BFB move writes every axis. -/
theorem bfb_spec (s : St) (p : P3) (speed mm3 : ℚ) :
    (writeMoveBFB c s p speed mm3).pos = p ∧ (writeMoveBFB c s p speed mm3).cur = s.cur ∧
    (writeMoveBFB c s p speed mm3).hop = s.hop ∧ (writeMoveBFB c s p speed mm3).layerZ = s.layerZ ∧
    (writeMoveBFB c s p speed mm3).leftover = s.leftover ∧ (writeMoveBFB c s p speed mm3).box = s.box ∧
    SyncXY P p0 c (writeMoveBFB c s p speed mm3) ∧ SyncZ P p0 (writeMoveBFB c s p speed mm3) ∧
    (SyncT P p0 s → SyncT P p0 (writeMoveBFB c s p speed mm3)) := by
  obtain ⟨hc, hh, hl, hv, hb, ht⟩ := bfbPrep_spec (P := P) (p0 := p0) (c := c) s p speed mm3
  unfold writeMoveBFB
  generalize bfbPrep c s p speed mm3 = fs at hc hh hl hv hb ht ⊢
  have h : p0.after P { fs.2.emit (.move (some (gcodePos c s p.x p.y)) (some p.z) (some fs.1) none) with pos := p } =
      (p0.after P fs.2).exec P (.move (some (gcodePos c s p.x p.y)) (some p.z) (some fs.1) none) := by
    rw [← after_emit]; exact after_out rfl
  refine ⟨rfl, hc, hh, hl, hv, hb, ?_, ?_, ?_⟩
  · unfold SyncXY; rw [h, exec_move_x, exec_move_y]; simp [gcodePos, hc]
  · unfold SyncZ; rw [h, exec_move_z]; rfl
  · intro hs; unfold SyncT; rw [h, exec_move_tool, ht]; exact hs.trans hc.symm

theorem good_travel (s : St) (p : P3) (speed : ℚ) (r : Option ℚ) : Good P p0 c s (travel c s p speed r) := by
  unfold travel
  simp only
  split
  · have h := bfb_spec (P := P) (p0 := p0) (c := c) s ⟨p.x, p.y, p.z + s.hop⟩ speed 0
    exact ⟨fun _ => h.2.2.2.2.2.2.1, h.2.2.2.2.2.2.2.2, fun hb => absurd ‹_› hb⟩
  · split
    · exact .refl s
    · exact (moved_writeFXYZE _ _ _ _ _).good

theorem good_extrude (s : St) (p : P3) (speed mm3 : ℚ) (u : Bool) : Good P p0 c s (extrude c s p speed mm3 u) := by
  unfold extrude
  split
  · have h := bfb_spec (P := P) (p0 := p0) (c := c) s p speed mm3
    exact ⟨fun _ => h.2.2.2.2.2.2.1, h.2.2.2.2.2.2.2.2, fun hb => absurd ‹_› hb⟩
  · split
    · exact .refl s
    · simp only
      refine Good.trans ?_ (moved_writeFXYZE _ _ _ _ _).good
      refine Good.trans ?_ (quiet_upd _ _ _).good
      have h1 : Good P p0 c s (if 0 < s.hop then zhopEnd c s 0 0 none 0 else s) := by
        split
        · exact good_zhopEnd _ _ _ _ _
        · exact .refl s
      generalize (if 0 < s.hop then zhopEnd c s 0 0 none 0 else s) = s1 at h1 ⊢
      exact (h1.trans (quiet_unretract (P := P) (p0 := p0) (c := c) s1).good).trans (quiet_updateOffset _ _ _ _ _).good

theorem good_script (s : St) (b : Bool) : Good P p0 c s (script s b) := by
  unfold script; split
  · refine ⟨?_, ?_, ?_⟩
    · unfold SyncXY; rw [after_emit]; exact id
    · unfold SyncT; rw [after_emit]; exact id
    · unfold SyncF; rw [after_emit]; exact fun _ => id
  · exact .refl s

theorem good_startExtruder (s : St) (t : Nat) : Good P p0 c s (startExtruder c s t) := by
  unfold startExtruder
  simp only
  refine Good.trans (good_script s (c.prestartCode t)) ?_
  generalize script s (c.prestartCode t) = s1
  refine Good.trans (quiet_upd s1 t fun a => { a with used := true }).good ?_
  generalize s1.upd t (fun a => { a with used := true }) = s2
  have main : Good P p0 c s2 { (if t ≠ s2.cur then s2.emit (.tool t) else s2) with
      pos := ⟨(if t ≠ s2.cur then s2.emit (.tool t) else s2).pos.x + ((c.offset t).1 - (c.offset (if t ≠ s2.cur then s2.emit (.tool t) else s2).cur).1),
        (if t ≠ s2.cur then s2.emit (.tool t) else s2).pos.y + ((c.offset t).2 - (c.offset (if t ≠ s2.cur then s2.emit (.tool t) else s2).cur).2),
        (if t ≠ s2.cur then s2.emit (.tool t) else s2).pos.z⟩
      cur := t } := by
    by_cases ht : t = s2.cur
    · simp only [ht, ne_eq, not_true_eq_false, if_false]
      exact good_same (by simp) (by simp) rfl rfl rfl
    · simp only [ne_eq, ht, not_false_eq_true, if_true]
      refine ⟨?_, ?_, ?_⟩
      · unfold SyncXY
        intro h
        have he : ∀ q, p0.after P { s2.emit (.tool t) with
            pos := q
            cur := t } = (p0.after P s2).exec P (.tool t) := by
          intro q; rw [← after_emit]; exact after_out rfl
        rw [he]
        simp only [Printer.exec, emit_pos, emit_cur]
        omega
      · unfold SyncT
        intro _
        have he : ∀ q, p0.after P { s2.emit (.tool t) with
            pos := q
            cur := t } = (p0.after P s2).exec P (.tool t) := by
          intro q; rw [← after_emit]; exact after_out rfl
        rw [he]
        rfl
      · unfold SyncF
        intro _ h
        have he : ∀ q, p0.after P { s2.emit (.tool t) with
            pos := q
            cur := t } = (p0.after P s2).exec P (.tool t) := by
          intro q; rw [← after_emit]; exact after_out rfl
        rw [he]
        exact h
  refine main.trans ?_
  refine Good.trans (quiet_resetExtrusion (c := c) _).good ?_
  refine Good.trans (good_script _ (c.startCode t)) ?_
  exact good_same rfl rfl rfl rfl rfl

theorem good_switchExtruder (s : St) (t : Nat) (r : RConfig) (hop : Int) :
    Good P p0 c s (switchExtruder c s t r hop) := by
  unfold switchExtruder
  split
  · exact .refl s
  · simp only
    refine Good.trans ?_ (good_startExtruder _ _)
    refine Good.trans ?_ (good_script _ _)
    refine Good.trans ?_ (quiet_resetExtrusion _).good
    have h1 : Good P p0 c s (if c.retractionEnable s.cur then (retraction c s r true true none).1 else s) := by
      split
      · exact (quiet_retraction _ _ _ _ _).good
      · exact .refl s
    generalize (if c.retractionEnable s.cur then (retraction c s r true true none).1 else s) = s1 at h1 ⊢
    split
    · exact h1.trans (good_zhopStart _ _ _ _ _)
    · exact h1

theorem good_wipeMoves (w : WipeCfg) (n : Nat) : ∀ (i : Nat) (s : St), Good P p0 c s (wipeMoves c w n i s) := by
  induction n with
  | zero => intro i s; exact .refl s
  | succ n ih =>
    intro i s
    exact (good_travel s _ _ _).trans (ih _ _)

theorem good_wipe (s : St) (w : WipeCfg) : Good P p0 c s (wipe c s w) := by
  unfold wipe
  simp only
  refine Good.trans ?_ (quiet_emit _ .note (by simp)).good
  refine Good.trans (quiet_emit s .note (by simp)).good ?_
  generalize hs0 : s.emit .note = s0
  have h1 : Good P p0 c s0 (if w.retractionEnable then (retraction c s0 w.rconfig false false none).1 else s0) := by
    split
    · exact (quiet_retraction _ _ _ _ _).good
    · exact .refl s0
  generalize (if w.retractionEnable then (retraction c s0 w.rconfig false false none).1 else s0) = s1 at h1 ⊢
  have h2 : Good P p0 c s0 (if w.hopEnable then zhopStart c s1 w.hopAmount w.hopSpeed none 0 else s1) := by
    split
    · exact h1.trans (good_zhopStart _ _ _ _ _)
    · exact h1
  generalize (if w.hopEnable then zhopStart c s1 w.hopAmount w.hopSpeed none 0 else s1) = s2 at h2 ⊢
  have h5 : Good P p0 c s0 (travel c (wipeMoves c w w.repeatCount 0 (travelXY c s2 w.brushX s2.pos.y w.moveSpeed))
      s.pos w.moveSpeed none) :=
    h2.trans ((good_travel _ _ _ _).trans ((good_wipeMoves w _ _ _).trans (good_travel _ _ _ _)))
  generalize travel c (wipeMoves c w w.repeatCount 0 (travelXY c s2 w.brushX s2.pos.y w.moveSpeed))
      s.pos w.moveSpeed none = s5 at h5 ⊢
  have h6 : Good P p0 c s0 (if w.hopEnable then zhopEnd c s5 w.hopSpeed 0 none 0 else s5) := by
    split
    · exact h5.trans (good_zhopEnd _ _ _ _ _)
    · exact h5
  generalize (if w.hopEnable then zhopEnd c s5 w.hopSpeed 0 none 0 else s5) = s6 at h6 ⊢
  split
  · exact h6.trans (quiet_unretract _).good
  · exact h6

theorem good_step (s : St) (op : Op) : Good P p0 c s (step c s op) := by
  cases op with
  | travel p v r => exact good_travel _ _ _ _
  | extrude p v m u => exact good_extrude _ _ _ _ _
  | retraction r f w d => exact (quiet_retraction _ _ _ _ _).good
  | unretract => exact (quiet_unretract _).good
  | zhopStart h v r ra => exact good_zhopStart _ _ _ _ _
  | zhopEnd v => exact good_zhopEnd _ _ _ _ _
  | setLeftover a r => exact good_same rfl rfl rfl rfl rfl
  | setZ z => exact good_same rfl rfl rfl rfl rfl
  | addPrime v => exact good_same rfl rfl rfl rfl rfl
  | setFlow m f => exact good_same rfl rfl rfl rfl rfl
  | resetExtrusion => exact (quiet_resetExtrusion _).good
  | switch t r h => exact good_switchExtruder _ _ _ _
  | start t => exact good_startExtruder _ _
  | wipe w => exact good_wipe _ _

theorem good_run (ops : List Op) : ∀ s : St, Good P p0 c s (run c s ops) := by
  induction ops with
  | nil => intro s; exact .refl s
  | cons o ops ih => intro s; exact (good_step s o).trans (ih _)

/-! ## Height -/

/-- The height stays synchronised, unless a split hop end is pending. -/
structure KeepZ (P : PrinterCfg) (p0 : Printer) (s s' : St) : Prop where
  z : SplitFree s → SyncZ P p0 s → SyncZ P p0 s'
  sf : SplitFree s → SplitFree s'

theorem KeepZ.refl (s : St) : KeepZ P p0 s s := ⟨fun _ => id, id⟩

theorem KeepZ.trans {s s' s'' : St} (h : KeepZ P p0 s s') (h' : KeepZ P p0 s' s'') : KeepZ P p0 s s'' :=
  ⟨fun a b => h'.z (h.sf a) (h.z a b), fun a => h'.sf (h.sf a)⟩

theorem splitFree_same {s s' : St} (h : s'.leftover = s.leftover) (hs : SplitFree s) : SplitFree s' := by
  unfold SplitFree at *; rw [h]; exact hs

theorem Quiet.keepZ {s s' : St} (h : Quiet P p0 s s') : KeepZ P p0 s s' :=
  ⟨fun _ => h.syncZ, splitFree_same h.leftover⟩

theorem Moved.keepZ {s s' : St} {v : ℚ} {p : P3} (h : Moved P p0 c s s' v p) : KeepZ P p0 s s' :=
  ⟨fun _ hz => h.z (Or.inl hz), splitFree_same h.leftover⟩

theorem keepZ_same {s s' : St} (hz : s'.pos.z = s.pos.z) (hl : s'.leftover = s.leftover) (ho : s'.out = s.out) :
    KeepZ P p0 s s' :=
  ⟨fun _ h => by unfold SyncZ at *; rw [after_out ho, hz]; exact h, splitFree_same hl⟩

theorem keepZ_writeZhop (s : St) (speed : ℚ) (height : Int) (r : Option ℚ) :
    KeepZ P p0 s (writeZhop c s speed height r) :=
  (keepZ_same (s := s) (s' := { s with hop := height }) rfl rfl rfl).trans (moved_writeZhop s speed height r).keepZ

theorem keepZ_zhopStart0 (s : St) (h : Int) (speed : ℚ) (r : Option ℚ) :
    KeepZ P p0 s (zhopStart0 c s h speed r) := by
  unfold zhopStart0; split
  · exact keepZ_writeZhop _ _ _ _
  · exact .refl s

theorem keepZ_zhopStart (s : St) (h : Int) (speed : ℚ) (r : Option ℚ) (ratio : ℚ) :
    KeepZ P p0 s (zhopStart c s h speed r ratio) := by
  unfold zhopStart; split
  · exact (keepZ_zhopStart0 _ _ _ _).trans (keepZ_zhopStart0 _ _ _ _)
  · exact keepZ_zhopStart0 _ _ _ _

/-- Ending a hop at height 0. -/
theorem zhopEnd0_spec (s : St) (speed : ℚ) (r : Option ℚ) (hh : s.hop ≠ 0) :
    (zhopEnd0 c s speed 0 r).pos = ⟨s.pos.x, s.pos.y, s.layerZ⟩ ∧ (zhopEnd0 c s speed 0 r).hop = 0 ∧
    (zhopEnd0 c s speed 0 r).layerZ = s.layerZ ∧ (zhopEnd0 c s speed 0 r).leftover = s.leftover ∧
    (SyncZ P p0 s ∨ s.layerZ ≠ s.pos.z → SyncZ P p0 (zhopEnd0 c s speed 0 r)) := by
  unfold zhopEnd0
  rw [if_pos hh]
  simp only
  have h := moved_writeZhop (P := P) (p0 := p0) (c := c) s speed 0 r
  generalize writeZhop c s speed 0 r = s1 at h ⊢
  have hp := h.pos
  have hl := h.layerZ
  refine ⟨?_, h.hop, h.layerZ, h.leftover, ?_⟩
  · rw [hl, hp]
  · intro hz
    have := h.z (by simpa [SyncZ, Printer.after] using hz)
    unfold SyncZ at *
    have ho : ∀ q, p0.after P { s1 with pos := q } = p0.after P s1 := fun q => after_out rfl
    rw [ho, this, hp]
    simp [hl]

theorem zhopEnd1_spec (s : St) (speed : ℚ) (r : Option ℚ) (ratio : ℚ) (hns : ¬ (0 < ratio ∧ ratio < 1))
    (hh : s.hop ≠ 0) :
    (zhopEnd1 c s speed 0 r ratio).pos = ⟨s.pos.x, s.pos.y, s.layerZ⟩ ∧ (zhopEnd1 c s speed 0 r ratio).hop = 0 ∧
    (zhopEnd1 c s speed 0 r ratio).layerZ = s.layerZ ∧ (zhopEnd1 c s speed 0 r ratio).leftover = s.leftover ∧
    (SyncZ P p0 s ∨ s.layerZ ≠ s.pos.z → SyncZ P p0 (zhopEnd1 c s speed 0 r ratio)) := by
  unfold zhopEnd1
  rw [if_pos hh, if_neg (fun h => hns h.2)]
  exact zhopEnd0_spec s speed r hh

theorem zhopEnd1_idle (s : St) (speed : ℚ) (h : Int) (r : Option ℚ) (ratio : ℚ) (hh : s.hop = 0) :
    zhopEnd1 c s speed h r ratio = s := by
  unfold zhopEnd1; rw [if_neg (fun h => h hh)]

/-- The public end of a hop, no split pending. -/
theorem zhopEnd_spec (s : St) (speed : ℚ) (hsf : SplitFree s) (hh : s.hop ≠ 0) :
    (zhopEnd c s speed 0 none 0).pos = ⟨s.pos.x, s.pos.y, s.layerZ⟩ ∧ (zhopEnd c s speed 0 none 0).hop = 0 ∧
    (zhopEnd c s speed 0 none 0).layerZ = s.layerZ ∧ (zhopEnd c s speed 0 none 0).leftover = none ∧
    (SyncZ P p0 s ∨ s.layerZ ≠ s.pos.z → SyncZ P p0 (zhopEnd c s speed 0 none 0)) := by
  unfold zhopEnd
  cases hl : s.leftover with
  | none =>
    simp only
    have h := zhopEnd1_spec (P := P) (p0 := p0) (c := c) s speed none 0 (by simp) hh
    exact ⟨h.1, h.2.1, h.2.2.1, h.2.2.2.1.trans hl, h.2.2.2.2⟩
  | some l =>
    simp only
    have h := zhopEnd1_spec (P := P) (p0 := p0) (c := c) { s with leftover := none } speed (some l.1) l.2 (hsf l hl) hh
    rw [zhopEnd1_idle _ _ _ _ _ h.2.1]
    exact ⟨h.1, h.2.1, h.2.2.1, h.2.2.2.1, fun hz => h.2.2.2.2 (by simpa [SyncZ, Printer.after] using hz)⟩

theorem zhopEnd_idle (s : St) (speed : ℚ) (hh : s.hop = 0) :
    zhopEnd c s speed 0 none 0 = { s with leftover := none } ∨ zhopEnd c s speed 0 none 0 = s := by
  unfold zhopEnd
  cases hl : s.leftover with
  | none => right; exact zhopEnd1_idle s speed 0 none 0 hh
  | some l =>
    left
    simp only
    have h1 : zhopEnd1 c { s with leftover := none } speed 0 (some l.1) l.2 = { s with leftover := none } :=
      zhopEnd1_idle _ speed 0 (some l.1) l.2 hh
    have h2 : zhopEnd1 c { s with leftover := none } speed 0 none 0 = { s with leftover := none } :=
      zhopEnd1_idle _ speed 0 none 0 hh
    rw [h1, h2]

theorem keepZ_zhopEnd (s : St) (speed : ℚ) : KeepZ P p0 s (zhopEnd c s speed 0 none 0) := by
  by_cases hh : s.hop = 0
  · rcases zhopEnd_idle (c := c) s speed hh with h | h <;> rw [h]
    · refine ⟨fun _ hz => ?_, fun _ l hl => ?_⟩
      · simpa [SyncZ, Printer.after] using hz
      · simp at hl
    · exact .refl s
  · by_cases hsf : SplitFree s
    · have h := zhopEnd_spec (P := P) (p0 := p0) (c := c) s speed hsf hh
      refine ⟨fun _ hz => h.2.2.2.2 (Or.inl hz), fun _ l hl => ?_⟩
      rw [h.2.2.2.1] at hl; simp at hl
    · exact ⟨fun h => absurd h hsf, fun h => absurd h hsf⟩

/-- A travel move synchronises the height if it already was, or if the requested height differs from the recorded
one. -/
theorem travel_syncZ (s : St) (p : P3) (speed : ℚ) (r : Option ℚ)
    (h : SyncZ P p0 s ∨ c.flavor = .BFB ∨ p.z + s.hop ≠ s.pos.z) : SyncZ P p0 (travel c s p speed r) := by
  unfold travel
  simp only
  split
  · exact (bfb_spec (P := P) (p0 := p0) (c := c) s ⟨p.x, p.y, p.z + s.hop⟩ speed 0).2.2.2.2.2.2.2.1
  · rename_i hb
    split
    · rename_i hq
      rcases h with h | h | h
      · exact h
      · exact absurd h hb
      · rw [hq.1] at h; exact absurd rfl h
    · apply (moved_writeFXYZE (P := P) (p0 := p0) (c := c) _ _ _ _ _).z
      rcases h with h | h | h
      · exact Or.inl h
      · exact absurd h hb
      · exact Or.inr h

theorem travel_frame (s : St) (p : P3) (speed : ℚ) (r : Option ℚ) :
    (travel c s p speed r).pos = ⟨p.x, p.y, p.z + s.hop⟩ ∧ (travel c s p speed r).cur = s.cur ∧
    (travel c s p speed r).hop = s.hop ∧ (travel c s p speed r).layerZ = s.layerZ ∧
    (travel c s p speed r).leftover = s.leftover := by
  unfold travel
  simp only
  split
  · have h := bfb_spec (P := ⟨true, id, id⟩) (p0 := ⟨0, 0, 0, 0, 0, 0, fun _ => 0⟩) (c := c) s
      ⟨p.x, p.y, p.z + s.hop⟩ speed 0
    exact ⟨h.1, h.2.1, h.2.2.1, h.2.2.2.1, h.2.2.2.2.1⟩
  · split
    · rename_i hq; exact ⟨hq.1, rfl, rfl, rfl, rfl⟩
    · have h := moved_writeFXYZE (P := ⟨true, id, id⟩) (p0 := ⟨0, 0, 0, 0, 0, 0, fun _ => 0⟩) (c := c) s speed
        ⟨p.x, p.y, p.z + s.hop⟩ s.e (r.map (amounts c s))
      exact ⟨h.pos, h.cur, h.hop, h.layerZ, h.leftover⟩

theorem keepZ_travel (s : St) (p : P3) (speed : ℚ) (r : Option ℚ) : KeepZ P p0 s (travel c s p speed r) :=
  ⟨fun _ h => travel_syncZ s p speed r (Or.inl h), splitFree_same (travel_frame s p speed r).2.2.2.2⟩

/-- The state just before the line of an extrusion move. -/
def preExtrude (c : Cfg) (s : St) (p : P3) (speed mm3 : ℚ) (u : Bool) : St :=
  let s1 := if 0 < s.hop then zhopEnd c s 0 0 none 0 else s
  let len := c.len (p.x - s1.pos.x) (p.y - s1.pos.y) (p.z - s1.pos.z)
  let s3 := updateOffset (unretract c s1) speed mm3 len u
  s3.upd s3.cur fun a => { a with lastWipe := a.lastWipe + mm3ToE c s mm3 * len }

theorem extrude_eq (s : St) (p : P3) (speed mm3 : ℚ) (u : Bool) (hb : c.flavor ≠ .BFB) (hp : s.pos ≠ p) :
    ∃ e, extrude c s p speed mm3 u = writeFXYZE c (preExtrude c s p speed mm3 u) speed p e none := by
  refine ⟨(preExtrude c s p speed mm3 u).e + mm3ToE c s mm3 *
    c.len (p.x - (if 0 < s.hop then zhopEnd c s 0 0 none 0 else s).pos.x)
      (p.y - (if 0 < s.hop then zhopEnd c s 0 0 none 0 else s).pos.y)
      (p.z - (if 0 < s.hop then zhopEnd c s 0 0 none 0 else s).pos.z), ?_⟩
  unfold extrude
  rw [if_neg hb, if_neg hp]
  rfl

theorem preExtrude_quiet (s : St) (p : P3) (speed mm3 : ℚ) (u : Bool) :
    Quiet P p0 (if 0 < s.hop then zhopEnd c s 0 0 none 0 else s) (preExtrude c s p speed mm3 u) := by
  unfold preExtrude
  simp only
  refine Quiet.trans ?_ (quiet_upd _ _ _)
  exact (quiet_unretract _).trans (quiet_updateOffset _ _ _ _ _)

theorem extrude_pos (s : St) (p : P3) (speed mm3 : ℚ) (u : Bool) : (extrude c s p speed mm3 u).pos = p := by
  by_cases hb : c.flavor = .BFB
  · unfold extrude; rw [if_pos hb]
    exact (bfb_spec (P := ⟨true, id, id⟩) (p0 := ⟨0, 0, 0, 0, 0, 0, fun _ => 0⟩) (c := c) s p speed mm3).1
  · by_cases hp : s.pos = p
    · unfold extrude; rw [if_neg hb, if_pos hp]; exact hp
    · obtain ⟨e, he⟩ := extrude_eq (c := c) s p speed mm3 u hb hp
      rw [he]
      exact (moved_writeFXYZE (P := ⟨true, id, id⟩) (p0 := ⟨0, 0, 0, 0, 0, 0, fun _ => 0⟩) _ _ _ _ _).pos

theorem keepZ_extrude (s : St) (p : P3) (speed mm3 : ℚ) (u : Bool) : KeepZ P p0 s (extrude c s p speed mm3 u) := by
  by_cases hb : c.flavor = .BFB
  · unfold extrude; rw [if_pos hb]
    have h := bfb_spec (P := P) (p0 := p0) (c := c) s p speed mm3
    exact ⟨fun _ _ => h.2.2.2.2.2.2.2.1, splitFree_same h.2.2.2.2.1⟩
  · by_cases hp : s.pos = p
    · unfold extrude; rw [if_neg hb, if_pos hp]; exact .refl s
    · obtain ⟨e, he⟩ := extrude_eq (c := c) s p speed mm3 u hb hp
      rw [he]
      refine KeepZ.trans ?_ (moved_writeFXYZE _ _ _ _ _).keepZ
      refine KeepZ.trans ?_ (preExtrude_quiet (P := P) (p0 := p0) s p speed mm3 u).keepZ
      split
      · exact keepZ_zhopEnd _ _
      · exact .refl s

/-- An extrusion synchronises the height also if it has to write a height word. -/
theorem extrude_syncZ (s : St) (p : P3) (speed mm3 : ℚ) (u : Bool)
    (h : c.flavor = .BFB ∨ (s.hop ≤ 0 ∧ p.z ≠ s.pos.z) ∨ (0 < s.hop ∧ SplitFree s ∧ s.layerZ ≠ s.pos.z ∧ s.pos ≠ p)) :
    SyncZ P p0 (extrude c s p speed mm3 u) := by
  by_cases hb : c.flavor = .BFB
  · unfold extrude; rw [if_pos hb]
    exact (bfb_spec (P := P) (p0 := p0) (c := c) s p speed mm3).2.2.2.2.2.2.2.1
  · have hp : s.pos ≠ p := by
      rcases h with h | h | h
      · exact absurd h hb
      · rintro rfl; exact h.2 rfl
      · exact h.2.2.2
    obtain ⟨e, he⟩ := extrude_eq (c := c) s p speed mm3 u hb hp
    rw [he]
    apply (moved_writeFXYZE (P := P) (p0 := p0) (c := c) _ _ _ _ _).z
    have hq := preExtrude_quiet (P := P) (p0 := p0) (c := c) s p speed mm3 u
    rcases h with h | h | h
    · exact absurd h hb
    · right
      rw [hq.pos, if_neg (by omega)]
      exact h.2
    · left
      apply hq.syncZ
      rw [if_pos h.1]
      exact (zhopEnd_spec (P := P) (p0 := p0) (c := c) s 0 h.2.1 (by omega)).2.2.2.2 (Or.inr h.2.2.1)

theorem keepZ_wipeMoves (w : WipeCfg) (n : Nat) : ∀ (i : Nat) (s : St), KeepZ P p0 s (wipeMoves c w n i s) := by
  induction n with
  | zero => intro i s; exact .refl s
  | succ n ih =>
    intro i s
    exact (keepZ_travel s _ _ _).trans (ih _ _)

theorem keepZ_wipe (s : St) (w : WipeCfg) : KeepZ P p0 s (wipe c s w) := by
  unfold wipe
  simp only
  refine KeepZ.trans ?_ (quiet_emit _ .note (by simp)).keepZ
  refine KeepZ.trans (quiet_emit s .note (by simp)).keepZ ?_
  generalize hs0 : s.emit .note = s0
  have h1 : KeepZ P p0 s0 (if w.retractionEnable then (retraction c s0 w.rconfig false false none).1 else s0) := by
    split
    · exact (quiet_retraction _ _ _ _ _).keepZ
    · exact .refl s0
  generalize (if w.retractionEnable then (retraction c s0 w.rconfig false false none).1 else s0) = s1 at h1 ⊢
  have h2 : KeepZ P p0 s0 (if w.hopEnable then zhopStart c s1 w.hopAmount w.hopSpeed none 0 else s1) := by
    split
    · exact h1.trans (keepZ_zhopStart _ _ _ _ _)
    · exact h1
  generalize (if w.hopEnable then zhopStart c s1 w.hopAmount w.hopSpeed none 0 else s1) = s2 at h2 ⊢
  have h5 : KeepZ P p0 s0 (travel c (wipeMoves c w w.repeatCount 0 (travelXY c s2 w.brushX s2.pos.y w.moveSpeed))
      s.pos w.moveSpeed none) :=
    h2.trans ((keepZ_travel _ _ _ _).trans ((keepZ_wipeMoves w _ _ _).trans (keepZ_travel _ _ _ _)))
  generalize travel c (wipeMoves c w w.repeatCount 0 (travelXY c s2 w.brushX s2.pos.y w.moveSpeed))
      s.pos w.moveSpeed none = s5 at h5 ⊢
  have h6 : KeepZ P p0 s0 (if w.hopEnable then zhopEnd c s5 w.hopSpeed 0 none 0 else s5) := by
    split
    · exact h5.trans (keepZ_zhopEnd _ _)
    · exact h5
  generalize (if w.hopEnable then zhopEnd c s5 w.hopSpeed 0 none 0 else s5) = s6 at h6 ⊢
  split
  · exact h6.trans (quiet_unretract _).keepZ
  · exact h6

/-! ## Pending hop ends over tool changes -/

theorem script_leftover (s : St) (b : Bool) : (script s b).leftover = s.leftover := by
  unfold script; split <;> rfl

theorem resetExtrusion_leftover (s : St) : (resetExtrusion c s).leftover = s.leftover :=
  (quiet_resetExtrusion (P := ⟨true, id, id⟩) (p0 := ⟨0, 0, 0, 0, 0, 0, fun _ => 0⟩) s).leftover

theorem start_leftover (s : St) (t : Nat) : (startExtruder c s t).leftover = s.leftover := by
  unfold startExtruder
  simp only
  rw [script_leftover, resetExtrusion_leftover]
  split
  · exact script_leftover s _
  · exact script_leftover s _

theorem zhopStart_leftover (s : St) (h : Int) (v : ℚ) (r : Option ℚ) (ra : ℚ) :
    (zhopStart c s h v r ra).leftover = s.leftover := by
  have h0 : ∀ (s : St) h, (zhopStart0 c s h v r).leftover = s.leftover := by
    intro s h
    unfold zhopStart0; split
    · exact (moved_writeZhop (P := ⟨true, id, id⟩) (p0 := ⟨0, 0, 0, 0, 0, 0, fun _ => 0⟩) s v h r).leftover
    · rfl
  unfold zhopStart; split
  · rw [h0, h0]
  · rw [h0]

theorem switch_leftover (s : St) (t : Nat) (r : RConfig) (h : Int) :
    (switchExtruder c s t r h).leftover = s.leftover := by
  unfold switchExtruder; split
  · rfl
  · simp only
    rw [start_leftover, script_leftover, resetExtrusion_leftover]
    have h1 : (if c.retractionEnable s.cur then (retraction c s r true true none).1 else s).leftover = s.leftover := by
      split
      · exact (quiet_retraction (P := ⟨true, id, id⟩) (p0 := ⟨0, 0, 0, 0, 0, 0, fun _ => 0⟩) s r _ _ _).leftover
      · rfl
    split
    · rw [zhopStart_leftover, h1]
    · exact h1

end Verif.GCode
