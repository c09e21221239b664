import Verif.GCode.AcctSpec
import Verif.GCode.MotionLemmas
import Mathlib.Tactic.Ring
import Mathlib.Tactic.LinearCombination
import Mathlib.Tactic.FieldSimp
import Mathlib.Tactic.Linarith

/-! # Lemmas on the filament accounting -/

namespace Verif.GCode

variable {c : Cfg}

theorem kappa_pos (h : Sane c) (t : Nat) : 0 < kappa c t := by
  unfold kappa; split
  · norm_num
  · exact h.area t

theorem mm3ToE_kappa (h : Sane c) (s : St) (v : ℚ) : kappa c s.cur * mm3ToE c s v = v := by
  unfold kappa mm3ToE
  split
  · ring
  · have := (h.area s.cur).ne'
    field_simp

/-- The amount in E units that the current tool has extruded since the last reset. -/
def amountE (c : Cfg) (s : St) : ℚ := if c.firmware s.cur then s.e else s.e - s.a.retrStart + s.a.retrCur

theorem currentVolume_eq (s : St) : currentVolume c s = kappa c s.cur * amountE c s := by
  unfold currentVolume kappa amountE
  simp only
  split <;> split <;> ring

/-- The reported amount of the current tool. -/
def here (c : Cfg) (s : St) : ℚ := s.a.total + kappa c s.cur * amountE c s

theorem here_eq (s : St) : totalFilament c s s.cur = here c s := by
  unfold totalFilament here
  rw [if_pos rfl, currentVolume_eq]; rfl

/-- Steps that leave the accounting of the current tool alone, and do not touch other tools. -/
structure Neutral (c : Cfg) (s s' : St) : Prop where
  cur : s'.cur = s.cur
  others : ∀ t, t ≠ s.cur → s'.attr t = s.attr t
  here : here c s' = here c s
  prime : s'.a.prime = s.a.prime
  eOff : s'.eOff = s.eOff
  maxOff : s'.maxOff = s.maxOff
  offFactor : s'.offFactor = s.offFactor
  leftover : s'.leftover = s.leftover ∨ s'.leftover = none

theorem Neutral.refl (s : St) : Neutral c s s := ⟨rfl, fun _ _ => rfl, rfl, rfl, rfl, rfl, rfl, Or.inl rfl⟩

theorem Neutral.trans {s s' s'' : St} (h : Neutral c s s') (h' : Neutral c s' s'') : Neutral c s s'' := by
  refine ⟨h'.cur.trans h.cur, fun t ht => ?_, h'.here.trans h.here, h'.prime.trans h.prime, h'.eOff.trans h.eOff,
    h'.maxOff.trans h.maxOff, h'.offFactor.trans h.offFactor, ?_⟩
  · rw [h'.others t (by rw [h.cur]; exact ht), h.others t ht]
  · rcases h'.leftover with hl | hl
    · rcases h.leftover with hl' | hl'
      · left; rw [hl, hl']
      · right; rw [hl, hl']
    · right; exact hl

/-- Everything that matters for the accounting is unchanged. -/
theorem neutral_same {s s' : St} (hc : s'.cur = s.cur) (ha : s'.attr = s.attr) (he : s'.e = s.e) (ho : s'.eOff = s.eOff)
    (hm : s'.maxOff = s.maxOff) (hf : s'.offFactor = s.offFactor) (hl : s'.leftover = s.leftover ∨ s'.leftover = none) :
    Neutral c s s' := by
  have haa : s'.a = s.a := by unfold St.a; rw [hc, ha]
  refine ⟨hc, fun t _ => by rw [ha], ?_, by rw [haa], ho, hm, hf, hl⟩
  unfold here amountE
  rw [haa, hc, he]

/-- A change of the current tool's attributes that keeps totals, retraction amounts and prime volume. -/
theorem neutral_upd (s : St) (f : Attr → Attr) (h1 : (f s.a).total = s.a.total) (h2 : (f s.a).retrCur = s.a.retrCur)
    (h3 : (f s.a).retrStart = s.a.retrStart) (h4 : (f s.a).prime = s.a.prime) : Neutral c s (s.upd s.cur f) := by
  have ha : (s.upd s.cur f).a = f s.a := upd_a s f
  refine ⟨rfl, fun t ht => by simp [St.upd, ht], ?_, by rw [ha, h4], rfl, rfl, rfl, Or.inl rfl⟩
  unfold here amountE
  rw [ha, h1, h2, h3]
  rfl

theorem rawRetract_neutral (s : St) (d : ℚ) (hf : c.firmware s.cur = false) :
    Neutral c s (rawRetract c s (amounts c s d)).2 := by
  have ha : (rawRetract c s (amounts c s d)).2.a = { s.a with retrCur := mmToE c s d } := by
    simp [rawRetract, St.upd, amounts, St.a]
  have he : (rawRetract c s (amounts c s d)).2.e = s.e + (s.a.retrCur - mmToE c s d) := rfl
  refine ⟨rfl, fun t ht => ?_, ?_, by rw [ha], rfl, rfl, rfl, Or.inl rfl⟩
  · simp [rawRetract, St.upd, ht]
  · unfold here amountE
    rw [ha, he]
    simp only [rawRetract, St.upd, hf, Bool.false_eq_true, if_false]
    ring

/-- What `writeFXYZE` does, apart from position, speed, box and the X, Y, Z, F words. -/
theorem writeFXYZE_form (s : St) (speed : ℚ) (p : P3) (e : ℚ) (r : Option Amounts) : ∃ s2 : St,
    (s2.cur = s.cur ∧ s2.attr = s.attr ∧ s2.e = s.e ∧ s2.eOff = s.eOff ∧ s2.maxOff = s.maxOff ∧
      s2.offFactor = s.offFactor ∧ s2.leftover = s.leftover ∧ s2.out = s.out) ∧
    ∃ xy z f, writeFXYZE c s speed p e r = { (eWord c s2 e r).2.emit (.move xy z f (eWord c s2 e r).1) with pos := p } := by
  refine ⟨{ ({ s with speed := speed } : St) with
    box := s.box.incl ⟨(gcodePos c { s with speed := speed } p.x p.y).1, (gcodePos c { s with speed := speed } p.x p.y).2, p.z⟩ },
    ⟨rfl, rfl, rfl, rfl, rfl, rfl, rfl, rfl⟩, ?_⟩
  have hs1 : (if s.speed ≠ speed then { s with speed := speed } else s) = { s with speed := speed } := by
    by_cases h : s.speed = speed
    · subst h; simp
    · simp [h]
  unfold writeFXYZE
  simp only [hs1]
  exact ⟨_, _, _, rfl⟩

theorem neutral_emit (s : St) (k : Cmd) : Neutral c s (s.emit k) :=
  neutral_same rfl rfl rfl rfl rfl rfl (Or.inl rfl)

theorem neutral_writeFXYZE (s : St) (speed : ℚ) (p : P3) (e : ℚ) (d : Option ℚ) (hf : d ≠ none → c.firmware s.cur = false) :
    Neutral c s (writeFXYZE c s speed p e (some (hopAmounts c s d))) := by
  obtain ⟨s2, ⟨hc, ha, he, ho, hm, hof, hl, _⟩, xy, z, f, heq⟩ := writeFXYZE_form (c := c) s speed p e (some (hopAmounts c s d))
  rw [heq]
  have h2 : Neutral c s s2 := neutral_same hc ha he ho hm hof (Or.inl hl)
  have h3 : Neutral c s2 (eWord c s2 e (some (hopAmounts c s d))).2 := by
    unfold eWord
    simp only
    split
    · cases d with
      | none => rename_i h; simp [hopAmounts, Amounts.has] at h; norm_num at h
      | some d =>
        have : hopAmounts c s (some d) = amounts c s2 d := by
          simp only [hopAmounts, amounts, mmToE, St.a, hc, ha]
        rw [this]
        exact rawRetract_neutral s2 d (by rw [hc]; exact hf (by simp))
    · exact .refl _
  exact (h2.trans h3).trans (neutral_same rfl rfl rfl rfl rfl rfl (Or.inl rfl))

theorem neutral_writeZhop (s : St) (speed : ℚ) (h : Int) (d : Option ℚ) (hf : d ≠ none → c.firmware s.cur = false) :
    Neutral c s (writeZhop c s speed h d) := by
  unfold writeZhop
  simp only
  have h1 : Neutral c s { s with hop := h } := neutral_same rfl rfl rfl rfl rfl rfl (Or.inl rfl)
  have h2 := neutral_writeFXYZE (c := c) { s with hop := h } (if speed = 0 then c.zhopSpeed s.cur else speed)
    ⟨s.pos.x, s.pos.y, s.layerZ + h⟩ s.e d hf
  refine (h1.trans h2).trans ?_
  have : hopAmounts c { s with hop := h } d = hopAmounts c s d := by cases d <;> rfl
  rw [this]
  exact neutral_same rfl rfl rfl rfl rfl rfl (Or.inl rfl)

theorem neutral_zhopStart0 (s : St) (h : Int) (speed : ℚ) (d : Option ℚ) (hf : d ≠ none → c.firmware s.cur = false) :
    Neutral c s (zhopStart0 c s h speed d) := by
  unfold zhopStart0; split
  · exact neutral_writeZhop s speed h d hf
  · exact .refl s

theorem neutral_zhopStart (s : St) (h : Int) (speed : ℚ) (d : Option ℚ) (q : ℚ) (hf : d ≠ none → c.firmware s.cur = false) :
    Neutral c s (zhopStart c s h speed d q) := by
  unfold zhopStart; split
  · have h1 := neutral_zhopStart0 s (trunc (h * q)) speed d hf
    exact h1.trans (neutral_zhopStart0 _ h speed d (by rw [h1.cur]; exact hf))
  · exact neutral_zhopStart0 s h speed d hf

theorem neutral_zhopEnd0 (s : St) (h : Int) (speed : ℚ) (d : Option ℚ) (hf : d ≠ none → c.firmware s.cur = false) :
    Neutral c s (zhopEnd0 c s speed h d) := by
  unfold zhopEnd0; split
  · exact (neutral_writeZhop s speed h d hf).trans (neutral_same rfl rfl rfl rfl rfl rfl (Or.inl rfl))
  · exact .refl s

theorem neutral_zhopEnd1 (s : St) (h : Int) (speed : ℚ) (d : Option ℚ) (q : ℚ) (hf : d ≠ none → c.firmware s.cur = false) :
    Neutral c s (zhopEnd1 c s speed h d q) := by
  unfold zhopEnd1; split
  · split
    · rename_i hd
      have hd' : d ≠ none := by intro hn; rw [hn] at hd; simp at hd
      have h1 := neutral_zhopEnd0 s (trunc (s.hop * q)) speed (some s.a.retrCur) (fun _ => hf hd')
      exact h1.trans (neutral_zhopEnd0 _ 0 speed d (by rw [h1.cur]; exact hf))
    · exact neutral_zhopEnd0 s h speed d hf
  · exact .refl s

theorem neutral_zhopEnd (s : St) (speed : ℚ) (hf : s.leftover ≠ none → c.firmware s.cur = false) :
    Neutral c s (zhopEnd c s speed 0 none 0) := by
  unfold zhopEnd
  simp only
  cases hl : s.leftover with
  | none => exact neutral_zhopEnd1 s 0 speed none 0 (by simp)
  | some l =>
    have h0 : Neutral c s { s with leftover := none } := neutral_same rfl rfl rfl rfl rfl rfl (Or.inr rfl)
    have h1 := h0.trans (neutral_zhopEnd1 { s with leftover := none } 0 speed (some l.1) l.2 (fun _ => hf (by simp [hl])))
    exact h1.trans (neutral_zhopEnd1 _ 0 speed none 0 (by simp))

theorem neutral_travel (hs : Sane c) (s : St) (p : P3) (speed : ℚ) (d : Option ℚ)
    (hf : c.firmware s.cur = true → d = none) : Neutral c s (travel c s p speed d) := by
  unfold travel
  simp only [hs.flavor, if_false]
  split
  · exact .refl s
  · cases d with
    | some d =>
      have hff : c.firmware s.cur = false := by
        by_contra h
        simp only [Bool.not_eq_false] at h
        simpa using hf h
      exact neutral_writeFXYZE (c := c) s speed ⟨p.x, p.y, p.z + s.hop⟩ s.e (some d) (fun _ => hff)
    | none =>
      obtain ⟨s2, ⟨hc, ha, he, hoo, hm, hof, hl, _⟩, xy, z, f, heq⟩ :=
        writeFXYZE_form (c := c) s speed ⟨p.x, p.y, p.z + s.hop⟩ s.e none
      simp only [Option.map_none]
      rw [heq]
      have h2 : Neutral c s s2 := neutral_same hc ha he hoo hm hof (Or.inl hl)
      have h3 : Neutral c s2 (eWord c s2 s.e none).2 := by
        unfold eWord
        simp only
        split
        · exact neutral_same rfl rfl he.symm rfl rfl rfl (Or.inl rfl)
        · exact .refl _
      exact (h2.trans h3).trans (neutral_same rfl rfl rfl rfl rfl rfl (Or.inl rfl))

theorem resetExtrusion_fields (s : St) :
    (resetExtrusion c s).a = { s.a with total := s.a.total + kappa c s.cur * amountE c s
                                        hist := s.a.hist.map (· - kappa c s.cur * amountE c s)
                                        retrStart := s.a.retrCur } ∧
    (resetExtrusion c s).e = 0 ∧ (resetExtrusion c s).cur = s.cur ∧ (resetExtrusion c s).eOff = s.eOff ∧
    (resetExtrusion c s).maxOff = s.maxOff ∧ (resetExtrusion c s).offFactor = s.offFactor ∧
    (resetExtrusion c s).leftover = s.leftover ∧ ∀ t, t ≠ s.cur → (resetExtrusion c s).attr t = s.attr t := by
  have hv := currentVolume_eq (c := c) s
  unfold resetExtrusion
  simp only
  by_cases hr : c.relative = true
  · simp only [hr, if_true]
    refine ⟨?_, trivial, rfl, rfl, rfl, rfl, rfl, fun t ht => ?_⟩
    · rw [hv]; simp [St.a, St.upd]
    · simp [St.upd, ht]
  · have hv' : currentVolume c (s.emit .g92) = currentVolume c s := rfl
    simp only [hr, Bool.false_eq_true, if_false]
    refine ⟨?_, trivial, rfl, rfl, rfl, rfl, rfl, fun t ht => ?_⟩
    · rw [hv', hv]; simp [St.a, St.upd, St.emit]
    · show (if t = (s.emit .g92).cur then _ else (s.emit .g92).attr t) = _
      rw [if_neg (by exact ht)]; rfl

theorem neutral_resetExtrusion (s : St) : Neutral c s (resetExtrusion c s) := by
  obtain ⟨ha, he, hc, ho, hm, hf, hl, ht⟩ := resetExtrusion_fields (c := c) s
  refine ⟨hc, ht, ?_, by rw [ha], ho, hm, hf, Or.inl hl⟩
  unfold here
  have : amountE c (resetExtrusion c s) = 0 := by
    unfold amountE; rw [ha, he]; split <;> ring
  rw [this, ha, hc]
  ring

/-- A call that charges the current tool with `v`. -/
structure Charge (c : Cfg) (s s' : St) (v : ℚ) : Prop where
  cur : s'.cur = s.cur
  others : ∀ t, t ≠ s.cur → s'.attr t = s.attr t
  here : here c s' = here c s + v
  eOff : 0 ≤ s.maxOff → 0 ≤ s.offFactor → 0 ≤ s.eOff → 0 ≤ s'.eOff
  maxOff : s'.maxOff = s.maxOff
  offFactor : s'.offFactor = s.offFactor
  leftover : s'.leftover = s.leftover ∨ s'.leftover = none

theorem Neutral.charge {s s' : St} (h : Neutral c s s') : Charge c s s' 0 :=
  ⟨h.cur, h.others, by rw [h.here, add_zero], fun _ _ ho => by rw [h.eOff]; exact ho, h.maxOff, h.offFactor, h.leftover⟩

theorem Charge.trans {s s' s'' : St} {v w : ℚ} (h : Charge c s s' v) (h' : Charge c s' s'' w) : Charge c s s'' (v + w) := by
  refine ⟨h'.cur.trans h.cur, fun t ht => ?_, by rw [h'.here, h.here]; ring, fun h1 h2 h3 => ?_, h'.maxOff.trans h.maxOff,
    h'.offFactor.trans h.offFactor, ?_⟩
  · rw [h'.others t (by rw [h.cur]; exact ht), h.others t ht]
  · exact h'.eOff (by rw [h.maxOff]; exact h1) (by rw [h.offFactor]; exact h2) (h.eOff h1 h2 h3)
  · rcases h'.leftover with hl | hl
    · rcases h.leftover with hl' | hl'
      · left; rw [hl, hl']
      · right; rw [hl, hl']
    · right; exact hl

theorem primeLines_fields (s : St) :
    (primeLines c s).attr = s.attr ∧ (primeLines c s).cur = s.cur ∧
    (primeLines c s).e = s.e + mm3ToE c s s.a.prime + (if c.firmware s.cur then 0 else s.a.retrCur) ∧
    (primeLines c s).eOff = s.eOff ∧ (primeLines c s).maxOff = s.maxOff ∧ (primeLines c s).offFactor = s.offFactor ∧
    (primeLines c s).leftover = s.leftover := by
  have hA : ({ s with e := s.e + mm3ToE c s s.a.prime } : St).a = s.a := rfl
  unfold primeLines
  simp only [hA]
  split
  · split
    · split
      · exact ⟨rfl, rfl, (add_zero _).symm, rfl, rfl, rfl, rfl⟩
      · exact ⟨rfl, rfl, (add_zero _).symm, rfl, rfl, rfl, rfl⟩
    · exact ⟨rfl, rfl, rfl, rfl, rfl, rfl, rfl⟩
  · have h0 : (if c.firmware s.cur then 0 else s.a.retrCur) = 0 := by
      split
      · rfl
      · simpa using ‹¬ s.a.retrCur ≠ 0›
    rw [h0]
    split
    · exact ⟨rfl, rfl, (add_zero _).symm, rfl, rfl, rfl, rfl⟩
    · exact ⟨rfl, rfl, (add_zero _).symm, rfl, rfl, rfl, rfl⟩

theorem bigReset_or (s : St) : bigReset c s = s ∨ bigReset c s = resetExtrusion c s := by
  unfold bigReset; split
  · exact Or.inr rfl
  · exact Or.inl rfl

theorem clearRetracted_eq (s : St) : (clearRetracted s).a = { s.a with retrCur := 0 } ∧ (clearRetracted s).cur = s.cur ∧
    (∀ t, t ≠ s.cur → (clearRetracted s).attr t = s.attr t) ∧ (clearRetracted s).e = s.e ∧
    (clearRetracted s).eOff = s.eOff ∧ (clearRetracted s).maxOff = s.maxOff ∧
    (clearRetracted s).offFactor = s.offFactor ∧ (clearRetracted s).leftover = s.leftover := by
  unfold clearRetracted
  split
  · refine ⟨upd_a _ _, rfl, fun t ht => ?_, rfl, rfl, rfl, rfl, rfl⟩
    simp [St.upd, ht]
  · rename_i h
    simp only [ne_eq, not_not] at h
    refine ⟨?_, rfl, fun t ht => rfl, rfl, rfl, rfl, rfl, rfl⟩
    rw [← h]

/-- `writeUnretractionAndPrime` charges the prime volume, clears it and leaves nothing retracted. -/
theorem charge_unretract (hs : Sane c) (s : St) :
    Charge c s (unretract c s) s.a.prime ∧ (unretract c s).a.prime = 0 ∧ (unretract c s).a.retrCur = 0 ∧
    (unretract c s).eOff = s.eOff := by
  obtain ⟨pa, pc, pe, po, pm, pf, pl⟩ := primeLines_fields (c := c) s
  have paa : (primeLines c s).a = s.a := by unfold St.a; rw [pa, pc]
  unfold unretract
  simp only
  generalize hs2 : primeLines c s = s2 at *
  have hu : (s2.upd s2.cur fun a => { a with prime := 0 }).a = { s2.a with prime := 0 } := upd_a s2 _
  have huo : ∀ t, t ≠ s2.cur → (s2.upd s2.cur fun a => { a with prime := 0 }).attr t = s2.attr t := by
    intro t ht; simp [St.upd, ht]
  have hue : (s2.upd s2.cur fun a => { a with prime := 0 }).e = s2.e := rfl
  have huc : (s2.upd s2.cur fun a => { a with prime := 0 }).cur = s2.cur := rfl
  have huoff : (s2.upd s2.cur fun a => { a with prime := 0 }).eOff = s2.eOff := rfl
  have hum : (s2.upd s2.cur fun a => { a with prime := 0 }).maxOff = s2.maxOff := rfl
  have huf : (s2.upd s2.cur fun a => { a with prime := 0 }).offFactor = s2.offFactor := rfl
  have hul : (s2.upd s2.cur fun a => { a with prime := 0 }).leftover = s2.leftover := rfl
  generalize (s2.upd s2.cur fun a => { a with prime := 0 }) = s3 at *
  have hb : Neutral c s3 (bigReset c s3) ∧ (bigReset c s3).a.retrCur = s3.a.retrCur := by
    rcases bigReset_or (c := c) s3 with h | h <;> rw [h]
    · exact ⟨.refl _, rfl⟩
    · exact ⟨neutral_resetExtrusion s3, by rw [(resetExtrusion_fields s3).1]⟩
  generalize bigReset c s3 = s4 at *
  obtain ⟨hb, hbr⟩ := hb
  obtain ⟨ca, cc, co, ce, coff, cm, cf, cl⟩ := clearRetracted_eq s4
  generalize clearRetracted s4 = s5 at *
  have hcur : s5.cur = s.cur := by rw [cc, hb.cur, huc, pc]
  refine ⟨⟨hcur, fun t ht => ?_, ?_, fun _ _ h3 => ?_, ?_, ?_, ?_⟩, ?_, ?_, ?_⟩
  · rw [co t (by rw [hb.cur, huc, pc]; exact ht), hb.others t (by rw [huc, pc]; exact ht), huo t (by rw [pc]; exact ht), pa]
  · have h5 : here c s5 = here c s4 - kappa c s.cur * (if c.firmware s.cur then 0 else s.a.retrCur) := by
      unfold here amountE
      rw [ca, ce, cc, hb.cur, huc, pc]
      have : s4.a.retrCur = s.a.retrCur := by rw [hbr, hu, paa]
      split
      · ring
      · simp only [this]; ring
    have h3 : here c s3 = here c s + kappa c s.cur * mm3ToE c s s.a.prime +
        kappa c s.cur * (if c.firmware s.cur then 0 else s.a.retrCur) := by
      unfold here amountE
      rw [hu, hue, huc, pe, pc, paa]
      split <;> ring
    rw [h5, hb.here, h3, mm3ToE_kappa hs]; ring
  · rw [coff, hb.eOff, huoff, po]; exact h3
  · rw [cm, hb.maxOff, hum, pm]
  · rw [cf, hb.offFactor, huf, pf]
  · rcases hb.leftover with h | h
    · left; rw [cl, h, hul, pl]
    · right; rw [cl, h]
  · rw [ca]; show s4.a.prime = 0
    rw [hb.prime, hu]
  · rw [ca]
  · rw [coff, hb.eOff, huoff, po]

theorem flowOffset_nonneg (s : St) (v m len : ℚ) (hv : 0 ≤ v) (hm : 0 ≤ m) (h1 : 0 ≤ s.maxOff) (h2 : 0 ≤ s.offFactor) :
    0 ≤ flowOffset s v m len := by
  unfold flowOffset
  split
  · split
    · exact h1
    · positivity
  · exact le_refl _

theorem updateOffset_fields (s : St) (v m len : ℚ) (u : Bool) :
    (updateOffset s v m len u).cur = s.cur ∧ (updateOffset s v m len u).attr = s.attr ∧
    (updateOffset s v m len u).e = s.e ∧ (updateOffset s v m len u).maxOff = s.maxOff ∧
    (updateOffset s v m len u).offFactor = s.offFactor ∧ (updateOffset s v m len u).leftover = s.leftover ∧
    ((updateOffset s v m len u).eOff = s.eOff ∨ (updateOffset s v m len u).eOff = flowOffset s v m len) := by
  unfold updateOffset
  split
  · exact ⟨rfl, rfl, rfl, rfl, rfl, rfl, Or.inr rfl⟩
  · exact ⟨rfl, rfl, rfl, rfl, rfl, rfl, Or.inl rfl⟩

/-- The line of an extrusion by `x ≥ 0` E units. -/
theorem charge_line (s : St) (speed : ℚ) (p : P3) (x : ℚ) (hx : 0 ≤ x) (ho : 0 ≤ s.eOff) :
    Charge c s (writeFXYZE c s speed p (s.e + x) none) (kappa c s.cur * x) ∧
    (writeFXYZE c s speed p (s.e + x) none).attr = s.attr ∧
    (writeFXYZE c s speed p (s.e + x) none).eOff = s.eOff := by
  obtain ⟨s2, ⟨hc, ha, he, hoo, hm, hof, hl, _⟩, xy, z, f, heq⟩ := writeFXYZE_form (c := c) s speed p (s.e + x) none
  rw [heq]
  have h3 : (eWord c s2 (s.e + x) none).2 = { s2 with e := s.e + x } := by
    unfold eWord
    simp only
    split
    · rfl
    · rename_i h
      simp only [ne_eq, not_not, he, hoo] at h
      have : x = 0 := by linarith
      rw [this, add_zero, ← he]
  simp only [h3]
  refine ⟨⟨hc, fun t _ => by rw [emit_attr]; exact congrFun ha t, ?_, fun _ _ h => by rw [← hoo] at h; exact h, hm, hof, Or.inl hl⟩, ha, hoo⟩
  have haa : s2.a = s.a := by unfold St.a; rw [hc, ha]
  show s2.a.total + kappa c s2.cur * amountE c { s2 with e := s.e + x } = here c s + _
  have : amountE c { s2 with e := s.e + x } = amountE c s + x := by
    show (if c.firmware s2.cur then s.e + x else s.e + x - s2.a.retrStart + s2.a.retrCur) = _
    unfold amountE
    rw [hc, haa]
    split <;> ring
  rw [this, haa, hc]
  unfold here; ring

theorem zhopEnd_pos (s : St) (speed : ℚ) (hh : s.hop ≠ 0) :
    (zhopEnd c s speed 0 none 0).pos = ⟨s.pos.x, s.pos.y, s.layerZ⟩ := by
  have h0 : ∀ (s : St) v h r, s.hop ≠ 0 → (zhopEnd0 c s v h r).pos = ⟨s.pos.x, s.pos.y, s.layerZ⟩ ∧
      (zhopEnd0 c s v h r).layerZ = s.layerZ := by
    intro s v h r hh
    unfold zhopEnd0
    rw [if_pos hh]
    have hm := moved_writeZhop (P := ⟨true, id, id⟩) (p0 := ⟨0, 0, 0, 0, 0, 0, fun _ => 0⟩) (c := c) s v h r
    simp only [hm.pos, hm.layerZ]
    exact ⟨trivial, trivial⟩
  have h0' : ∀ (s : St) v h r, s.pos.z = s.layerZ → (zhopEnd0 c s v h r).pos = s.pos ∧
      (zhopEnd0 c s v h r).layerZ = s.layerZ := by
    intro s v h r hz
    by_cases hh : s.hop = 0
    · unfold zhopEnd0; simp [hh]
    · obtain ⟨h1, h2⟩ := h0 s v h r hh
      exact ⟨by rw [h1, ← hz], h2⟩
  have h1 : ∀ (s : St) v h r q, s.hop ≠ 0 → (zhopEnd1 c s v h r q).pos = ⟨s.pos.x, s.pos.y, s.layerZ⟩ ∧
      (zhopEnd1 c s v h r q).layerZ = s.layerZ := by
    intro s v h r q hh
    unfold zhopEnd1
    rw [if_pos hh]
    split
    · obtain ⟨a1, a2⟩ := h0 s v (trunc (s.hop * q)) (some s.a.retrCur) hh
      obtain ⟨b1, b2⟩ := h0' _ v 0 r (show (zhopEnd0 c s v (trunc (s.hop * q)) (some s.a.retrCur)).pos.z = _ by rw [a1, a2])
      exact ⟨by rw [b1, a1], by rw [b2, a2]⟩
    · exact h0 s v h r hh
  have h1' : ∀ (s : St) v h r q, s.pos.z = s.layerZ → (zhopEnd1 c s v h r q).pos = s.pos := by
    intro s v h r q hz
    by_cases hh : s.hop = 0
    · rw [zhopEnd1_idle _ _ _ _ _ hh]
    · rw [(h1 s v h r q hh).1, ← hz]
  unfold zhopEnd
  simp only
  cases hl : s.leftover with
  | none => exact (h1 s speed 0 none 0 hh).1
  | some l =>
    obtain ⟨a1, a2⟩ := h1 { s with leftover := none } speed 0 (some l.1) l.2 hh
    simp only
    rw [h1' _ _ _ _ _ (by rw [a1, a2]), a1]

/-- An extrusion move charges its volume and the prime volume, and leaves nothing retracted and nothing to prime. -/
theorem charge_extrude (hs : Sane c) (s : St) (p : P3) (v m : ℚ) (u : Bool) (hp : s.pos ≠ p) (hv : 0 ≤ v) (hm : 0 ≤ m)
    (h1 : 0 ≤ s.maxOff) (h2 : 0 ≤ s.offFactor) (h3 : 0 ≤ s.eOff) (hf : s.leftover ≠ none → c.firmware s.cur = false) :
    Charge c s (extrude c s p v m u)
      (m * c.len (p.x - s.pos.x) (p.y - s.pos.y) (p.z - if 0 < s.hop then s.layerZ else s.pos.z) + s.a.prime) ∧
    (extrude c s p v m u).a.prime = 0 ∧ (extrude c s p v m u).a.retrCur = 0 := by
  unfold extrude
  rw [if_neg hs.flavor, if_neg hp]
  simp only
  have hpos : (if 0 < s.hop then zhopEnd c s 0 0 none 0 else s).pos =
      ⟨s.pos.x, s.pos.y, if 0 < s.hop then s.layerZ else s.pos.z⟩ := by
    split
    · rw [zhopEnd_pos _ _ (by omega)]
    · rfl
  have hn1 : Neutral c s (if 0 < s.hop then zhopEnd c s 0 0 none 0 else s) := by
    split
    · exact neutral_zhopEnd s 0 hf
    · exact .refl s
  rw [hpos]
  generalize (if 0 < s.hop then zhopEnd c s 0 0 none 0 else s) = s1 at *
  simp only
  have hl0 := hs.len (p.x - s.pos.x) (p.y - s.pos.y) (p.z - if 0 < s.hop then s.layerZ else s.pos.z)
  generalize c.len (p.x - s.pos.x) (p.y - s.pos.y) (p.z - if 0 < s.hop then s.layerZ else s.pos.z) = len at *
  obtain ⟨hu, hup, hur, huo⟩ := charge_unretract hs s1
  generalize unretract c s1 = s2 at *
  obtain ⟨oc, oa, oe, om, of, ol, oo⟩ := updateOffset_fields s2 v m len u
  generalize updateOffset s2 v m len u = s3 at *
  have hoff : 0 ≤ s3.eOff := by
    rcases oo with h | h
    · rw [h, huo, hn1.eOff]; exact h3
    · rw [h]
      exact flowOffset_nonneg s2 v m len hv hm (by rw [hu.maxOff, hn1.maxOff]; exact h1)
        (by rw [hu.offFactor, hn1.offFactor]; exact h2)
  have haa : s3.a = s2.a := by unfold St.a; rw [oc, oa]
  have h3c : Charge c s2 s3 0 := by
    refine ⟨oc, fun t _ => by rw [oa], ?_, fun _ _ _ => hoff, om, of, Or.inl ol⟩
    unfold here amountE
    rw [haa, oc, oe]; ring
  have h4 : Neutral c s3 (s3.upd s3.cur fun a => { a with lastWipe := a.lastWipe + mm3ToE c s m * len }) :=
    neutral_upd s3 _ rfl rfl rfl rfl
  have h4a : (s3.upd s3.cur fun a => { a with lastWipe := a.lastWipe + mm3ToE c s m * len }).a.retrCur = s3.a.retrCur := by
    rw [upd_a]
  generalize (s3.upd s3.cur fun a => { a with lastWipe := a.lastWipe + mm3ToE c s m * len }) = s4 at *
  have hx : 0 ≤ mm3ToE c s m * len := by
    apply mul_nonneg _ hl0
    unfold mm3ToE
    split
    · exact hm
    · exact div_nonneg hm (hs.area _).le
  obtain ⟨h5, h5a, _⟩ := charge_line (c := c) s4 v p (mm3ToE c s m * len) hx (by rw [h4.eOff]; exact hoff)
  have hcur : s4.cur = s.cur := by rw [h4.cur, oc, hu.cur, hn1.cur]
  have h5a' : (writeFXYZE c s4 v p (s4.e + mm3ToE c s m * len) none).a = s4.a := by
    unfold St.a; rw [h5.cur, h5a]
  generalize writeFXYZE c s4 v p (s4.e + mm3ToE c s m * len) none = s5 at *
  refine ⟨?_, ?_, ?_⟩
  · have hk := (hn1.charge.trans hu).trans (h3c.trans (h4.charge.trans h5))
    have : 0 + s1.a.prime + (0 + (0 + kappa c s4.cur * (mm3ToE c s m * len))) = m * len + s.a.prime := by
      rw [hn1.prime, hcur, ← mul_assoc, mm3ToE_kappa hs]; ring
    rw [this] at hk
    exact hk
  · rw [h5a', h4.prime, haa, hup]
  · rw [h5a', h4a, haa, hur]

/-- The effect of setting the retracted amount of a tool that retracts by firmware. -/
theorem here_fw (s : St) (f : Attr → Attr) (hf : c.firmware s.cur = true) (h1 : (f s.a).total = s.a.total) :
    here c (s.upd s.cur f) = here c s := by
  unfold here amountE
  rw [upd_a, h1]
  show _ + kappa c s.cur * (if c.firmware s.cur then s.e else _) = _
  rw [if_pos hf, if_pos hf]

/-- A retraction changes nothing but the pending prime volume (and the record of retractions). -/
theorem charge_retraction (hs : Sane c) (s : St) (r : RConfig) (force switch : Bool) (dist : Option ℚ) :
    Charge c s (retraction c s r force switch dist).1 0 ∧
    (retraction c s r force switch dist).1.a.prime =
      s.a.prime + (if (retraction c s r force switch dist).1.out = s.out then 0 else r.primeVolume) ∧
    (retraction c s r force switch dist).1.eOff = s.eOff := by
  unfold retraction
  rw [if_neg hs.flavor]
  cases hl : limitRetraction c s r force with
  | none =>
    have h : Neutral c s (trimHist s r) := neutral_upd s _ rfl rfl rfl rfl
    exact ⟨h.charge, by dsimp only; rw [h.prime, if_pos (show (trimHist s r).out = s.out from rfl), add_zero], rfl⟩
  | some h =>
    simp only
    have hn1 : Neutral c s (s.upd s.cur fun a => { a with hist := h }) := neutral_upd s _ rfl rfl rfl rfl
    have ho1 : (s.upd s.cur fun a => { a with hist := h }).out = s.out := rfl
    generalize (s.upd s.cur fun a => { a with hist := h }) = s1 at *
    split
    · exact ⟨hn1.charge, by simp [hn1.prime, ho1], hn1.eOff⟩
    · split
      · rename_i hf
        split
        · exact ⟨hn1.charge, by simp [hn1.prime, ho1], hn1.eOff⟩
        · dsimp only
          have hn2 : Neutral c s (s1.emit .g10) := hn1.trans (neutral_emit _ _)
          have hc2 : Charge c (s1.emit .g10) ((s1.emit .g10).upd (s1.emit .g10).cur fun a =>
              { a with retrCur := (amounts c s1 (dist.getD r.distance)).newE
                       prime := a.prime + r.primeVolume }) 0 := by
            refine ⟨rfl, fun t ht => if_neg ht, ?_, fun _ _ h => h, rfl, rfl, Or.inl rfl⟩
            rw [here_fw (s1.emit .g10) _ hf rfl, add_zero]
          have hk := hn2.charge.trans hc2
          rw [add_zero] at hk
          refine ⟨hk, ?_, hn1.eOff⟩
          rw [upd_a]
          show s1.a.prime + r.primeVolume = _
          rw [hn1.prime, if_neg]
          show ¬ (s1.out ++ [_] = s.out)
          rw [ho1]; simp
      · rename_i hf
        simp only [Bool.not_eq_true] at hf
        dsimp only
        have hn2 := hn1.trans (rawRetract_neutral s1 (dist.getD r.distance) hf)
        have ho2 : (rawRetract c s1 (amounts c s1 (dist.getD r.distance))).2.out = s1.out := rfl
        generalize (rawRetract c s1 (amounts c s1 (dist.getD r.distance))) = w at *
        generalize (if (amounts c s1 (dist.getD r.distance)).diffE < 0 then r.speed else s1.a.primeSpeed) = v at *
        have hn3 : Neutral c w.2 { w.2.emit (.move none none (some (v * 60)) (some w.1)) with speed := v } :=
          neutral_same rfl rfl rfl rfl rfl rfl (Or.inl rfl)
        have ho3 : ({ w.2.emit (.move none none (some (v * 60)) (some w.1)) with speed := v } : St).out = w.2.out ++ [_] := rfl
        have hn4 := hn2.trans hn3
        have hcc : (w.2.emit (.move none none (some (v * 60)) (some w.1))).cur =
          ({ w.2.emit (.move none none (some (v * 60)) (some w.1)) with speed := v } : St).cur := rfl
        rw [hcc]
        clear hcc
        generalize ({ w.2.emit (.move none none (some (v * 60)) (some w.1)) with speed := v } : St) = s3 at *
        have hc4 : Charge c s3 (s3.upd s3.cur fun a => { a with primeSpeed := r.primeSpeed
                                                                prime := a.prime + r.primeVolume }) 0 := by
          refine ⟨rfl, fun t ht => by simp [St.upd, ht], ?_, fun _ _ h => h, rfl, rfl, Or.inl rfl⟩
          unfold here amountE
          rw [upd_a, add_zero]
          rfl
        have hk := hn4.charge.trans hc4
        rw [add_zero] at hk
        refine ⟨hk, ?_, hn4.eOff⟩
        rw [upd_a]
        show s3.a.prime + r.primeVolume = _
        rw [hn4.prime, if_neg]
        show ¬ (s3.out = s.out)
        rw [ho3, ho2, ho1]; simp

/-- The invariant of the accounting. -/
structure Inv (c : Cfg) (s : St) : Prop where
  eOff : 0 ≤ s.eOff
  maxOff : 0 ≤ s.maxOff
  offFactor : 0 ≤ s.offFactor
  leftover : s.leftover = none ∨ ∀ t, c.firmware t = false
  others : ∀ t, t ≠ s.cur → c.firmware t = true ∨ (s.attr t).retrStart = (s.attr t).retrCur

theorem Inv.fw {s : St} (h : Inv c s) : s.leftover ≠ none → c.firmware s.cur = false := by
  intro hn
  rcases h.leftover with h | h
  · exact absurd h hn
  · exact h _

theorem Charge.inv {s s' : St} {v : ℚ} (h : Charge c s s' v) (hi : Inv c s) : Inv c s' := by
  refine ⟨h.eOff hi.maxOff hi.offFactor hi.eOff, by rw [h.maxOff]; exact hi.maxOff, by rw [h.offFactor]; exact hi.offFactor,
    ?_, fun t ht => ?_⟩
  · rcases h.leftover with hl | hl
    · rw [hl]; exact hi.leftover
    · exact Or.inl hl
  · rw [h.cur] at ht
    rw [h.others t ht]; exact hi.others t ht

theorem Charge.total {s s' : St} {v : ℚ} (h : Charge c s s' v) (t : Nat) :
    totalFilament c s' t = totalFilament c s t + if t = s.cur then v else 0 := by
  by_cases ht : t = s.cur
  · subst ht
    rw [if_pos rfl]
    have h1 := here_eq (c := c) s'
    rw [h.cur] at h1
    rw [h1, here_eq, h.here]
  · unfold totalFilament
    rw [if_neg ht, if_neg ht, if_neg (by rw [h.cur]; exact ht), h.others t ht, add_zero]

theorem neutral_script (s : St) (b : Bool) : Neutral c s (script s b) := by
  unfold script; split
  · exact neutral_emit _ _
  · exact .refl s

/-- Starting an extruder when nothing was extruded since the last reset. -/
theorem start_total (s : St) (t : Nat) (hi : Inv c s) (he : s.e = 0) (hv : amountE c s = 0) :
    Inv c (startExtruder c s t) ∧ ∀ u, totalFilament c (startExtruder c s t) u = totalFilament c s u := by
  unfold startExtruder
  simp only
  have key : ∀ s4 : St, s4.cur = t → s4.e = 0 → s4.eOff = s.eOff → s4.maxOff = s.maxOff → s4.offFactor = s.offFactor →
      s4.leftover = s.leftover →
      (∀ u, (s4.attr u).total = (s.attr u).total ∧ (s4.attr u).retrStart = (s.attr u).retrStart ∧
        (s4.attr u).retrCur = (s.attr u).retrCur) →
      Inv c s4 ∧ ∀ u, totalFilament c s4 u = totalFilament c s u := by
    intro s4 hc4 he4 ho hm hf hl ha
    have hall : ∀ u, c.firmware u = true ∨ (s.attr u).retrStart = (s.attr u).retrCur := by
      intro u
      by_cases hu : u = s.cur
      · subst hu
        unfold amountE at hv
        by_cases hfw : c.firmware s.cur = true
        · exact Or.inl hfw
        · right
          rw [if_neg hfw, he] at hv
          simp only [St.a] at hv
          linarith
      · exact hi.others u hu
    have h4 : amountE c s4 = 0 := by
      unfold amountE
      rcases hall t with h | h
      · rw [hc4, if_pos h]; exact he4
      · split
        · exact he4
        · simp only [St.a, hc4, ha, h, he4]; ring
    refine ⟨⟨by rw [ho]; exact hi.eOff, by rw [hm]; exact hi.maxOff, by rw [hf]; exact hi.offFactor,
      by rw [hl]; exact hi.leftover, fun u hu => ?_⟩, fun u => ?_⟩
    · rw [(ha u).2.1, (ha u).2.2]; exact hall u
    · unfold totalFilament
      rw [currentVolume_eq, currentVolume_eq, h4, hv, mul_zero, mul_zero, add_zero, add_zero, (ha u).1]
      simp
  have hn1 : Neutral c s (script s (c.prestartCode t)) := neutral_script s _
  have hs1 : (script s (c.prestartCode t)).e = 0 ∧ (script s (c.prestartCode t)).attr = s.attr ∧
      (script s (c.prestartCode t)).cur = s.cur ∧ (script s (c.prestartCode t)).leftover = s.leftover := by
    unfold script; split <;> exact ⟨he, rfl, rfl, rfl⟩
  generalize script s (c.prestartCode t) = s1 at *
  obtain ⟨h1e, h1a, h1c, h1l⟩ := hs1
  have hs2 : ∀ u, ((s1.upd t fun a => { a with used := true }).attr u).total = (s.attr u).total ∧
      ((s1.upd t fun a => { a with used := true }).attr u).retrStart = (s.attr u).retrStart ∧
      ((s1.upd t fun a => { a with used := true }).attr u).retrCur = (s.attr u).retrCur := by
    intro u
    by_cases hu : u = t
    · simp [St.upd, hu, h1a]
    · simp [St.upd, hu, h1a]
  have h2e : (s1.upd t fun a => { a with used := true }).e = 0 := h1e
  have h2o : (s1.upd t fun a => { a with used := true }).eOff = s.eOff := hn1.eOff
  have h2m : (s1.upd t fun a => { a with used := true }).maxOff = s.maxOff := hn1.maxOff
  have h2f : (s1.upd t fun a => { a with used := true }).offFactor = s.offFactor := hn1.offFactor
  have h2l : (s1.upd t fun a => { a with used := true }).leftover = s.leftover := h1l
  generalize (s1.upd t fun a => { a with used := true }) = s2 at *
  have hs3 : ∀ u, ((if t ≠ s2.cur then s2.emit (.tool t) else s2).attr u).total = (s.attr u).total ∧
      ((if t ≠ s2.cur then s2.emit (.tool t) else s2).attr u).retrStart = (s.attr u).retrStart ∧
      ((if t ≠ s2.cur then s2.emit (.tool t) else s2).attr u).retrCur = (s.attr u).retrCur := by
    intro u
    split <;> exact hs2 u
  have h3 : (if t ≠ s2.cur then s2.emit (.tool t) else s2).e = 0 ∧
      (if t ≠ s2.cur then s2.emit (.tool t) else s2).eOff = s.eOff ∧
      (if t ≠ s2.cur then s2.emit (.tool t) else s2).maxOff = s.maxOff ∧
      (if t ≠ s2.cur then s2.emit (.tool t) else s2).offFactor = s.offFactor ∧
      (if t ≠ s2.cur then s2.emit (.tool t) else s2).leftover = s.leftover := by
    split <;> exact ⟨h2e, h2o, h2m, h2f, h2l⟩
  generalize (if t ≠ s2.cur then s2.emit (.tool t) else s2) = s3 at *
  obtain ⟨i4, t4⟩ := key { s3 with pos := ⟨s3.pos.x + ((c.offset t).1 - (c.offset s3.cur).1),
                                           s3.pos.y + ((c.offset t).2 - (c.offset s3.cur).2), s3.pos.z⟩
                                   cur := t } rfl h3.1 h3.2.1 h3.2.2.1 h3.2.2.2.1 h3.2.2.2.2 hs3
  generalize ({ s3 with pos := ⟨s3.pos.x + ((c.offset t).1 - (c.offset s3.cur).1),
                                s3.pos.y + ((c.offset t).2 - (c.offset s3.cur).2), s3.pos.z⟩
                        cur := t } : St) = s4 at *
  have hfin : Neutral c s4 (script (resetExtrusion c s4) (c.startCode t)) :=
    (neutral_resetExtrusion s4).trans (neutral_script _ _)
  generalize script (resetExtrusion c s4) (c.startCode t) = s6 at *
  have h7 : Neutral c s4 { s6 with pos := { s6.pos with z := s6.pos.z + 1 } } :=
    hfin.trans (neutral_same rfl rfl rfl rfl rfl rfl (Or.inl rfl))
  refine ⟨h7.charge.inv i4, fun u => ?_⟩
  rw [h7.charge.total u, t4]
  simp

theorem switch_total (hs : Sane c) (s : St) (t : Nat) (r : RConfig) (hop : Int) (hi : Inv c s) :
    Inv c (switchExtruder c s t r hop) ∧ ∀ u, totalFilament c (switchExtruder c s t r hop) u = totalFilament c s u := by
  unfold switchExtruder
  split
  · exact ⟨hi, fun _ => rfl⟩
  · simp only
    have h1 : Charge c s (if c.retractionEnable s.cur then (retraction c s r true true none).1 else s) 0 := by
      split
      · exact (charge_retraction hs s r true true none).1
      · exact (Neutral.refl s).charge
    generalize (if c.retractionEnable s.cur then (retraction c s r true true none).1 else s) = s1 at *
    have h2 : Neutral c s1 (if 0 < hop then zhopStart c s1 hop 0 none 0 else s1) := by
      split
      · exact neutral_zhopStart s1 hop 0 none 0 (by simp)
      · exact .refl _
    generalize (if 0 < hop then zhopStart c s1 hop 0 none 0 else s1) = s2 at *
    obtain ⟨ra, re, rc, _⟩ := resetExtrusion_fields (c := c) s2
    have h3 := neutral_resetExtrusion (c := c) s2
    generalize resetExtrusion c s2 = s3 at *
    have ha3 : amountE c s3 = 0 := by unfold amountE; rw [ra, re]; split <;> ring
    have h4 : (script s3 (c.endCode s3.cur)).e = 0 ∧ amountE c (script s3 (c.endCode s3.cur)) = 0 := by
      unfold script; split <;> exact ⟨re, ha3⟩
    have h4n : Neutral c s3 (script s3 (c.endCode s3.cur)) := neutral_script _ _
    generalize script s3 (c.endCode s3.cur) = s4 at *
    have hk := h1.trans (h2.charge.trans (h3.charge.trans h4n.charge))
    obtain ⟨i5, t5⟩ := start_total (c := c) s4 t (hk.inv hi) h4.1 h4.2
    refine ⟨i5, fun u => ?_⟩
    rw [t5, hk.total]; simp

theorem neutral_travelXY (hs : Sane c) (s : St) (x y : Int) (v : ℚ) : Neutral c s (travelXY c s x y v) :=
  neutral_travel hs s _ v none (fun _ => rfl)

theorem neutral_wipeMoves (hs : Sane c) (w : WipeCfg) (n : Nat) : ∀ (i : Nat) (s : St), Neutral c s (wipeMoves c w n i s) := by
  induction n with
  | zero => intro i s; exact .refl s
  | succ n ih => intro i s; exact (neutral_travelXY hs s _ _ _).trans (ih _ _)

theorem charge_wipe (hs : Sane c) (s : St) (w : WipeCfg) (hi : Inv c s) :
    Charge c s (wipe c s w)
      (if w.retractionEnable then (retraction c (s.emit .note) w.rconfig false false none).1.a.prime else 0) := by
  unfold wipe
  simp only
  have h0 : Neutral c s (s.emit .note) := neutral_emit _ _
  generalize s.emit .note = s0 at *
  have h1 : Charge c s0 (if w.retractionEnable then (retraction c s0 w.rconfig false false none).1 else s0) 0 := by
    split
    · exact (charge_retraction hs s0 w.rconfig false false none).1
    · exact (Neutral.refl s0).charge
  have hp : w.retractionEnable = true →
      (if w.retractionEnable then (retraction c s0 w.rconfig false false none).1 else s0).a.prime =
      (retraction c s0 w.rconfig false false none).1.a.prime := by
    intro h; rw [if_pos h]
  generalize (retraction c s0 w.rconfig false false none).1.a.prime = pv at *
  generalize (if w.retractionEnable then (retraction c s0 w.rconfig false false none).1 else s0) = s1 at *
  have i1 : Inv c s1 := h1.inv (h0.charge.inv hi)
  have h2 : Neutral c s1 (if w.hopEnable then zhopStart c s1 w.hopAmount w.hopSpeed none 0 else s1) := by
    split
    · exact neutral_zhopStart s1 _ _ none 0 (by simp)
    · exact .refl _
  generalize (if w.hopEnable then zhopStart c s1 w.hopAmount w.hopSpeed none 0 else s1) = s2 at *
  have h3 := h2.trans (neutral_travelXY hs s2 w.brushX s2.pos.y w.moveSpeed)
  generalize travelXY c s2 w.brushX s2.pos.y w.moveSpeed = s3 at *
  have h4 := h3.trans (neutral_wipeMoves hs w w.repeatCount 0 s3)
  generalize wipeMoves c w w.repeatCount 0 s3 = s4 at *
  have h5 := h4.trans (neutral_travel hs s4 s.pos w.moveSpeed none (fun _ => rfl))
  generalize travel c s4 s.pos w.moveSpeed none = s5 at *
  have h6 : Neutral c s1 (if w.hopEnable then zhopEnd c s5 w.hopSpeed 0 none 0 else s5) := by
    split
    · exact h5.trans (neutral_zhopEnd s5 _ (h5.charge.inv i1).fw)
    · exact h5
  generalize (if w.hopEnable then zhopEnd c s5 w.hopSpeed 0 none 0 else s5) = s6 at *
  by_cases hr : w.retractionEnable = true
  · simp only [hr, if_true]
    have h7 := (charge_unretract hs s6).1
    rw [h6.prime, hp hr] at h7
    have hk := (h0.charge.trans h1).trans ((h6.charge.trans h7).trans (neutral_emit (c := c) (unretract c s6) .note).charge)
    simpa using hk
  · simp only [hr, Bool.false_eq_true, if_false]
    have hk := (h0.charge.trans h1).trans (h6.charge.trans (neutral_emit (c := c) s6 .note).charge)
    simpa using hk

/-- One call. -/
theorem acct_step (hs : Sane c) (s : St) (op : Op) (ha : Allowed c s op) (hi : Inv c s) :
    Inv c (step c s op) ∧ ∀ t, totalFilament c (step c s op) t = totalFilament c s t + charged c s op t := by
  have wrap : ∀ {s' : St} {v : ℚ}, Charge c s s' v → (∀ t, charged c s op t = if t = s.cur then v else 0) →
      s' = step c s op → Inv c (step c s op) ∧ ∀ t, totalFilament c (step c s op) t = totalFilament c s t + charged c s op t := by
    rintro s' v h he rfl
    exact ⟨h.inv hi, fun t => by rw [h.total, he]⟩
  cases op with
  | travel p v r => exact wrap (neutral_travel hs s p v r ha).charge (fun t => by simp [charged]) rfl
  | extrude p v m u =>
    by_cases hp : s.pos = p
    · have : step c s (.extrude p v m u) = s := by simp [step, extrude, hs.flavor, hp]
      exact wrap (Neutral.refl s).charge (fun t => by simp [charged, hp]) this.symm
    · refine wrap (charge_extrude hs s p v m u hp ha.1 ha.2 hi.maxOff hi.offFactor hi.eOff hi.fw).1 (fun t => ?_) rfl
      unfold charged
      split
      · rename_i ht
        subst ht
        simp only [if_neg hp]; rfl
      · rfl
  | retraction r f w d => exact wrap (charge_retraction hs s r f w d).1 (fun t => by simp [charged]) rfl
  | unretract =>
    refine wrap (charge_unretract hs s).1 (fun t => ?_) rfl
    unfold charged
    split
    · rename_i ht; subst ht; rfl
    · rfl
  | zhopStart h v r q =>
    refine wrap (neutral_zhopStart s h v r q (fun hr => ?_)).charge (fun t => by simp [charged]) rfl
    by_contra hfw
    simp only [Bool.not_eq_false] at hfw
    exact hr (ha hfw)
  | zhopEnd v => exact wrap (neutral_zhopEnd s v hi.fw).charge (fun t => by simp [charged]) rfl
  | setLeftover a r =>
    refine ⟨⟨hi.eOff, hi.maxOff, hi.offFactor, Or.inr ha, hi.others⟩, fun t => ?_⟩
    simp only [charged, ite_self, add_zero]
    rfl
  | setZ z =>
    exact wrap (neutral_same (s := s) (s' := step c s (.setZ z)) rfl rfl rfl rfl rfl rfl (Or.inl rfl)).charge
      (fun t => by simp [charged]) rfl
  | addPrime v =>
    have h : Charge c s (step c s (.addPrime v)) 0 := by
      refine ⟨rfl, fun t ht => by simp [step, St.upd, ht], ?_, fun _ _ h => h, rfl, rfl, Or.inl rfl⟩
      unfold here amountE
      rw [show (step c s (.addPrime v)).a = { s.a with prime := s.a.prime + v } from upd_a s _, add_zero]
      rfl
    exact wrap h (fun t => by simp [charged]) rfl
  | setFlow m f =>
    refine ⟨⟨hi.eOff, ha.1, ha.2, hi.leftover, hi.others⟩, fun t => ?_⟩
    simp only [charged, ite_self, add_zero]
    rfl
  | resetExtrusion => exact wrap (neutral_resetExtrusion s).charge (fun t => by simp [charged]) rfl
  | switch t r h =>
    obtain ⟨h1, h2⟩ := switch_total hs s t r h hi
    exact ⟨h1, fun u => by simp only [charged, ite_self, add_zero]; exact h2 u⟩
  | start t =>
    have hv : amountE c s = 0 := by
      have := ha.2
      rw [currentVolume_eq] at this
      rcases mul_eq_zero.mp this with h | h
      · exact absurd h (kappa_pos hs _).ne'
      · exact h
    obtain ⟨h1, h2⟩ := start_total (c := c) s t hi ha.1 hv
    exact ⟨h1, fun u => by simp only [charged, ite_self, add_zero]; exact h2 u⟩
  | wipe w =>
    refine wrap (charge_wipe hs s w hi) (fun t => ?_) rfl
    unfold charged
    split
    · rename_i ht
      subst ht
      have : (retraction c (s.emit .note) w.rconfig false false none).1.cur = s.cur :=
        (charge_retraction hs (s.emit .note) w.rconfig false false none).1.cur
      simp only [St.a, this]
    · rfl

theorem inv_init (t : Nat) (ps : Nat → ℚ) : Inv c (St.init t ps) :=
  ⟨le_refl _, le_refl _, le_refl _, Or.inl rfl, fun _ _ => Or.inr rfl⟩

theorem acct_run (hs : Sane c) (ops : List Op) : ∀ s : St, AllAllowed c s ops → Inv c s →
    Inv c (run c s ops) ∧ ∀ t, totalFilament c (run c s ops) t = totalFilament c s t + chargedSum c s ops t := by
  induction ops with
  | nil => intro s _ hi; exact ⟨hi, fun t => by simp [run, chargedSum]⟩
  | cons op ops ih =>
    intro s ha hi
    obtain ⟨h1, h2⟩ := acct_step hs s op ha.1 hi
    obtain ⟨h3, h4⟩ := ih _ ha.2 h1
    refine ⟨h3, fun t => ?_⟩
    have := h4 t
    show totalFilament c (run c (step c s op) ops) t = _
    rw [this, h2]
    simp only [chargedSum]; ring

end Verif.GCode
