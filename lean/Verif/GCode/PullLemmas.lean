import Verif.GCode.PullSpec
import Verif.GCode.AcctLemmas

/-! # Lemmas on retraction (C134) -/

namespace Verif.GCode

variable {c : Cfg}

theorem pulled_snoc (t : Nat) (o : List Cmd) (k : Cmd) : pulled t (o ++ [k]) = (pulled t o).exec k := by
  simp [pulled]

/-- Lines that change neither the tool nor a firmware retraction. -/
def PlainCmd : Cmd → Prop
  | .g10 | .g11 | .tool _ => False
  | _ => True

theorem exec_plain (p : Pulled) (k : Cmd) (h : PlainCmd k) : p.exec k = p := by
  cases k <;> simp_all [PlainCmd, Pulled.exec]

/-- Steps that leave the retraction of tools with firmware retraction alone. -/
structure Mute (c : Cfg) (s s' : St) : Prop where
  cur : s'.cur = s.cur
  retr : ∀ u, c.firmware u = true → (s'.attr u).retrCur = (s.attr u).retrCur
  pulled : ∀ t, pulled t s'.out = pulled t s.out

theorem Mute.refl (s : St) : Mute c s s := ⟨rfl, fun _ _ => rfl, fun _ => rfl⟩

theorem Mute.trans {s s' s'' : St} (h : Mute c s s') (h' : Mute c s' s'') : Mute c s s'' :=
  ⟨h'.cur.trans h.cur, fun u hu => (h'.retr u hu).trans (h.retr u hu), fun t => (h'.pulled t).trans (h.pulled t)⟩

theorem mute_same {s s' : St} (hc : s'.cur = s.cur) (ha : s'.attr = s.attr) (ho : s'.out = s.out) : Mute c s s' :=
  ⟨hc, fun u _ => by rw [ha], fun t => by rw [ho]⟩

theorem mute_emit (s : St) (k : Cmd) (hk : PlainCmd k) : Mute c s (s.emit k) :=
  ⟨rfl, fun _ _ => rfl, fun t => by rw [show (s.emit k).out = s.out ++ [k] from rfl, pulled_snoc, exec_plain _ _ hk]⟩

theorem mute_upd (s : St) (t : Nat) (f : Attr → Attr) (h : ∀ a, (f a).retrCur = a.retrCur) : Mute c s (s.upd t f) := by
  refine ⟨rfl, fun u _ => ?_, fun _ => rfl⟩
  show (if u = t then f (s.attr u) else s.attr u).retrCur = _
  split
  · exact h _
  · rfl

theorem mute_eWord (s : St) (e : ℚ) (r : Option Amounts)
    (hf : ∀ a, r = some a → a.has = true → c.firmware s.cur = false) : Mute c s (eWord c s e r).2 := by
  unfold eWord
  cases r with
  | none =>
    simp only
    split
    · exact mute_same rfl rfl rfl
    · exact .refl _
  | some a =>
    simp only
    split
    · rename_i ha
      have hn := hf a rfl ha
      refine ⟨rfl, fun u hu => ?_, fun _ => rfl⟩
      have hne : u ≠ s.cur := by rintro rfl; rw [hn] at hu; cases hu
      show (if u = s.cur then _ else s.attr u).retrCur = _
      rw [if_neg hne]
    · exact .refl _

theorem mute_writeFXYZE (s : St) (speed : ℚ) (p : P3) (e : ℚ) (r : Option Amounts)
    (hf : ∀ a, r = some a → a.has = true → c.firmware s.cur = false) : Mute c s (writeFXYZE c s speed p e r) := by
  obtain ⟨s2, ⟨hc, ha, _, _, _, _, _, ho⟩, xy, z, f, heq⟩ := writeFXYZE_form (c := c) s speed p e r
  rw [heq]
  have h1 : Mute c s s2 := mute_same hc ha ho
  have h2 := mute_eWord (c := c) s2 e r (by rw [hc]; exact hf)
  exact (h1.trans h2).trans ((mute_emit _ (.move xy z f (eWord c s2 e r).1) trivial).trans (mute_same rfl rfl rfl))

theorem mute_writeZhop (s : St) (speed : ℚ) (h : Int) (d : Option ℚ) (hf : d ≠ none → c.firmware s.cur = false) :
    Mute c s (writeZhop c s speed h d) := by
  unfold writeZhop
  simp only
  have h1 : Mute c s { s with hop := h } := mute_same rfl rfl rfl
  refine (h1.trans (mute_writeFXYZE { s with hop := h } (if speed = 0 then c.zhopSpeed s.cur else speed)
    ⟨s.pos.x, s.pos.y, s.layerZ + h⟩ s.e (some (hopAmounts c s d)) ?_)).trans (mute_same rfl rfl rfl)
  intro a ha hh
  cases d with
  | none =>
    simp only [hopAmounts, Option.some.injEq] at ha
    subst ha
    simp [Amounts.has] at hh
    norm_num at hh
  | some d => exact hf (by simp)

theorem mute_zhopStart0 (s : St) (h : Int) (speed : ℚ) (d : Option ℚ) (hf : d ≠ none → c.firmware s.cur = false) :
    Mute c s (zhopStart0 c s h speed d) := by
  unfold zhopStart0; split
  · exact mute_writeZhop s speed h d hf
  · exact .refl s

theorem mute_zhopStart (s : St) (h : Int) (speed : ℚ) (d : Option ℚ) (q : ℚ) (hf : d ≠ none → c.firmware s.cur = false) :
    Mute c s (zhopStart c s h speed d q) := by
  unfold zhopStart; split
  · have h1 := mute_zhopStart0 s (trunc (h * q)) speed d hf
    exact h1.trans (mute_zhopStart0 _ h speed d (by rw [h1.cur]; exact hf))
  · exact mute_zhopStart0 s h speed d hf

theorem mute_zhopEnd0 (s : St) (h : Int) (speed : ℚ) (d : Option ℚ) (hf : d ≠ none → c.firmware s.cur = false) :
    Mute c s (zhopEnd0 c s speed h d) := by
  unfold zhopEnd0; split
  · exact (mute_writeZhop s speed h d hf).trans (mute_same rfl rfl rfl)
  · exact .refl s

theorem mute_zhopEnd1 (s : St) (h : Int) (speed : ℚ) (d : Option ℚ) (q : ℚ) (hf : d ≠ none → c.firmware s.cur = false) :
    Mute c s (zhopEnd1 c s speed h d q) := by
  unfold zhopEnd1; split
  · split
    · rename_i hd
      have hd' : d ≠ none := by intro hn; rw [hn] at hd; simp at hd
      have h1 := mute_zhopEnd0 s (trunc (s.hop * q)) speed (some s.a.retrCur) (fun _ => hf hd')
      exact h1.trans (mute_zhopEnd0 _ 0 speed d (by rw [h1.cur]; exact hf))
    · exact mute_zhopEnd0 s h speed d hf
  · exact .refl s

theorem mute_zhopEnd (s : St) (speed : ℚ) (hf : s.leftover ≠ none → c.firmware s.cur = false) :
    Mute c s (zhopEnd c s speed 0 none 0) := by
  unfold zhopEnd
  simp only
  cases hl : s.leftover with
  | none => exact mute_zhopEnd1 s 0 speed none 0 (by simp)
  | some l =>
    have h0 : Mute c s { s with leftover := none } := mute_same rfl rfl rfl
    have h1 := h0.trans (mute_zhopEnd1 { s with leftover := none } 0 speed (some l.1) l.2 (fun _ => hf (by simp [hl])))
    exact h1.trans (mute_zhopEnd1 _ 0 speed none 0 (by simp))

theorem mute_travel (hs : Sane c) (s : St) (p : P3) (speed : ℚ) (d : Option ℚ)
    (hf : c.firmware s.cur = true → d = none) : Mute c s (travel c s p speed d) := by
  unfold travel
  simp only [hs.flavor, if_false]
  split
  · exact .refl s
  · apply mute_writeFXYZE
    intro a ha _
    cases d with
    | none => cases ha
    | some d =>
      by_contra h
      simp only [Bool.not_eq_false] at h
      simpa using hf h

theorem mute_travelXY (hs : Sane c) (s : St) (x y : Int) (v : ℚ) : Mute c s (travelXY c s x y v) :=
  mute_travel hs s _ v none (fun _ => rfl)

theorem mute_wipeMoves (hs : Sane c) (w : WipeCfg) (n : Nat) : ∀ (i : Nat) (s : St), Mute c s (wipeMoves c w n i s) := by
  induction n with
  | zero => intro i s; exact .refl s
  | succ n ih => intro i s; exact (mute_travelXY hs s _ _ _).trans (ih _ _)

theorem mute_resetExtrusion (s : St) : Mute c s (resetExtrusion c s) := by
  unfold resetExtrusion
  simp only
  have h1 : Mute c s (if c.relative then s else s.emit .g92) := by
    split
    · exact .refl s
    · exact mute_emit s .g92 trivial
  generalize (if c.relative then s else s.emit .g92) = s1 at *
  have h2 : Mute c s1 (s1.upd s1.cur fun a => { a with total := a.total + currentVolume c s1
                                                       hist := a.hist.map (· - currentVolume c s1)
                                                       retrStart := a.retrCur }) :=
    mute_upd s1 s1.cur _ (fun a => by rfl)
  exact (h1.trans h2).trans (mute_same (by rfl) (by rfl) (by rfl))

theorem mute_script (s : St) (b : Bool) : Mute c s (script s b) := by
  unfold script; split
  · exact mute_emit s .code trivial
  · exact .refl s

/-- What the exporter records for the tools with firmware retraction is what the printer does. -/
def Agree (c : Cfg) (t : Nat) (s : St) : Prop :=
  (pulled t s.out).tool = s.cur ∧
  ∀ u, c.firmware u = true → ((pulled t s.out).back u = true ↔ (s.attr u).retrCur ≠ 0)

theorem Mute.agree {t : Nat} {s s' : St} (h : Mute c s s') (hj : Agree c t s) : Agree c t s' := by
  refine ⟨by rw [h.pulled, h.cur]; exact hj.1, fun u hu => ?_⟩
  rw [h.pulled, h.retr u hu]
  exact hj.2 u hu

/-- The lines of a priming. -/
theorem primeLines_pulled (t : Nat) (s : St) :
    pulled t (primeLines c s).out =
      if c.firmware s.cur = true ∧ s.a.retrCur ≠ 0 then (pulled t s.out).exec .g11 else pulled t s.out := by
  unfold primeLines
  simp only [St.a, St.emit]
  by_cases h1 : (s.attr s.cur).retrCur = 0 <;> by_cases h2 : c.firmware s.cur = true <;>
    by_cases h3 : (s.attr s.cur).prime = 0 <;> simp [h1, h2, h3, pulled, Pulled.exec] <;>
    (funext u; split_ifs with hu <;> simp [hu])

theorem agree_unretract {t : Nat} (s : St) (hj : Agree c t s) :
    Agree c t (unretract c s) ∧ (unretract c s).cur = s.cur ∧ ((unretract c s).attr s.cur).retrCur = 0 := by
  obtain ⟨pa, pc, _⟩ := primeLines_fields (c := c) s
  have hp := primeLines_pulled (c := c) t s
  unfold unretract
  simp only
  generalize hs2 : primeLines c s = s2 at *
  have h3 : Mute c s2 (s2.upd s2.cur fun a => { a with prime := 0 }) := mute_upd s2 _ _ (fun _ => rfl)
  generalize (s2.upd s2.cur fun a => { a with prime := 0 }) = s3 at *
  have h4 : Mute c s2 (bigReset c s3) := by
    rcases bigReset_or (c := c) s3 with h | h <;> rw [h]
    · exact h3
    · exact h3.trans (mute_resetExtrusion s3)
  generalize bigReset c s3 = s4 at *
  obtain ⟨ca, cc, co, _⟩ := clearRetracted_eq s4
  have hout : (clearRetracted s4).out = s4.out := by unfold clearRetracted; split <;> rfl
  have hcur : (clearRetracted s4).cur = s.cur := by rw [cc, h4.cur, pc]
  have hzero : ((clearRetracted s4).attr s.cur).retrCur = 0 := by
    have : (clearRetracted s4).attr s.cur = (clearRetracted s4).a := by unfold St.a; rw [hcur]
    rw [this, ca]
  refine ⟨⟨?_, fun u hu => ?_⟩, hcur, hzero⟩
  · rw [hout, h4.pulled, hcur, hp]
    split
    · exact hj.1
    · exact hj.1
  · rw [hout, h4.pulled, hp]
    by_cases hu' : u = s.cur
    · subst hu'
      rw [hzero]
      by_cases hr : s.a.retrCur = 0
      · rw [if_neg (by simp [hr])]
        rw [hj.2 _ hu]
        exact ⟨fun h => absurd hr h, fun h => absurd rfl h⟩
      · rw [if_pos ⟨hu, hr⟩]
        simp [Pulled.exec, hj.1]
    · have he : ((clearRetracted s4).attr u).retrCur = (s.attr u).retrCur := by
        rw [co u (by rw [h4.cur, pc]; exact hu'), h4.retr u hu, pa]
      rw [he, ← hj.2 u hu]
      split
      · simp [Pulled.exec, hj.1, hu']
      · rfl

theorem mmToE_eq (s : St) (d : ℚ) : mmToE c s d = inE c s.cur d := by
  unfold mmToE inE Cfg.volumetric
  simp

theorem inE_pos (hs : Sane c) (t : Nat) (d : ℚ) (hd : 0 < d) : 0 < inE c t d := by
  unfold inE
  split
  · exact mul_pos hd (hs.area t)
  · exact hd

/-- The amount recorded after a retraction. -/
theorem retraction_amount (hs : Sane c) (s : St) (r : RConfig) (f w : Bool) (d : Option ℚ)
    (hok : (retraction c s r f w d).2 = true) (hn : c.firmware s.cur = false) :
    |((retraction c s r f w d).1.attr s.cur).retrCur - inE c s.cur (d.getD r.distance)| < 1 / 1000000 := by
  unfold retraction at hok ⊢
  rw [if_neg hs.flavor] at hok ⊢
  cases hl : limitRetraction c s r f with
  | none => rw [hl] at hok; cases hok
  | some h =>
    simp only
    by_cases ha : (amounts c (s.upd s.cur fun a => { a with hist := h }) (d.getD r.distance)).has = false
    · rw [if_pos ha]
      have ha := not_le.1 (of_decide_eq_false ha)
      simp only [amounts, mmToE_eq] at ha
      simpa [St.upd, St.a] using ha
    · rw [if_neg ha]
      have hfw : ¬ c.firmware (s.upd s.cur fun a => { a with hist := h }).cur = true := by
        show ¬ c.firmware s.cur = true
        simp [hn]
      rw [if_neg hfw]
      simp only [rawRetract, St.emit, St.upd, amounts, mmToE_eq, if_true, sub_self, abs_zero]
      norm_num

/-- A refused retraction writes nothing. -/
theorem retraction_refused (s : St) (r : RConfig) (f w : Bool) (d : Option ℚ)
    (hok : (retraction c s r f w d).2 = false) : (retraction c s r f w d).1.out = s.out := by
  unfold retraction at hok ⊢
  split at hok
  · split at hok <;> cases hok
  · rename_i hb
    rw [if_neg hb]
    cases hl : limitRetraction c s r f with
    | none => rfl
    | some h =>
      rw [hl] at hok
      simp only at hok
      split at hok
      · cases hok
      · split at hok
        · split at hok <;> cases hok
        · cases hok

theorem agree_retraction (hs : Sane c) {t : Nat} (s : St) (r : RConfig) (f w : Bool) (d : Option ℚ)
    (hd : 0 < d.getD r.distance) (hj : Agree c t s) :
    Agree c t (retraction c s r f w d).1 ∧ (retraction c s r f w d).1.cur = s.cur ∧
    ((retraction c s r f w d).2 = true → c.firmware s.cur = true → 1 / 1000000 ≤ inE c s.cur (d.getD r.distance) →
      ((retraction c s r f w d).1.attr s.cur).retrCur ≠ 0) := by
  have hpos := inE_pos hs s.cur _ hd
  unfold retraction
  rw [if_neg hs.flavor]
  cases hl : limitRetraction c s r f with
  | none =>
    have hm : Mute c s (trimHist s r) := mute_upd s s.cur (fun a => { a with hist := a.hist.take r.countMax }) (fun _ => rfl)
    exact ⟨hm.agree hj, rfl, fun h => by cases h⟩
  | some h =>
    simp only
    have hq : Mute c s (s.upd s.cur fun a => { a with hist := h }) := mute_upd s _ _ (fun _ => rfl)
    have hc1 : (s.upd s.cur fun a => { a with hist := h }).cur = s.cur := rfl
    have hr1 : ((s.upd s.cur fun a => { a with hist := h }).attr s.cur).retrCur = (s.attr s.cur).retrCur := by
      simp [St.upd]
    generalize (s.upd s.cur fun a => { a with hist := h }) = s1 at *
    have hj1 := hq.agree hj
    have hr1' : s1.a.retrCur = (s.attr s.cur).retrCur := by unfold St.a; rw [hc1, hr1]
    by_cases ha : (amounts c s1 (d.getD r.distance)).has = false
    · rw [if_pos ha]
      refine ⟨hj1, hc1, fun _ _ hbig h0 => ?_⟩
      have ha := not_le.1 (of_decide_eq_false ha)
      simp only [amounts] at ha
      rw [mmToE_eq, hc1, hr1', ← hr1, h0, zero_sub, abs_neg, abs_of_pos hpos] at ha
      exact absurd hbig (not_le.2 ha)
    · rw [if_neg ha]
      by_cases hfw : c.firmware s1.cur = true
      · rw [if_pos hfw]
        by_cases hsw : w = true ∧ s1.a.retrCur ≠ 0
        · rw [if_pos hsw]
          exact ⟨hj1, hc1, fun _ _ _ => by rw [hr1, ← hr1']; exact hsw.2⟩
        · rw [if_neg hsw]
          have hne : (amounts c s1 (d.getD r.distance)).newE ≠ 0 := by
            show mmToE c s1 _ ≠ 0
            rw [mmToE_eq, hc1]; exact hpos.ne'
          have hnew : (((s1.emit .g10).upd (s1.emit .g10).cur fun a =>
              { a with retrCur := (amounts c s1 (d.getD r.distance)).newE
                       prime := a.prime + r.primeVolume }).attr s1.cur).retrCur =
              (amounts c s1 (d.getD r.distance)).newE := by simp [St.upd, St.emit]
          refine ⟨⟨?_, fun u hu => ?_⟩, hc1, fun _ _ _ => ?_⟩
          · show (pulled t (s1.out ++ [.g10])).tool = s1.cur
            rw [pulled_snoc]; exact hj1.1
          · show (pulled t (s1.out ++ [.g10])).back u = true ↔ _
            rw [pulled_snoc]
            by_cases hu' : u = s1.cur
            · subst hu'
              rw [hnew]
              simp [Pulled.exec, hj1.1, hne]
            · have : (((s1.emit .g10).upd (s1.emit .g10).cur fun a =>
                  { a with retrCur := (amounts c s1 (d.getD r.distance)).newE
                           prime := a.prime + r.primeVolume }).attr u) = s1.attr u := by
                show (if u = s1.cur then _ else s1.attr u) = _
                rw [if_neg hu']
              rw [this, ← hj1.2 u hu]
              simp [Pulled.exec, hj1.1, hu']
          · rw [← hc1, hnew]; exact hne
      · rw [if_neg hfw]
        have hfw' : c.firmware s1.cur = false := by simpa using hfw
        refine ⟨?_, hc1, fun _ h => by rw [← hc1, hfw'] at h; cases h⟩
        have hw : Mute c s1 (rawRetract c s1 (amounts c s1 (d.getD r.distance))).2 := by
          refine ⟨rfl, fun u hu => ?_, fun _ => rfl⟩
          have hne : u ≠ s1.cur := by rintro rfl; rw [hfw'] at hu; cases hu
          show (if u = s1.cur then _ else s1.attr u).retrCur = _
          rw [if_neg hne]
        refine Mute.agree ?_ hj1
        refine (hw.trans ((mute_emit _ (.move none none
          (some ((if (amounts c s1 (d.getD r.distance)).diffE < 0 then r.speed else s1.a.primeSpeed) * 60))
          (some (rawRetract c s1 (amounts c s1 (d.getD r.distance))).1)) trivial).trans ?_))
        refine Mute.trans (s' := { (rawRetract c s1 (amounts c s1 (d.getD r.distance))).2.emit (.move none none
          (some ((if (amounts c s1 (d.getD r.distance)).diffE < 0 then r.speed else s1.a.primeSpeed) * 60))
          (some (rawRetract c s1 (amounts c s1 (d.getD r.distance))).1)) with
            speed := if (amounts c s1 (d.getD r.distance)).diffE < 0 then r.speed else s1.a.primeSpeed })
          (mute_same rfl rfl rfl) ?_
        exact mute_upd _ _ (fun a => { a with primeSpeed := r.primeSpeed, prime := a.prime + r.primeVolume }) (fun _ => rfl)

theorem agree_start {t : Nat} (s : St) (n : Nat) (hj : Agree c t s) : Agree c t (startExtruder c s n) := by
  unfold startExtruder
  simp only
  have h1 : Mute c s (script s (c.prestartCode n)) := mute_script s _
  have h2 := h1.trans (mute_upd (c := c) (script s (c.prestartCode n)) n (fun a => { a with used := true }) (fun _ => rfl))
  generalize (script s (c.prestartCode n)).upd n (fun a => { a with used := true }) = s2 at *
  have hj2 := h2.agree hj
  have h3 : (pulled t (if n ≠ s2.cur then s2.emit (.tool n) else s2).out).tool = n ∧
      (pulled t (if n ≠ s2.cur then s2.emit (.tool n) else s2).out).back = (pulled t s2.out).back ∧
      (if n ≠ s2.cur then s2.emit (.tool n) else s2).attr = s2.attr := by
    by_cases hn : n = s2.cur
    · rw [if_neg (by simpa using hn)]
      exact ⟨by rw [hj2.1, hn], rfl, rfl⟩
    · rw [if_pos hn]
      refine ⟨?_, ?_, rfl⟩ <;> simp only [St.emit, pulled_snoc] <;> rfl
  generalize (if n ≠ s2.cur then s2.emit (.tool n) else s2) = s3 at *
  have hj4 : Agree c t { s3 with pos := ⟨s3.pos.x + ((c.offset n).1 - (c.offset s3.cur).1),
      s3.pos.y + ((c.offset n).2 - (c.offset s3.cur).2), s3.pos.z⟩, cur := n } := by
    refine ⟨h3.1, fun u hu => ?_⟩
    show (pulled t s3.out).back u = true ↔ (s3.attr u).retrCur ≠ 0
    rw [h3.2.1, h3.2.2]
    exact hj2.2 u hu
  refine Mute.agree ?_ hj4
  exact ((mute_resetExtrusion _).trans (mute_script _ _)).trans (mute_same rfl rfl rfl)

theorem agree_switch (hs : Sane c) {t : Nat} (s : St) (n : Nat) (r : RConfig) (hop : Int) (hd : 0 < r.distance)
    (hj : Agree c t s) : Agree c t (switchExtruder c s n r hop) := by
  unfold switchExtruder
  split
  · exact hj
  · simp only
    have h1 : Agree c t (if c.retractionEnable s.cur then (retraction c s r true true none).1 else s) := by
      split
      · exact (agree_retraction hs s r true true none hd hj).1
      · exact hj
    generalize (if c.retractionEnable s.cur then (retraction c s r true true none).1 else s) = s1 at *
    have h2 : Mute c s1 (if 0 < hop then zhopStart c s1 hop 0 none 0 else s1) := by
      split
      · exact mute_zhopStart s1 hop 0 none 0 (by simp)
      · exact .refl _
    generalize (if 0 < hop then zhopStart c s1 hop 0 none 0 else s1) = s2 at *
    exact agree_start _ n (((h2.trans (mute_resetExtrusion s2)).trans (mute_script _ _)).agree h1)

theorem agree_wipe (hs : Sane c) {t : Nat} (s : St) (w : WipeCfg) (hd : 0 < w.rconfig.distance) (hi : Inv c s)
    (hj : Agree c t s) : Agree c t (wipe c s w) := by
  unfold wipe
  simp only
  have i0 : Inv c (s.emit .note) := (neutral_emit (c := c) s .note).charge.inv hi
  have j0 : Agree c t (s.emit .note) := (mute_emit s .note trivial).agree hj
  generalize s.emit .note = s0 at *
  have h1 : Agree c t (if w.retractionEnable then (retraction c s0 w.rconfig false false none).1 else s0) ∧
      Inv c (if w.retractionEnable then (retraction c s0 w.rconfig false false none).1 else s0) := by
    split
    · exact ⟨(agree_retraction hs s0 w.rconfig false false none hd j0).1,
        (charge_retraction hs s0 w.rconfig false false none).1.inv i0⟩
    · exact ⟨j0, i0⟩
  generalize (if w.retractionEnable then (retraction c s0 w.rconfig false false none).1 else s0) = s1 at *
  obtain ⟨j1, i1⟩ := h1
  have h2 : Mute c s1 (if w.hopEnable then zhopStart c s1 w.hopAmount w.hopSpeed none 0 else s1) ∧
      Neutral c s1 (if w.hopEnable then zhopStart c s1 w.hopAmount w.hopSpeed none 0 else s1) := by
    split
    · exact ⟨mute_zhopStart s1 _ _ none 0 (by simp), neutral_zhopStart s1 _ _ none 0 (by simp)⟩
    · exact ⟨.refl _, .refl _⟩
  generalize (if w.hopEnable then zhopStart c s1 w.hopAmount w.hopSpeed none 0 else s1) = s2 at *
  have h3 := h2.1.trans (mute_travelXY hs s2 w.brushX s2.pos.y w.moveSpeed)
  have n3 := h2.2.trans (neutral_travelXY hs s2 w.brushX s2.pos.y w.moveSpeed)
  generalize travelXY c s2 w.brushX s2.pos.y w.moveSpeed = s3 at *
  have h4 := h3.trans (mute_wipeMoves hs w w.repeatCount 0 s3)
  have n4 := n3.trans (neutral_wipeMoves hs w w.repeatCount 0 s3)
  generalize wipeMoves c w w.repeatCount 0 s3 = s4 at *
  have h5 := h4.trans (mute_travel hs s4 s.pos w.moveSpeed none (fun _ => rfl))
  have n5 := n4.trans (neutral_travel hs s4 s.pos w.moveSpeed none (fun _ => rfl))
  generalize travel c s4 s.pos w.moveSpeed none = s5 at *
  have h6 : Mute c s1 (if w.hopEnable then zhopEnd c s5 w.hopSpeed 0 none 0 else s5) := by
    split
    · exact h5.trans (mute_zhopEnd s5 _ (n5.charge.inv i1).fw)
    · exact h5
  generalize (if w.hopEnable then zhopEnd c s5 w.hopSpeed 0 none 0 else s5) = s6 at *
  refine (mute_emit _ .note trivial).agree ?_
  split
  · exact (agree_unretract s6 (h6.agree j1)).1
  · exact h6.agree j1

theorem agree_extrude (hs : Sane c) {t : Nat} (s : St) (p : P3) (v m : ℚ) (u : Bool) (hi : Inv c s)
    (hj : Agree c t s) : Agree c t (extrude c s p v m u) := by
  unfold extrude
  rw [if_neg hs.flavor]
  split
  · exact hj
  · simp only
    have h1 : Mute c s (if 0 < s.hop then zhopEnd c s 0 0 none 0 else s) := by
      split
      · exact mute_zhopEnd s 0 hi.fw
      · exact .refl s
    generalize (if 0 < s.hop then zhopEnd c s 0 0 none 0 else s) = s1 at *
    have h2 := (agree_unretract s1 (h1.agree hj)).1
    generalize unretract c s1 = s2 at *
    have h3 : ∀ len, Mute c s2 (updateOffset s2 v m len u) := by
      intro len
      unfold updateOffset
      split
      · exact (mute_emit s2 .note trivial).trans (mute_same rfl rfl rfl)
      · exact .refl _
    generalize c.len (p.x - s1.pos.x) (p.y - s1.pos.y) (p.z - s1.pos.z) = len at *
    have h3 := h3 len
    generalize updateOffset s2 v m len u = s3 at *
    refine ((h3.trans (mute_upd s3 s3.cur (fun a => { a with lastWipe := a.lastWipe + mm3ToE c s m * len })
      (fun _ => rfl))).trans ?_).agree h2
    exact mute_writeFXYZE _ _ _ _ none (fun a h => by cases h)

theorem agree_step (hs : Sane c) {t : Nat} (s : St) (op : Op) (ha : Allowed c s op) (hp : PullsBack op) (hi : Inv c s)
    (hj : Agree c t s) : Agree c t (step c s op) := by
  cases op with
  | travel p v r => exact (mute_travel hs s p v r ha).agree hj
  | extrude p v m u => exact agree_extrude hs s p v m u hi hj
  | retraction r f w d => exact (agree_retraction hs s r f w d hp hj).1
  | unretract => exact (agree_unretract s hj).1
  | zhopStart h v r q =>
    refine (mute_zhopStart s h v r q (fun hr => ?_)).agree hj
    by_contra hfw
    simp only [Bool.not_eq_false] at hfw
    exact hr (ha hfw)
  | zhopEnd v => exact (mute_zhopEnd s v hi.fw).agree hj
  | setLeftover a r => exact hj
  | setZ z => exact hj
  | addPrime v => exact (mute_upd s s.cur (fun a => { a with prime := a.prime + v }) (fun _ => rfl)).agree hj
  | setFlow m f => exact hj
  | resetExtrusion => exact (mute_resetExtrusion s).agree hj
  | switch n r h => exact agree_switch hs s n r h hp hj
  | start n => exact agree_start s n hj
  | wipe w => exact agree_wipe hs s w hp hi hj

theorem agree_run (hs : Sane c) {t : Nat} (ops : List Op) : ∀ s : St, AllAllowed c s ops → (∀ op ∈ ops, PullsBack op) →
    Inv c s → Agree c t s → Agree c t (run c s ops) := by
  induction ops with
  | nil => intro s _ _ _ h; exact h
  | cons op ops ih =>
    intro s ha hp hi hj
    exact ih _ ha.2 (fun o ho => hp o (by simp [ho])) (acct_step hs s op ha.1 hi).1
      (agree_step hs s op ha.1 (hp op (by simp)) hi hj)

theorem agree_init (t : Nat) (ps : Nat → ℚ) : Agree c t (St.init t ps) :=
  ⟨rfl, fun u _ => by simp [pulled, St.init]⟩

end Verif.GCode
