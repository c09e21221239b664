import Verif.GCode.RetrSpec
import Verif.GCode.AcctLemmas

/-! # Lemmas on the record of retractions -/

namespace Verif.GCode

variable {c : Cfg}

/-- The recorded retractions of a tool, as reported amounts. -/
def absHist (s : St) (t : Nat) : List ℚ := (s.attr t).hist.map (· + (s.attr t).total)

/-- Steps that keep the record. -/
def HSame (s s' : St) : Prop := ∀ t, absHist s' t = absHist s t

theorem HSame.refl (s : St) : HSame s s := fun _ => rfl
theorem HSame.trans {s s' s'' : St} (h : HSame s s') (h' : HSame s' s'') : HSame s s'' := fun t => (h' t).trans (h t)

theorem hsame_attr {s s' : St} (h : s'.attr = s.attr := by rfl) : HSame s s' := fun t => by unfold absHist; rw [h]

theorem hsame_upd (s : St) (t : Nat) (f : Attr → Attr)
    (h : ∀ a, (f a).total = a.total ∧ (f a).hist = a.hist := by intro a; exact ⟨rfl, rfl⟩) : HSame s (s.upd t f) := by
  intro u
  unfold absHist
  by_cases hu : u = t
  · simp only [St.upd, hu, if_true]
    rw [(h _).1, (h _).2]
  · simp [St.upd, hu]

/-- Steps that keep the record and do not make a pending prime volume negative. -/
def KSame (s s' : St) : Prop := HSame s s' ∧ ∀ t, 0 ≤ (s.attr t).prime → 0 ≤ (s'.attr t).prime

theorem KSame.refl (s : St) : KSame s s := ⟨.refl s, fun _ h => h⟩
theorem KSame.trans {s s' s'' : St} (h : KSame s s') (h' : KSame s' s'') : KSame s s'' :=
  ⟨h.1.trans h'.1, fun t ht => h'.2 t (h.2 t ht)⟩

theorem ksame_attr {s s' : St} (h : s'.attr = s.attr := by rfl) : KSame s s' :=
  ⟨hsame_attr h, fun t ht => by rw [h]; exact ht⟩

theorem ksame_upd (s : St) (t : Nat) (f : Attr → Attr)
    (h : ∀ a, (f a).total = a.total ∧ (f a).hist = a.hist := by intro a; exact ⟨rfl, rfl⟩)
    (h' : ∀ a, 0 ≤ a.prime → 0 ≤ (f a).prime := by intro a ha; first | exact ha | exact le_refl _) :
    KSame s (s.upd t f) := by
  refine ⟨hsame_upd s t f h, fun u hu => ?_⟩
  by_cases hut : u = t
  · simp only [St.upd, hut, if_true]; exact h' _ (hut ▸ hu)
  · simpa [St.upd, hut] using hu

theorem ksame_reset (s : St) : KSame s (resetExtrusion c s) := by
  obtain ⟨ha, _, hc, _, _, _, _, ho⟩ := resetExtrusion_fields (c := c) s
  have ha' : (resetExtrusion c s).attr s.cur = (resetExtrusion c s).a := by unfold St.a; rw [hc]
  refine ⟨fun t => ?_, fun t h => ?_⟩
  · by_cases ht : t = s.cur
    · subst ht
      unfold absHist
      rw [ha', ha]
      simp only [List.map_map]
      apply List.map_congr_left
      intro v _
      simp only [Function.comp, St.a]; ring
    · unfold absHist; rw [ho t ht]
  · by_cases ht : t = s.cur
    · subst ht
      rw [ha', ha]; exact h
    · rw [ho t ht]; exact h

theorem ksame_writeFXYZE (s : St) (v : ℚ) (p : P3) (e : ℚ) (r : Option Amounts) : KSame s (writeFXYZE c s v p e r) := by
  obtain ⟨s2, ⟨_, ha, _⟩, xy, z, f, heq⟩ := writeFXYZE_form (c := c) s v p e r
  rw [heq]
  refine (ksame_attr ha).trans ?_
  have h3 : KSame s2 (eWord c s2 e r).2 := by
    unfold eWord
    cases r with
    | some r =>
      dsimp only
      split
      · exact ksame_upd { s2 with e := s2.e + r.diffE } s2.cur (fun a => { a with retrCur := r.newE })
      · exact .refl _
    | none =>
      dsimp only
      split
      · exact ksame_attr
      · exact .refl _
  exact h3.trans ksame_attr

theorem ksame_writeZhop (s : St) (v : ℚ) (h : Int) (d : Option ℚ) : KSame s (writeZhop c s v h d) := by
  unfold writeZhop
  dsimp only
  have h1 : KSame s { s with hop := h } := ksame_attr
  have h2 := h1.trans (ksame_writeFXYZE (c := c) { s with hop := h } (if v = 0 then c.zhopSpeed s.cur else v)
    ⟨s.pos.x, s.pos.y, s.layerZ + h⟩ s.e (some (hopAmounts c s d)))
  exact h2.trans ksame_attr

theorem ksame_zhopStart0 (s : St) (h : Int) (v : ℚ) (d : Option ℚ) : KSame s (zhopStart0 c s h v d) := by
  unfold zhopStart0; split
  · exact ksame_writeZhop _ _ _ _
  · exact .refl s

theorem ksame_zhopStart (s : St) (h : Int) (v : ℚ) (d : Option ℚ) (q : ℚ) : KSame s (zhopStart c s h v d q) := by
  unfold zhopStart; split
  · exact (ksame_zhopStart0 _ _ _ _).trans (ksame_zhopStart0 _ _ _ _)
  · exact ksame_zhopStart0 _ _ _ _

theorem ksame_zhopEnd0 (s : St) (h : Int) (v : ℚ) (d : Option ℚ) : KSame s (zhopEnd0 c s v h d) := by
  unfold zhopEnd0; split
  · exact (ksame_writeZhop _ _ _ _).trans ksame_attr
  · exact .refl s

theorem ksame_zhopEnd1 (s : St) (h : Int) (v : ℚ) (d : Option ℚ) (q : ℚ) : KSame s (zhopEnd1 c s v h d q) := by
  unfold zhopEnd1; split
  · split
    · exact (ksame_zhopEnd0 _ _ _ _).trans (ksame_zhopEnd0 _ _ _ _)
    · exact ksame_zhopEnd0 _ _ _ _
  · exact .refl s

theorem ksame_zhopEnd (s : St) (h : Int) (v : ℚ) (d : Option ℚ) (q : ℚ) : KSame s (zhopEnd c s v h d q) := by
  unfold zhopEnd
  dsimp only
  refine KSame.trans ?_ (ksame_zhopEnd1 _ _ _ _ _)
  cases s.leftover with
  | none => exact .refl s
  | some l =>
    have h1 : KSame s { s with leftover := none } := ksame_attr
    exact h1.trans (ksame_zhopEnd1 _ _ _ _ _)

theorem ksame_travel (hs : Sane c) (s : St) (p : P3) (v : ℚ) (d : Option ℚ) : KSame s (travel c s p v d) := by
  unfold travel
  dsimp only
  rw [if_neg hs.flavor]
  split
  · exact .refl s
  · exact ksame_writeFXYZE _ _ _ _ _

theorem ksame_unretract (s : St) : KSame s (unretract c s) := by
  have hb : ∀ s : St, KSame s (bigReset c s) := by
    intro s
    rcases bigReset_or (c := c) s with h | h <;> rw [h]
    · exact .refl s
    · exact ksame_reset s
  have hcl : ∀ s : St, KSame s (clearRetracted s) := by
    intro s; unfold clearRetracted; split
    · exact ksame_upd s _ _
    · exact .refl s
  unfold unretract
  dsimp only
  have h1 : KSame s (primeLines c s) := ksame_attr (primeLines_fields s).1
  exact h1.trans ((ksame_upd _ _ _).trans ((hb _).trans (hcl _)))

theorem ksame_extrude (hs : Sane c) (s : St) (p : P3) (v m : ℚ) (u : Bool) : KSame s (extrude c s p v m u) := by
  unfold extrude
  dsimp only
  rw [if_neg hs.flavor]
  split
  · exact .refl s
  · have h1 : KSame s (if 0 < s.hop then zhopEnd c s 0 0 none 0 else s) := by
      split
      · exact ksame_zhopEnd _ _ _ _ _
      · exact .refl s
    generalize (if 0 < s.hop then zhopEnd c s 0 0 none 0 else s) = s1 at *
    generalize c.len (p.x - s1.pos.x) (p.y - s1.pos.y) (p.z - s1.pos.z) = len
    have h2 := h1.trans (ksame_unretract (c := c) s1)
    have h3 : KSame (unretract c s1) (updateOffset (unretract c s1) v m len u) :=
      ksame_attr (updateOffset_fields _ _ _ _ _).2.1
    exact (h2.trans h3).trans ((ksame_upd _ _ _).trans (ksame_writeFXYZE _ _ _ _ _))

/-- What a retraction does to the record. -/
theorem retraction_hist (hs : Sane c) (s : St) (r : RConfig) (f w : Bool) (d : Option ℚ) :
    (∀ t, t ≠ s.cur → absHist (retraction c s r f w d).1 t = absHist s t) ∧
    absHist (retraction c s r f w d).1 s.cur =
      (if (retraction c s r f w d).2 then totalFilament c s s.cur :: absHist s s.cur else absHist s s.cur).take r.countMax ∧
    ((retraction c s r f w d).2 = true → f = false →
      0 < r.countMax ∧ ∀ x, (absHist s s.cur)[r.countMax - 1]? = some x →
        x + r.window * c.area s.cur ≤ totalFilament c s s.cur) ∧
    (f = true → (retraction c s r f w d).2 = true) := by
  have hT : totalFilament c s s.cur = s.a.total + currentVolume c s := by unfold totalFilament; rw [if_pos rfl]; rfl
  have hchain : ∀ h, HSame (s.upd s.cur fun a => { a with hist := h }) (retraction c s r f w d).1 ∧
      (retraction c s r f w d).2 = true ∨ limitRetraction c s r f ≠ some h := by
    intro h
    by_cases hl : limitRetraction c s r f = some h
    · left
      unfold retraction
      rw [if_neg hs.flavor, hl]
      dsimp only
      generalize (s.upd s.cur fun a => { a with hist := h }) = s1 at *
      split
      · exact ⟨.refl _, rfl⟩
      · split
        · split
          · exact ⟨.refl _, rfl⟩
          · refine ⟨?_, rfl⟩
            have h1 : HSame s1 (s1.emit .g10) := hsame_attr
            exact h1.trans (hsame_upd (s1.emit .g10) _ (fun a =>
              { a with retrCur := (amounts c s1 (d.getD r.distance)).newE
                       prime := a.prime + r.primeVolume }))
        · refine ⟨?_, rfl⟩
          dsimp only
          refine HSame.trans ?_ (hsame_upd _ _ _)
          exact (hsame_upd { s1 with e := s1.e + (amounts c s1 (d.getD r.distance)).diffE } s1.cur
            (fun a => { a with retrCur := (amounts c s1 (d.getD r.distance)).newE })).trans hsame_attr
    · right; exact hl
  cases hl : limitRetraction c s r f with
  | none =>
    have he : retraction c s r f w d = (trimHist s r, false) := by
      unfold retraction; rw [if_neg hs.flavor, hl]
    rw [he]
    dsimp only
    refine ⟨fun t ht => ?_, ?_, by simp, fun hf => ?_⟩
    · unfold absHist trimHist; simp [St.upd, ht]
    · unfold absHist trimHist
      simp [St.upd, List.map_take]
    · unfold limitRetraction at hl
      rw [hf] at hl
      simp at hl
  | some h =>
    have hc := hchain h
    rw [hl] at hc
    simp only [ne_eq, not_true_eq_false, or_false] at hc
    obtain ⟨hc1, hc2⟩ := hc
    rw [hc2]
    have hh : h = (currentVolume c s :: s.a.hist.take r.countMax).take r.countMax ∧
        (f = false → r.countMax ≠ 0 ∧ ¬ ((s.a.hist.take r.countMax).length = r.countMax ∧
          currentVolume c s < (s.a.hist.take r.countMax).getLast?.getD 0 + r.window * c.area s.cur)) := by
      unfold limitRetraction at hl
      simp only at hl
      split at hl
      · simp at hl
      · rename_i h1
        split at hl
        · simp at hl
        · rename_i h2
          simp only [Option.some.injEq] at hl
          refine ⟨?_, fun hf => ⟨fun h0 => h1 ⟨by simp [hf], h0⟩, fun hx => h2 ⟨by simp [hf], hx⟩⟩⟩
          rw [← hl]
          have hle : (s.a.hist.take r.countMax).length ≤ r.countMax := by simp
          split
          · rename_i hlen
            rw [List.dropLast_eq_take]
            congr 1
            omega
          · rename_i hlen
            refine (List.take_of_length_le ?_).symm
            simp only [List.length_cons] at hlen ⊢
            omega
    refine ⟨fun t ht => ?_, ?_, fun _ hf => ?_, fun _ => rfl⟩
    · rw [hc1 t]; unfold absHist; simp [St.upd, ht]
    · rw [hc1 s.cur]
      unfold absHist
      simp only [St.upd, if_true]
      rw [hh.1]
      have hk : (currentVolume c s :: s.a.hist.take r.countMax).take r.countMax =
          (currentVolume c s :: s.a.hist).take r.countMax := by
        cases hN : r.countMax with
        | zero => rfl
        | succ n => simp [List.take_take]
      rw [hk, List.map_take]
      simp only [List.map_cons, hT]
      rw [add_comm (currentVolume c s)]
      rfl
    · obtain ⟨h0, h1⟩ := hh.2 hf
      refine ⟨Nat.pos_of_ne_zero h0, fun x hx => ?_⟩
      unfold absHist at hx
      rw [List.getElem?_map] at hx
      obtain ⟨y, hy, rfl⟩ := Option.map_eq_some_iff.mp hx
      have hlen : (s.a.hist.take r.countMax).length = r.countMax := by
        have := (List.getElem?_eq_some_iff.mp hy).1
        have h2 : (s.attr s.cur).hist = s.a.hist := rfl
        rw [h2] at this
        rw [List.length_take]; omega
      have hlast : (s.a.hist.take r.countMax).getLast?.getD 0 = y := by
        rw [List.getLast?_eq_getElem?, hlen, List.getElem?_take, if_pos (by omega)]
        have h2 : (s.attr s.cur).hist = s.a.hist := rfl
        rw [← h2, hy]; rfl
      have h2 : ¬ currentVolume c s < y + r.window * c.area s.cur := fun hlt => h1 ⟨hlen, by rw [hlast]; exact hlt⟩
      rw [hT]
      have : (s.attr s.cur).total = s.a.total := rfl
      rw [this]
      linarith [not_lt.mp h2]

theorem ksame_script (s : St) (b : Bool) : KSame s (script s b) := by
  unfold script; split
  · exact ksame_attr
  · exact .refl s

theorem ksame_start (s : St) (t : Nat) : KSame s (startExtruder c s t) := by
  unfold startExtruder
  dsimp only
  have h1 := ksame_script s (c.prestartCode t)
  generalize script s (c.prestartCode t) = s1 at *
  have h2 := h1.trans (ksame_upd s1 t (fun a => { a with used := true }))
  generalize (s1.upd t fun a => { a with used := true }) = s2 at *
  have h3 : KSame s2 (if t ≠ s2.cur then s2.emit (.tool t) else s2) := by
    split
    · exact ksame_attr
    · exact .refl _
  have h3 := h2.trans h3
  generalize (if t ≠ s2.cur then s2.emit (.tool t) else s2) = s3 at *
  have h4 : KSame s3 { s3 with pos := ⟨s3.pos.x + ((c.offset t).1 - (c.offset s3.cur).1),
                                       s3.pos.y + ((c.offset t).2 - (c.offset s3.cur).2), s3.pos.z⟩
                               cur := t } := ksame_attr
  have h5 := (h3.trans h4).trans ((ksame_reset (c := c) _).trans (ksame_script _ (c.startCode t)))
  exact h5.trans ksame_attr

theorem ksame_switch_tail (s : St) (t : Nat) (hop : Int) :
    KSame s (startExtruder c (script (resetExtrusion c (if 0 < hop then zhopStart c s hop 0 none 0 else s))
      (c.endCode (resetExtrusion c (if 0 < hop then zhopStart c s hop 0 none 0 else s)).cur)) t) := by
  have h2 : KSame s (if 0 < hop then zhopStart c s hop 0 none 0 else s) := by
    split
    · exact ksame_zhopStart _ _ _ _ _
    · exact .refl _
  exact h2.trans ((ksame_reset _).trans ((ksame_script _ _).trans (ksame_start _ _)))

theorem ksame_wipeMoves (hs : Sane c) (w : WipeCfg) (n : Nat) : ∀ (i : Nat) (s : St), KSame s (wipeMoves c w n i s) := by
  induction n with
  | zero => intro i s; exact .refl s
  | succ n ih => intro i s; exact (ksame_travel hs s _ _ _).trans (ih _ _)

/-- After the retraction of a wipe nothing changes the record. -/
theorem ksame_wipe_tail (hs : Sane c) (s : St) (w : WipeCfg) :
    KSame (if w.retractionEnable then (retraction c (s.emit .note) w.rconfig false false none).1 else s.emit .note)
      (wipe c s w) := by
  unfold wipe
  dsimp only
  generalize s.emit .note = s0 at *
  generalize (if w.retractionEnable then (retraction c s0 w.rconfig false false none).1 else s0) = s1 at *
  have h2 : KSame s1 (if w.hopEnable then zhopStart c s1 w.hopAmount w.hopSpeed none 0 else s1) := by
    split
    · exact ksame_zhopStart _ _ _ _ _
    · exact .refl _
  generalize (if w.hopEnable then zhopStart c s1 w.hopAmount w.hopSpeed none 0 else s1) = s2 at *
  have h3 := h2.trans (ksame_travel hs s2 ⟨w.brushX, s2.pos.y, s2.layerZ⟩ w.moveSpeed none)
  have h4 := h3.trans (ksame_wipeMoves hs w w.repeatCount 0 (travelXY c s2 w.brushX s2.pos.y w.moveSpeed))
  generalize wipeMoves c w w.repeatCount 0 (travelXY c s2 w.brushX s2.pos.y w.moveSpeed) = s4 at *
  have h5 := h4.trans (ksame_travel hs s4 s.pos w.moveSpeed none)
  generalize travel c s4 s.pos w.moveSpeed none = s5 at *
  have h6 : KSame s5 (if w.hopEnable then zhopEnd c s5 w.hopSpeed 0 none 0 else s5) := by
    split
    · exact ksame_zhopEnd _ _ _ _ _
    · exact .refl _
  have h6 := h5.trans h6
  generalize (if w.hopEnable then zhopEnd c s5 w.hopSpeed 0 none 0 else s5) = s6 at *
  have h7 : KSame s6 (if w.retractionEnable then unretract c s6 else s6) := by
    split
    · exact ksame_unretract _
    · exact .refl _
  exact h6.trans (h7.trans ksame_attr)

/-- One call: the record follows the log as far as `N` entries. -/
theorem hist_step (hs : Sane c) (N : Nat) (s : St) (op : Op) (W : ℚ) (hN : LimitIs N W op) (t : Nat) (L : List (Bool × ℚ))
    (h : (absHist s t).take N = (L.map Prod.snd).take N) :
    (absHist (step c s op) t).take N = ((performed c s op t ++ L).map Prod.snd).take N := by
  have hcons : ∀ (M : Nat) (x : ℚ) (b : Bool), N ≤ M →
      ((x :: absHist s t).take M).take N = (([(b, x)] ++ L).map Prod.snd).take N := by
    intro M x b hM
    rw [List.take_take, Nat.min_eq_left hM]
    cases N with
    | zero => rfl
    | succ n =>
      simp only [List.take_succ_cons, List.cons_append, List.nil_append, List.map_cons, List.cons.injEq, true_and]
      have h' := congrArg (List.take n) h
      rw [List.take_take, List.take_take, Nat.min_eq_left (Nat.le_succ n)] at h'
      exact h'
  have hkeep : ∀ M, N ≤ M → ((absHist s t).take M).take N = (L.map Prod.snd).take N := by
    intro M hM
    rw [List.take_take, Nat.min_eq_left hM, h]
  have same : ∀ {s' : St}, HSame s s' → performed c s op t = [] → s' = step c s op →
      (absHist (step c s op) t).take N = ((performed c s op t ++ L).map Prod.snd).take N := by
    rintro s' h1 h2 rfl
    rw [h1 t, h2]; exact h
  cases op with
  | travel p v r => exact same (ksame_travel hs s p v r).1 (by simp [performed]) rfl
  | extrude p v m u => exact same (ksame_extrude hs s p v m u).1 (by simp [performed]) rfl
  | retraction r f w d =>
    obtain ⟨h1, h2, _, _⟩ := retraction_hist hs s r f w d
    show (absHist (retraction c s r f w d).1 t).take N = _
    by_cases ht : t = s.cur
    · subst ht
      rw [h2]
      unfold performed
      rw [if_pos rfl]
      dsimp only
      split
      · exact hcons r.countMax _ f hN.1
      · exact hkeep r.countMax hN.1
    · rw [h1 t ht]
      unfold performed
      rw [if_neg ht]
      exact h
  | unretract => exact same (ksame_unretract s).1 (by simp [performed]) rfl
  | zhopStart hh v r q => exact same (ksame_zhopStart s hh v r q).1 (by simp [performed]) rfl
  | zhopEnd v => exact same (ksame_zhopEnd s 0 v none 0).1 (by simp [performed]) rfl
  | setLeftover a r => exact same (s' := step c s (.setLeftover a r)) hsame_attr (by simp [performed]) rfl
  | setZ z => exact same (s' := step c s (.setZ z)) hsame_attr (by simp [performed]) rfl
  | addPrime v => exact same (hsame_upd s s.cur (fun a => { a with prime := a.prime + v })) (by simp [performed]) rfl
  | setFlow m f => exact same (s' := step c s (.setFlow m f)) hsame_attr (by simp [performed]) rfl
  | resetExtrusion => exact same (ksame_reset s).1 (by simp [performed]) rfl
  | start u => exact same (ksame_start s u).1 (by simp [performed]) rfl
  | switch u r hop =>
    by_cases hu : s.cur = u
    · have : step c s (.switch u r hop) = s := by simp [step, switchExtruder, hu]
      rw [this]
      unfold performed
      by_cases ht : t = s.cur
      · rw [if_pos ht]; simp [hu, h]
      · rw [if_neg ht]; exact h
    · have hstep : step c s (.switch u r hop) = switchExtruder c s u r hop := rfl
      rw [hstep]
      unfold switchExtruder
      rw [if_neg hu]
      dsimp only
      rw [(ksame_switch_tail (c := c) _ u hop).1 t]
      unfold performed
      by_cases hre : c.retractionEnable s.cur = true
      · obtain ⟨h1, h2, _, h4⟩ := retraction_hist hs s r true true none
        rw [if_pos hre]
        by_cases ht : t = s.cur
        · subst ht
          rw [h2, h4 rfl, if_pos rfl, if_pos rfl]
          dsimp only
          rw [if_pos ⟨hu, hre⟩]
          exact hcons r.countMax _ true hN
        · rw [h1 t ht, if_neg ht]; exact h
      · rw [if_neg hre]
        by_cases ht : t = s.cur
        · rw [if_pos ht]
          dsimp only
          rw [if_neg (fun hx => hre hx.2)]; exact h
        · rw [if_neg ht]; exact h
  | wipe w =>
    show (absHist (wipe c s w) t).take N = _
    rw [(ksame_wipe_tail hs s w).1 t]
    have h0 : ∀ t, absHist (s.emit .note) t = absHist s t := fun _ => rfl
    have hT : totalFilament c (s.emit .note) = totalFilament c s := rfl
    unfold performed
    by_cases hre : w.retractionEnable = true
    · obtain ⟨h1, h2, _, _⟩ := retraction_hist hs (s.emit .note) w.rconfig false false none
      rw [if_pos hre]
      by_cases ht : t = s.cur
      · subst ht
        have h2' : absHist (retraction c (s.emit .note) w.rconfig false false none).1 s.cur = _ := h2
        rw [h2', if_pos rfl]
        dsimp only
        by_cases hacc : (retraction c (s.emit .note) w.rconfig false false none).2 = true
        · rw [if_pos hacc, if_pos ⟨hre, hacc⟩]
          exact hcons w.rconfig.countMax _ true hN
        · rw [if_neg hacc, if_neg (fun hx => hacc hx.2)]
          exact hkeep w.rconfig.countMax hN
      · rw [h1 t ht, if_neg ht]; exact h
    · rw [if_neg hre]
      by_cases ht : t = s.cur
      · rw [if_pos ht]
        dsimp only
        rw [if_neg (fun hx => hre hx.1)]; exact h
      · rw [if_neg ht]; exact h

theorem hist_run (hs : Sane c) (N : Nat) (W : ℚ) (t : Nat) (ops : List Op) : ∀ (s : St) (L : List (Bool × ℚ)),
    (∀ op ∈ ops, LimitIs N W op) → (absHist s t).take N = (L.map Prod.snd).take N →
    (absHist (run c s ops) t).take N = ((retrLog c t s ops L).map Prod.snd).take N := by
  induction ops with
  | nil => intro s L _ h; exact h
  | cons op ops ih =>
    intro s L hN h
    exact ih (step c s op) (performed c s op t ++ L) (fun o ho => hN o (List.mem_cons_of_mem _ ho))
      (hist_step hs N s op W (hN op (by simp)) t L h)

/-- No prime volume is negative. -/
def PrimesOk (s : St) : Prop := ∀ t, 0 ≤ (s.attr t).prime

theorem primesOk_retraction (hs : Sane c) (s : St) (r : RConfig) (f w : Bool) (d : Option ℚ) (h : PrimesOk s)
    (hr : 0 ≤ r.primeVolume) : PrimesOk (retraction c s r f w d).1 := by
  obtain ⟨h1, h2, _⟩ := charge_retraction hs s r f w d
  intro t
  by_cases ht : t = s.cur
  · subst ht
    have : (retraction c s r f w d).1.attr s.cur = (retraction c s r f w d).1.a := by unfold St.a; rw [h1.cur]
    rw [this, h2]
    have h0 : 0 ≤ s.a.prime := h s.cur
    split
    · linarith
    · linarith
  · rw [h1.others t ht]; exact h t

theorem primesOk_step (hs : Sane c) (s : St) (op : Op) (hp : PrimesForward op) (h : PrimesOk s) :
    PrimesOk (step c s op) := by
  have wrap : ∀ {s' : St}, KSame s s' → PrimesOk s' := fun hk t => hk.2 t (h t)
  cases op with
  | travel p v r => exact wrap (ksame_travel hs s p v r)
  | extrude p v m u => exact wrap (ksame_extrude hs s p v m u)
  | retraction r f w d => exact primesOk_retraction hs s r f w d h hp
  | unretract => exact wrap (ksame_unretract s)
  | zhopStart hh v r q => exact wrap (ksame_zhopStart s hh v r q)
  | zhopEnd v => exact wrap (ksame_zhopEnd s 0 v none 0)
  | setLeftover a r => exact h
  | setZ z => exact h
  | addPrime v =>
    intro t
    have hv : 0 ≤ v := hp
    have := h t
    show 0 ≤ ((s.upd s.cur fun a => { a with prime := a.prime + v }).attr t).prime
    by_cases ht : t = s.cur
    · subst ht; simp only [St.upd, if_true]; linarith
    · simpa [St.upd, ht] using this
  | setFlow m f => exact h
  | resetExtrusion => exact wrap (ksame_reset s)
  | start u => exact wrap (ksame_start s u)
  | switch u r hop =>
    by_cases hu : s.cur = u
    · have : step c s (.switch u r hop) = s := by simp [step, switchExtruder, hu]
      rw [this]; exact h
    · show PrimesOk (switchExtruder c s u r hop)
      unfold switchExtruder
      rw [if_neg hu]
      dsimp only
      have h1 : PrimesOk (if c.retractionEnable s.cur then (retraction c s r true true none).1 else s) := by
        split
        · exact primesOk_retraction hs s r true true none h hp
        · exact h
      exact fun t => (ksame_switch_tail (c := c) _ u hop).2 t (h1 t)
  | wipe w =>
    show PrimesOk (wipe c s w)
    have h1 : PrimesOk (if w.retractionEnable then (retraction c (s.emit .note) w.rconfig false false none).1
        else s.emit .note) := by
      split
      · exact primesOk_retraction hs (s.emit .note) w.rconfig false false none h hp
      · exact h
    exact fun t => (ksame_wipe_tail hs s w).2 t (h1 t)

theorem charged_nonneg (hs : Sane c) (s : St) (op : Op) (ha : Allowed c s op) (hp : PrimesForward op) (h : PrimesOk s)
    (t : Nat) : 0 ≤ charged c s op t := by
  unfold charged
  split
  · cases op with
    | extrude p v m u =>
      dsimp only
      split
      · exact le_refl _
      · exact add_nonneg (mul_nonneg ha.2 (hs.len _ _ _)) (h t)
    | unretract => exact h t
    | wipe w =>
      dsimp only
      split
      · exact primesOk_retraction hs (s.emit .note) w.rconfig false false none h hp t
      · exact le_refl _
    | _ => exact le_refl _
  · exact le_refl _

/-- What a record of retractions (most recent first) looks like: amounts do not decrease with time, and a retraction that is
subject to the limit is at least a window away from the `N`-th retraction before it. -/
def GoodLog (N : Nat) (W : ℚ) : List (Bool × ℚ) → Prop
  | [] => True
  | e :: L => (∀ x ∈ L, x.2 ≤ e.2) ∧ (e.1 = false → 0 < N ∧ ∀ x, L[N - 1]? = some x → x.2 + W ≤ e.2) ∧ GoodLog N W L

theorem goodLog_sorted {N : Nat} {W : ℚ} : ∀ {L : List (Bool × ℚ)}, GoodLog N W L → L.Pairwise (fun a b => b.2 ≤ a.2)
  | [], _ => .nil
  | _ :: _, h => .cons h.1 (goodLog_sorted h.2.2)

theorem goodLog_count {N : Nat} {W : ℚ} (a : ℚ) : ∀ {L : List (Bool × ℚ)}, GoodLog N W L →
    (L.filter fun e => !e.1 && decide (a ≤ e.2) && decide (e.2 < a + W)).length ≤ N := by
  intro L
  induction L with
  | nil => intro _; simp
  | cons e L ih =>
    intro h
    rw [List.filter_cons]
    split
    · rename_i he
      simp only [Bool.and_eq_true, Bool.not_eq_true', decide_eq_true_eq] at he
      obtain ⟨⟨h1, h2⟩, h3⟩ := he
      obtain ⟨hN, hx⟩ := h.2.1 h1
      have hd : ((L.drop (N - 1)).filter fun e => !e.1 && decide (a ≤ e.2) && decide (e.2 < a + W)) = [] := by
        rw [List.filter_eq_nil_iff]
        intro y hy
        obtain ⟨i, hi, rfl⟩ := List.getElem_of_mem hy
        have hpw := goodLog_sorted h.2.2
        have hlen : N - 1 < L.length := by
          rw [List.length_drop] at hi; omega
        have hfirst := hx L[N - 1] (by rw [List.getElem?_eq_getElem hlen])
        have hle : ((L.drop (N - 1))[i]).2 ≤ (L[N - 1]).2 := by
          rw [List.getElem_drop]
          rcases Nat.eq_zero_or_pos i with rfl | hpos
          · exact le_refl _
          · exact List.pairwise_iff_getElem.mp hpw (N - 1) (N - 1 + i) hlen (by rw [List.length_drop] at hi; omega) (by omega)
        simp only [Bool.and_eq_true, Bool.not_eq_true', decide_eq_true_eq, not_and, not_lt]
        intro hc
        exfalso
        have := hc.2
        linarith
      have hsplit : (L.filter fun e => !e.1 && decide (a ≤ e.2) && decide (e.2 < a + W)) =
          (L.take (N - 1)).filter fun e => !e.1 && decide (a ≤ e.2) && decide (e.2 < a + W) := by
        conv_lhs => rw [← List.take_append_drop (N - 1) L]
        rw [List.filter_append, hd, List.append_nil]
      rw [List.length_cons, hsplit]
      have := (List.length_filter_le (fun e : Bool × ℚ => !e.1 && decide (a ≤ e.2) && decide (e.2 < a + W)) (L.take (N - 1)))
      rw [List.length_take] at this
      omega
    · exact ih h.2.2

theorem performed_total (s : St) (op : Op) (t : Nat) : ∀ e ∈ performed c s op t, e.2 = totalFilament c s t := by
  intro e he
  unfold performed at he
  split at he
  · cases op <;> simp only [List.not_mem_nil] at he
    all_goals
      split at he
      · simp only [List.mem_singleton] at he; rw [he]
      · simp at he
  · simp at he

theorem performed_length (s : St) (op : Op) (t : Nat) : performed c s op t = [] ∨ ∃ e, performed c s op t = [e] := by
  unfold performed
  split
  · cases op <;> first | exact Or.inl rfl | skip
    all_goals
      dsimp only
      split
      · exact Or.inr ⟨_, rfl⟩
      · exact Or.inl rfl
  · exact Or.inl rfl

/-- A retraction that is subject to the limit keeps its distance. -/
theorem performed_far (hs : Sane c) (N : Nat) (W : ℚ) (s : St) (op : Op) (hN : LimitIs N W op) (t : Nat)
    (L : List (Bool × ℚ)) (h : (absHist s t).take N = (L.map Prod.snd).take N) (T : ℚ)
    (he : performed c s op t = [(false, T)]) :
    0 < N ∧ ∀ x, L[N - 1]? = some x → x.2 + W * c.area t ≤ T := by
  have hT : T = totalFilament c s t := performed_total s op t (false, T) (by rw [he]; simp)
  unfold performed at he
  split at he
  · rename_i ht
    subst ht
    cases op with
    | retraction r f w d =>
      dsimp only at he
      split at he
      · rename_i hacc
        simp only [List.cons.injEq, Prod.mk.injEq, and_true] at he
        obtain ⟨hcm, hw⟩ := hN.2 he.1
        obtain ⟨h0, hfar⟩ := (retraction_hist hs s r f w d).2.2.1 hacc he.1
        rw [hcm] at h0 hfar
        rw [hw] at hfar
        refine ⟨h0, fun x hx => ?_⟩
        rw [hT]
        apply hfar
        have hg : (L.map Prod.snd)[N - 1]? = some x.2 := by rw [List.getElem?_map, hx]; rfl
        have h1 := congrArg (fun l : List ℚ => l[N - 1]?) h
        simp only [List.getElem?_take] at h1
        rw [if_pos (by omega), if_pos (by omega), hg] at h1
        exact h1
      · simp at he
    | switch u r hop => dsimp only at he; split at he <;> simp at he
    | wipe w => dsimp only at he; split at he <;> simp at he
    | _ => simp at he
  · simp at he

theorem log_run (hs : Sane c) (N : Nat) (W : ℚ) (t : Nat) (ops : List Op) : ∀ (s : St) (L : List (Bool × ℚ)),
    (∀ op ∈ ops, LimitIs N W op) → (∀ op ∈ ops, PrimesForward op) → AllAllowed c s ops → Inv c s → PrimesOk s →
    (absHist s t).take N = (L.map Prod.snd).take N → (∀ x ∈ L, x.2 ≤ totalFilament c s t) → GoodLog N (W * c.area t) L →
    GoodLog N (W * c.area t) (retrLog c t s ops L) := by
  induction ops with
  | nil => intro s L _ _ _ _ _ _ _ h; exact h
  | cons op ops ih =>
    intro s L hN hp ha hi ho hh hle hg
    have hN1 := hN op (by simp)
    have hp1 := hp op (by simp)
    obtain ⟨hi', htot⟩ := acct_step hs s op ha.1 hi
    have hmono : totalFilament c s t ≤ totalFilament c (step c s op) t := by
      rw [htot t]; linarith [charged_nonneg hs s op ha.1 hp1 ho t]
    refine ih (step c s op) (performed c s op t ++ L) (fun o h => hN o (List.mem_cons_of_mem _ h))
      (fun o h => hp o (List.mem_cons_of_mem _ h)) ha.2 hi' (primesOk_step hs s op hp1 ho)
      (hist_step hs N s op W hN1 t L hh) ?_ ?_
    · intro x hx
      rcases List.mem_append.mp hx with hx | hx
      · rw [performed_total s op t x hx]; exact hmono
      · exact (hle x hx).trans hmono
    · rcases performed_length (c := c) s op t with h0 | ⟨e, h0⟩
      · rw [h0]; exact hg
      · rw [h0]
        have hT : e.2 = totalFilament c s t := performed_total s op t e (by rw [h0]; simp)
        refine ⟨fun x hx => by rw [hT]; exact hle x hx, fun he => ?_, hg⟩
        exact performed_far hs N W s op hN1 t L hh e.2 (by rw [h0, ← he])

end Verif.GCode
