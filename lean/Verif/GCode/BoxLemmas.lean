import Verif.GCode.MotionLemmas

/-! # Lemmas for the bounding box: an induction principle over the primitive steps of the exporter -/

namespace Verif.GCode

variable {c : Cfg}

theorem xyWords_append (a b : List Cmd) : xyWords (a ++ b) = xyWords a ++ xyWords b := by simp [xyWords]
theorem zWords_append (a b : List Cmd) : zWords (a ++ b) = zWords a ++ zWords b := by simp [zWords]

/-- Steps without X, Y, Z words that keep the recorded position, the extruder and the box. -/
structure QuietW (s s' : St) : Prop where
  pos : s'.pos = s.pos
  cur : s'.cur = s.cur
  box : s'.box = s.box
  xy : xyWords s'.out = xyWords s.out
  z : zWords s'.out = zWords s.out

theorem QuietW.refl (s : St) : QuietW s s := ⟨rfl, rfl, rfl, rfl, rfl⟩

theorem QuietW.trans {s s' s'' : St} (h : QuietW s s') (h' : QuietW s' s'') : QuietW s s'' :=
  ⟨h'.pos.trans h.pos, h'.cur.trans h.cur, h'.box.trans h.box, h'.xy.trans h.xy, h'.z.trans h.z⟩

theorem quietW_same {s s' : St} (hp : s'.pos = s.pos) (hc : s'.cur = s.cur) (hb : s'.box = s.box)
    (ho : s'.out = s.out) : QuietW s s' := ⟨hp, hc, hb, by rw [ho], by rw [ho]⟩

theorem quietW_upd (s : St) (t f) : QuietW s (s.upd t f) := quietW_same rfl rfl rfl rfl

theorem quietW_emit (s : St) (k : Cmd) (hk : (match k with | .move xy z _ _ => (xy, z) | _ => (none, none)) = (none, none)) :
    QuietW s (s.emit k) := by
  refine ⟨rfl, rfl, rfl, ?_, ?_⟩
  · rw [emit_out, xyWords_append]
    cases k with
    | move xy z f e => simp only [Prod.mk.injEq] at hk; rw [hk.1]; simp [xyWords]
    | _ => simp [xyWords]
  · rw [emit_out, zWords_append]
    cases k with
    | move xy z f e => simp only [Prod.mk.injEq] at hk; rw [hk.2]; simp [zWords]
    | _ => simp [zWords]

/-- What a move line does to words and box. -/
structure MovedW (c : Cfg) (s s' : St) (p : P3) : Prop where
  pos : s'.pos = p
  cur : s'.cur = s.cur
  box : s'.box = s.box.incl ⟨(gcodePos c s p.x p.y).1, (gcodePos c s p.x p.y).2, p.z⟩
  xy : xyWords s'.out = xyWords s.out ++ [gcodePos c s p.x p.y] ∨
    (xyWords s'.out = xyWords s.out ∧ p.x = s.pos.x ∧ p.y = s.pos.y)
  z : zWords s'.out = zWords s.out ++ [p.z] ∨ (zWords s'.out = zWords s.out ∧ p.z = s.pos.z)

theorem movedW_writeFXYZE (s : St) (speed : ℚ) (p : P3) (e : ℚ) (r : Option Amounts) :
    MovedW c s (writeFXYZE c s speed p e r) p := by
  obtain ⟨s2, ew, xy, heq, hxy, hcur, _, _, _, _, hbox, hout⟩ := writeFXYZE_eq (c := c) s speed p e r
  rw [heq]
  refine ⟨rfl, hcur, hbox, ?_, ?_⟩
  · show xyWords (s2.out ++ [_]) = _ ∨ (xyWords (s2.out ++ [_]) = _ ∧ _)
    rw [xyWords_append, hout]
    rcases hxy with rfl | ⟨rfl, hx, hy⟩
    · left; simp [xyWords]
    · right; exact ⟨by simp [xyWords], hx, hy⟩
  · show zWords (s2.out ++ [_]) = _ ∨ (zWords (s2.out ++ [_]) = _ ∧ _)
    rw [zWords_append, hout]
    by_cases hz : p.z = s.pos.z
    · right; exact ⟨by simp [zWords, hz], hz⟩
    · left; simp [zWords, hz]

/-- Preservation of `I` by the primitive steps. `split`: whether split hop ends are allowed. -/
structure Prims (c : Cfg) (split : Prop) (I : St → Prop) : Prop where
  quiet : ∀ s s', QuietW s s' → I s → I s'
  moved : ∀ s s' p, MovedW c s s' p → I s → I s'
  hopEnd : ∀ s, (split ∨ s.pos.z = s.layerZ) → I s → I { s with pos := { s.pos with z := s.layerZ } }

variable {split : Prop} {I : St → Prop}

theorem prims_script (H : Prims c split I) (s : St) (b : Bool) (h : I s) : I (script s b) := by
  unfold script; split
  · exact H.quiet _ _ (quietW_emit s .code rfl) h
  · exact h

theorem quietW_resetExtrusion (s : St) : QuietW s (resetExtrusion c s) := by
  unfold resetExtrusion
  simp only
  have h1 : QuietW s (if c.relative then s else s.emit .g92) := by
    split
    · exact .refl s
    · exact quietW_emit s _ rfl
  exact h1.trans (quietW_same rfl rfl rfl rfl)

theorem quietW_eLine (s : St) (f : Option ℚ) (e : Option ℚ) (v : ℚ) :
    QuietW s { s.emit (.move none none f e) with speed := v } :=
  (quietW_emit s (.move none none f e) rfl).trans (quietW_same rfl rfl rfl rfl)

theorem quietW_primeLines (s : St) : QuietW s (primeLines c s) := by
  have h1 : ∀ v, QuietW s { s with e := v } := fun v => quietW_same rfl rfl rfl rfl
  unfold primeLines
  simp only
  split
  · split
    · split
      · exact (h1 (s.e + mm3ToE c s s.a.prime)).trans ((quietW_emit _ .g11 rfl).trans (quietW_eLine _ _ _ _))
      · exact (h1 _).trans (quietW_emit _ .g11 rfl)
    · refine (h1 (s.e + mm3ToE c s s.a.prime + s.a.retrCur)).trans ?_
      exact quietW_eLine _ _ _ _
  · split
    · exact (h1 (s.e + mm3ToE c s s.a.prime)).trans (quietW_eLine _ _ _ _)
    · exact h1 _

theorem quietW_unretract (s : St) : QuietW s (unretract c s) := by
  have hb : ∀ s : St, QuietW s (bigReset c s) := by
    intro s; unfold bigReset; split
    · exact quietW_resetExtrusion s
    · exact .refl s
  have hc : ∀ s : St, QuietW s (clearRetracted s) := by
    intro s; unfold clearRetracted; split
    · exact quietW_same rfl rfl rfl rfl
    · exact .refl s
  unfold unretract
  simp only
  exact (quietW_primeLines s).trans ((quietW_upd _ _ _).trans ((hb _).trans (hc _)))

theorem quietW_retraction (s : St) (r : RConfig) (force switch : Bool) (dist : Option ℚ) :
    QuietW s (retraction c s r force switch dist).1 := by
  unfold retraction
  split
  · split
    · simp only
      split
      · exact (quietW_emit s .other rfl).trans (quietW_same rfl rfl rfl rfl)
      · exact quietW_same rfl rfl rfl rfl
    · exact .refl s
  · split
    · exact quietW_same rfl rfl rfl rfl
    · simp only
      split
      · exact quietW_same rfl rfl rfl rfl
      · split
        · split
          · exact quietW_same rfl rfl rfl rfl
          · dsimp only
            refine QuietW.trans ?_ (quietW_upd _ _ _)
            refine QuietW.trans ?_ (quietW_emit _ .g10 rfl)
            exact quietW_upd _ _ _
        · dsimp only
          refine QuietW.trans ?_ (quietW_upd _ _ _)
          refine QuietW.trans ?_ (quietW_eLine _ _ _ _)
          exact quietW_same rfl rfl rfl rfl

theorem prims_writeZhop (H : Prims c split I) (s : St) (speed : ℚ) (height : Int) (r : Option ℚ) (h : I s) :
    I (writeZhop c s speed height r) := by
  have hm := movedW_writeFXYZE (c := c) { s with hop := height } (if speed = 0 then c.zhopSpeed s.cur else speed)
    ⟨s.pos.x, s.pos.y, s.layerZ + height⟩ s.e (some (hopAmounts c s r))
  have h1 : I { s with hop := height } := H.quiet s _ (quietW_same rfl rfl rfl rfl) h
  have h2 := H.moved _ _ _ hm h1
  have hq : QuietW (writeFXYZE c { s with hop := height } (if speed = 0 then c.zhopSpeed s.cur else speed)
    ⟨s.pos.x, s.pos.y, s.layerZ + height⟩ s.e (some (hopAmounts c s r))) (writeZhop c s speed height r) := by
    refine ⟨rfl, rfl, ?_, rfl, rfl⟩
    show (writeFXYZE c { s with hop := height } (if speed = 0 then c.zhopSpeed s.cur else speed)
      ⟨s.pos.x, s.pos.y, s.layerZ + height⟩ s.e (some (hopAmounts c s r))).box.inclZ (s.layerZ + height) = _
    rw [hm.box]
    exact box_incl_inclZ _ ⟨_, _, s.layerZ + height⟩
  exact H.quiet _ _ hq h2

theorem writeZhop_frame (s : St) (speed : ℚ) (height : Int) (r : Option ℚ) :
    (writeZhop c s speed height r).pos.z = s.layerZ + height ∧ (writeZhop c s speed height r).layerZ = s.layerZ := by
  have h := moved_writeZhop (P := ⟨true, id, id⟩) (p0 := ⟨0, 0, 0, 0, 0, 0, fun _ => 0⟩) (c := c) s speed height r
  exact ⟨by rw [h.pos], h.layerZ⟩

theorem prims_zhopStart (H : Prims c split I) (s : St) (h : Int) (speed : ℚ) (r : Option ℚ) (ratio : ℚ) (hi : I s) :
    I (zhopStart c s h speed r ratio) := by
  have h0 : ∀ (s : St) h, I s → I (zhopStart0 c s h speed r) := by
    intro s h hi
    unfold zhopStart0; split
    · exact prims_writeZhop H _ _ _ _ hi
    · exact hi
  unfold zhopStart; split
  · exact h0 _ _ (h0 _ _ hi)
  · exact h0 _ _ hi

theorem prims_zhopEnd0 (H : Prims c split I) (s : St) (speed : ℚ) (h : Int) (r : Option ℚ) (hs : split ∨ h = 0)
    (hi : I s) : I (zhopEnd0 c s speed h r) := by
  unfold zhopEnd0; split
  · have hf := writeZhop_frame (c := c) s speed h r
    refine H.hopEnd _ ?_ (prims_writeZhop H _ _ _ _ hi)
    rcases hs with hs | hs
    · exact Or.inl hs
    · right; rw [hf.1, hf.2, hs]; simp
  · exact hi

theorem prims_zhopEnd (H : Prims c split I) (s : St) (speed : ℚ) (hs : split ∨ SplitFree s) (hi : I s) :
    I (zhopEnd c s speed 0 none 0) := by
  have h1 : ∀ (s : St) (r : Option ℚ) (q : ℚ), (split ∨ ¬ (0 < q ∧ q < 1)) → I s → I (zhopEnd1 c s speed 0 r q) := by
    intro s r q hq hi
    unfold zhopEnd1; split
    · split
      · rename_i hc
        rcases hq with hq | hq
        · exact prims_zhopEnd0 H _ _ _ _ (Or.inl hq) (prims_zhopEnd0 H _ _ _ _ (Or.inl hq) hi)
        · exact absurd hc.2 hq
      · exact prims_zhopEnd0 H _ _ _ _ (Or.inr rfl) hi
    · exact hi
  unfold zhopEnd
  apply h1 _ _ _ (Or.inr (by simp))
  cases hl : s.leftover with
  | none => exact hi
  | some l =>
    apply h1
    · rcases hs with hs | hs
      · exact Or.inl hs
      · exact Or.inr (hs l hl)
    · exact H.quiet s _ (quietW_same rfl rfl rfl rfl) hi

theorem prims_travel (H : Prims c split I) (hb : c.flavor ≠ .BFB) (s : St) (p : P3) (speed : ℚ) (r : Option ℚ)
    (hi : I s) : I (travel c s p speed r) := by
  unfold travel
  rw [if_neg hb]
  simp only
  split
  · exact hi
  · exact H.moved _ _ _ (movedW_writeFXYZE _ _ _ _ _) hi

theorem prims_extrude (H : Prims c split I) (hb : c.flavor ≠ .BFB) (s : St) (p : P3) (speed mm3 : ℚ) (u : Bool)
    (hs : split ∨ SplitFree s) (hi : I s) : I (extrude c s p speed mm3 u) := by
  by_cases hp : s.pos = p
  · unfold extrude; rw [if_neg hb, if_pos hp]; exact hi
  · obtain ⟨e, he⟩ := extrude_eq (c := c) s p speed mm3 u hb hp
    rw [he]
    refine H.moved _ _ _ (movedW_writeFXYZE _ _ _ _ _) ?_
    unfold preExtrude
    simp only
    refine H.quiet _ _ (quietW_upd _ _ _) ?_
    have h1 : I (if 0 < s.hop then zhopEnd c s 0 0 none 0 else s) := by
      split
      · exact prims_zhopEnd H _ _ hs hi
      · exact hi
    generalize (if 0 < s.hop then zhopEnd c s 0 0 none 0 else s) = s1 at h1 ⊢
    have h2 := H.quiet _ _ (quietW_unretract (c := c) s1) h1
    refine H.quiet (unretract c s1) _ ?_ h2
    unfold updateOffset
    split
    · exact (quietW_emit (unretract c s1) .note rfl).trans (quietW_same rfl rfl rfl rfl)
    · exact .refl _

theorem prims_wipeMoves (H : Prims c split I) (hb : c.flavor ≠ .BFB) (w : WipeCfg) (n : Nat) :
    ∀ (i : Nat) (s : St), I s → I (wipeMoves c w n i s) := by
  induction n with
  | zero => intro i s hi; exact hi
  | succ n ih => intro i s hi; exact ih _ _ (prims_travel H hb s _ _ _ hi)

theorem prims_wipe (H : Prims c split I) (hb : c.flavor ≠ .BFB) (s : St) (w : WipeCfg)
    (hs : split ∨ SplitFree s) (hi : I s) : I (wipe c s w) := by
  unfold wipe
  simp only
  refine H.quiet _ _ (quietW_emit _ .note rfl) ?_
  have h0 := H.quiet s _ (quietW_emit s .note rfl) hi
  have l0 : (s.emit .note).leftover = s.leftover := rfl
  generalize s.emit .note = s0 at h0 l0 ⊢
  have h1 : I (if w.retractionEnable then (retraction c s0 w.rconfig false false none).1 else s0) := by
    split
    · exact H.quiet _ _ (quietW_retraction _ _ _ _ _) h0
    · exact h0
  have l1 : (if w.retractionEnable then (retraction c s0 w.rconfig false false none).1 else s0).leftover = s.leftover := by
    split
    · exact (quiet_retraction (P := ⟨true, id, id⟩) (p0 := ⟨0, 0, 0, 0, 0, 0, fun _ => 0⟩) s0 _ _ _ _).leftover.trans l0
    · exact l0
  generalize (if w.retractionEnable then (retraction c s0 w.rconfig false false none).1 else s0) = s1 at h1 l1 ⊢
  have h2 : I (if w.hopEnable then zhopStart c s1 w.hopAmount w.hopSpeed none 0 else s1) := by
    split
    · exact prims_zhopStart H _ _ _ _ _ h1
    · exact h1
  have l2 : (if w.hopEnable then zhopStart c s1 w.hopAmount w.hopSpeed none 0 else s1).leftover = s.leftover := by
    split
    · rw [zhopStart_leftover, l1]
    · exact l1
  generalize (if w.hopEnable then zhopStart c s1 w.hopAmount w.hopSpeed none 0 else s1) = s2 at h2 l2 ⊢
  have h4 := prims_wipeMoves H hb w w.repeatCount 0 _ (prims_travel H hb s2 ⟨w.brushX, s2.pos.y, s2.layerZ⟩ w.moveSpeed none h2)
  have l4 : (wipeMoves c w w.repeatCount 0 (travel c s2 ⟨w.brushX, s2.pos.y, s2.layerZ⟩ w.moveSpeed none)).leftover =
      s.leftover := by
    have : ∀ n i (s : St), (wipeMoves c w n i s).leftover = s.leftover := by
      intro n
      induction n with
      | zero => intro i s; rfl
      | succ n ih =>
        intro i s
        unfold wipeMoves
        rw [ih]
        exact (travel_frame _ _ _ _).2.2.2.2
    rw [this, (travel_frame _ _ _ _).2.2.2.2, l2]
  unfold travelXY
  generalize wipeMoves c w w.repeatCount 0 (travel c s2 ⟨w.brushX, s2.pos.y, s2.layerZ⟩ w.moveSpeed none) = s4 at h4 l4 ⊢
  have h5 := prims_travel H hb s4 s.pos w.moveSpeed none h4
  have l5 : (travel c s4 s.pos w.moveSpeed none).leftover = s.leftover := (travel_frame _ _ _ _).2.2.2.2.trans l4
  generalize travel c s4 s.pos w.moveSpeed none = s5 at h5 l5 ⊢
  have h6 : I (if w.hopEnable then zhopEnd c s5 w.hopSpeed 0 none 0 else s5) := by
    split
    · refine prims_zhopEnd H _ _ ?_ h5
      rcases hs with hs | hs
      · exact Or.inl hs
      · exact Or.inr (splitFree_same l5 hs)
    · exact h5
  generalize (if w.hopEnable then zhopEnd c s5 w.hopSpeed 0 none 0 else s5) = s6 at h6 ⊢
  split
  · exact H.quiet _ _ (quietW_unretract _) h6
  · exact h6

/-- The shift of the recorded position at a tool change, given that it preserves `I`. -/
theorem prims_start (H : Prims c split I) (s : St) (t : Nat)
    (Ht : ∀ (s s' : St) (t : Nat), s'.pos.x = s.pos.x + ((c.offset t).1 - (c.offset s.cur).1) →
      s'.pos.y = s.pos.y + ((c.offset t).2 - (c.offset s.cur).2) → s'.pos.z = s.pos.z + 1 → s'.cur = t →
      s'.box = s.box → xyWords s'.out = xyWords s.out → zWords s'.out = zWords s.out → I s → I s')
    (hi : I s) : I (startExtruder c s t) := by
  have hsc : ∀ (s : St) b, QuietW s (script s b) := by
    intro s b; unfold script; split
    · exact quietW_emit s .code rfl
    · exact .refl s
  have key : ∃ s2 : St, QuietW s s2 ∧ (startExtruder c s t).pos.x = s2.pos.x + ((c.offset t).1 - (c.offset s2.cur).1) ∧
      (startExtruder c s t).pos.y = s2.pos.y + ((c.offset t).2 - (c.offset s2.cur).2) ∧
      (startExtruder c s t).pos.z = s2.pos.z + 1 ∧ (startExtruder c s t).cur = t ∧ (startExtruder c s t).box = s2.box ∧
      xyWords (startExtruder c s t).out = xyWords s2.out ∧ zWords (startExtruder c s t).out = zWords s2.out := by
    have h1 := hsc s (c.prestartCode t)
    have h2 := h1.trans (quietW_same (s' := (script s (c.prestartCode t)).upd t fun a => { a with used := true })
      rfl rfl rfl rfl)
    have h3 : QuietW s (if t ≠ ((script s (c.prestartCode t)).upd t fun a => { a with used := true }).cur then
        ((script s (c.prestartCode t)).upd t fun a => { a with used := true }).emit (.tool t)
        else (script s (c.prestartCode t)).upd t fun a => { a with used := true }) := by
      split
      · exact h2.trans (quietW_emit _ (.tool t) rfl)
      · exact h2
    refine ⟨_, h3, ?_⟩
    unfold startExtruder
    simp only
    generalize (if t ≠ ((script s (c.prestartCode t)).upd t fun a => { a with used := true }).cur then
        ((script s (c.prestartCode t)).upd t fun a => { a with used := true }).emit (.tool t)
        else (script s (c.prestartCode t)).upd t fun a => { a with used := true }) = s3
    have hq := fun s4 : St => (quietW_resetExtrusion (c := c) s4).trans (hsc (resetExtrusion c s4) (c.startCode t))
    refine ⟨?_, ?_, ?_, ?_, ?_, ?_, ?_⟩
    · simp only [(hq _).pos]
    · simp only [(hq _).pos]
    · simp only [(hq _).pos]
    · simp only [(hq _).cur]
    · simp only [(hq _).box]
    · simp only [(hq _).xy]
    · simp only [(hq _).z]
  obtain ⟨s2, hq, hx, hy, hz, hc, hb, hxy, hzw⟩ := key
  exact Ht s2 _ t hx hy hz hc hb hxy hzw (H.quiet _ _ hq hi)

/-- Preservation by every call other than tool changes. -/
theorem prims_step (H : Prims c split I) (hb : c.flavor ≠ .BFB) (s : St) (op : Op) (hs : split ∨ SplitFree s)
    (Ht : (∃ t r h, op = .switch t r h) ∨ (∃ t, op = .start t) →
      ∀ (s s' : St) (t : Nat), s'.pos.x = s.pos.x + ((c.offset t).1 - (c.offset s.cur).1) →
      s'.pos.y = s.pos.y + ((c.offset t).2 - (c.offset s.cur).2) → s'.pos.z = s.pos.z + 1 → s'.cur = t →
      s'.box = s.box → xyWords s'.out = xyWords s.out → zWords s'.out = zWords s.out → I s → I s')
    (hi : I s) : I (step c s op) := by
  cases op with
  | travel p v r => exact prims_travel H hb _ _ _ _ hi
  | extrude p v m u => exact prims_extrude H hb _ _ _ _ _ hs hi
  | retraction r f w d => exact H.quiet _ _ (quietW_retraction _ _ _ _ _) hi
  | unretract => exact H.quiet _ _ (quietW_unretract _) hi
  | zhopStart h v r ra => exact prims_zhopStart H _ _ _ _ _ hi
  | zhopEnd v => exact prims_zhopEnd H _ _ hs hi
  | setLeftover a r => exact H.quiet s _ (quietW_same rfl rfl rfl rfl) hi
  | setZ z => exact H.quiet s _ (quietW_same rfl rfl rfl rfl) hi
  | addPrime v => exact H.quiet s _ (quietW_same rfl rfl rfl rfl) hi
  | setFlow m f => exact H.quiet s _ (quietW_same rfl rfl rfl rfl) hi
  | resetExtrusion => exact H.quiet _ _ (quietW_resetExtrusion _) hi
  | switch t r h =>
    show I (switchExtruder c s t r h)
    unfold switchExtruder
    split
    · exact hi
    · simp only
      apply prims_start H _ _ (Ht (Or.inl ⟨t, r, h, rfl⟩))
      apply prims_script H
      refine H.quiet _ _ (quietW_resetExtrusion _) ?_
      have h1 : I (if c.retractionEnable s.cur then (retraction c s r true true none).1 else s) := by
        split
        · exact H.quiet _ _ (quietW_retraction _ _ _ _ _) hi
        · exact hi
      generalize (if c.retractionEnable s.cur then (retraction c s r true true none).1 else s) = s1 at h1 ⊢
      split
      · exact prims_zhopStart H _ _ _ _ _ h1
      · exact h1
  | start t => exact prims_start H s t (Ht (Or.inr ⟨t, rfl⟩)) hi
  | wipe w => exact prims_wipe H hb _ _ hs hi

end Verif.GCode
