import Verif.GCode.AcctLemmas

/-! # Lemmas on the E words: every call is a path of primitive steps -/

namespace Verif.GCode

variable {c : Cfg}

/-- Lines without influence on the filament. -/
def Cmd.silent : Cmd → Bool
  | .move _ _ _ none => true
  | .g10 => true
  | .g11 => true
  | .code => true
  | .note => true
  | .other => true
  | _ => false

def St.flow (s : St) : ℚ × ℚ × ℚ := (s.eOff, s.maxOff, s.offFactor)

/-- Recorded totals and retraction starting points unchanged. -/
def TSame (s s' : St) : Prop :=
  ∀ t, (s'.attr t).total = (s.attr t).total ∧ (s'.attr t).retrStart = (s.attr t).retrStart

theorem TSame.refl (s : St) : TSame s s := fun _ => ⟨rfl, rfl⟩

theorem TSame.trans {s s' s'' : St} (h : TSame s s') (h' : TSame s' s'') : TSame s s'' :=
  fun t => ⟨(h' t).1.trans (h t).1, (h' t).2.trans (h t).2⟩

theorem tsame_attr {s s' : St} (h : s'.attr = s.attr) : TSame s s' := fun t => by rw [h]; exact ⟨rfl, rfl⟩

theorem tsame_upd (s : St) (t : Nat) (f : Attr → Attr) (h : ∀ a, (f a).total = a.total ∧ (f a).retrStart = a.retrStart) :
    TSame s (s.upd t f) := by
  intro u
  by_cases hu : u = t
  · simp only [St.upd, hu, if_true]; exact h _
  · simp [St.upd, hu]

structure QuietE (s s' : St) : Prop where
  cur : s'.cur = s.cur
  e : s'.e = s.e
  t : TSame s s'
  flow : s'.flow = s.flow
  out : ∃ ks : List Cmd, s'.out = s.out ++ ks ∧ ∀ k ∈ ks, k.silent = true

structure WordE (c : Cfg) (s s' : St) : Prop where
  cur : s'.cur = s.cur
  t : TSame s s'
  flow : s'.flow = s.flow
  out : ∃ xy z f, s'.out = s.out ++ [.move xy z f (some (if c.relative then s'.e - s.e else s'.e))]

structure ToolE (s s' : St) : Prop where
  e : s.e = 0
  e' : s'.e = 0
  t : TSame s s'
  flow : s'.flow = s.flow
  out : s'.out = s.out ++ [.tool s'.cur]

inductive EPath (c : Cfg) : St → St → Prop
  | refl (s : St) : EPath c s s
  | quiet {s s' s'' : St} : EPath c s s' → QuietE s' s'' → EPath c s s''
  | word {s s' s'' : St} : EPath c s s' → WordE c s' s'' → EPath c s s''
  | reset {s s' : St} : EPath c s s' → EPath c s (resetExtrusion c s')
  | tool {s s' s'' : St} : EPath c s s' → ToolE s' s'' → EPath c s s''

theorem EPath.trans {s s' s'' : St} (h : EPath c s s') (h' : EPath c s' s'') : EPath c s s'' := by
  induction h' with
  | refl => exact h
  | quiet _ q ih => exact ih.quiet q
  | word _ w ih => exact ih.word w
  | reset _ ih => exact ih.reset
  | tool _ t ih => exact ih.tool t

theorem QuietE.path {s s' : St} (h : QuietE s s') : EPath c s s' := (EPath.refl s).quiet h
theorem WordE.path {s s' : St} (h : WordE c s s') : EPath c s s' := (EPath.refl s).word h

theorem reset_flow (s : St) : (resetExtrusion c s).flow = s.flow := by
  obtain ⟨_, _, _, ho, hm, hf, _⟩ := resetExtrusion_fields (c := c) s
  unfold St.flow; rw [ho, hm, hf]

theorem EPath.flow {s s' : St} (h : EPath c s s') : s'.flow = s.flow := by
  induction h with
  | refl => rfl
  | quiet _ q ih => rw [q.flow, ih]
  | word _ w ih => rw [w.flow, ih]
  | reset _ ih => rw [reset_flow, ih]
  | tool _ t ih => rw [t.flow, ih]

/-- Nothing written. -/
theorem quietE_same {s s' : St} (hc : s'.cur = s.cur) (he : s'.e = s.e) (ht : TSame s s') (hf : s'.flow = s.flow)
    (ho : s'.out = s.out) : QuietE s s' := ⟨hc, he, ht, hf, [], by simp [ho], by simp⟩

theorem quietE_upd (s : St) (t : Nat) (f : Attr → Attr) (h : ∀ a, (f a).total = a.total ∧ (f a).retrStart = a.retrStart) :
    QuietE s (s.upd t f) := quietE_same rfl rfl (tsame_upd s t f h) rfl rfl

theorem quietE_emit (s : St) (k : Cmd) (hk : k.silent = true) : QuietE s (s.emit k) :=
  ⟨rfl, rfl, .refl s, rfl, [k], rfl, by simpa using hk⟩

theorem epath_same {s s' : St} (hc : s'.cur = s.cur := by rfl) (he : s'.e = s.e := by rfl)
    (ht : TSame s s' := by intro t; exact ⟨rfl, rfl⟩) (hf : s'.flow = s.flow := by rfl) (ho : s'.out = s.out := by rfl) :
    EPath c s s' := (quietE_same hc he ht hf ho).path

theorem epath_upd (s : St) (t : Nat) (f : Attr → Attr)
    (h : ∀ a, (f a).total = a.total ∧ (f a).retrStart = a.retrStart := by intro a; exact ⟨rfl, rfl⟩) :
    EPath c s (s.upd t f) := (quietE_upd s t f h).path

theorem epath_emit (s : St) (k : Cmd) (hk : k.silent = true := by rfl) : EPath c s (s.emit k) := (quietE_emit s k hk).path

/-- A line. -/
theorem epath_line (s s3 s' : St) (xy z f) (ew : Option ℚ) (hc : s'.cur = s.cur) (ht : TSame s s') (hf : s'.flow = s.flow)
    (he : s3.e = s'.e) (hout : s'.out = s.out ++ [.move xy z f ew])
    (hw : (ew = none ∧ s3.e = s.e) ∨ ew = some (if c.relative then s3.e - s.e else s3.e)) : EPath c s s' := by
  rcases hw with ⟨rfl, h⟩ | rfl
  · exact QuietE.path ⟨hc, by rw [← he, h], ht, hf, _, hout, by simp [Cmd.silent]⟩
  · rw [he] at hout
    exact WordE.path ⟨hc, ht, hf, xy, z, f, hout⟩

theorem eWord_path (s : St) (e : ℚ) (r : Option Amounts) (ho : r = none → s.eOff = 0) :
    (((eWord c s e r).1 = none ∧ (eWord c s e r).2.e = s.e) ∨
      (eWord c s e r).1 = some (if c.relative then (eWord c s e r).2.e - s.e else (eWord c s e r).2.e)) ∧
    TSame s (eWord c s e r).2 ∧ (eWord c s e r).2.flow = s.flow ∧ (eWord c s e r).2.cur = s.cur ∧
    (eWord c s e r).2.out = s.out := by
  unfold eWord
  cases r with
  | some r =>
    dsimp only
    split
    · refine ⟨Or.inr ?_, ?_, rfl, rfl, rfl⟩
      · simp only [rawRetract, St.upd]
        split
        · rw [add_sub_cancel_left]
        · rfl
      · exact tsame_upd { s with e := s.e + r.diffE } s.cur (fun a => { a with retrCur := r.newE }) (fun a => ⟨rfl, rfl⟩)
    · exact ⟨Or.inl ⟨rfl, rfl⟩, .refl s, rfl, rfl, rfl⟩
  | none =>
    have ho := ho rfl
    dsimp only
    split
    · refine ⟨Or.inr ?_, fun t => ⟨rfl, rfl⟩, rfl, rfl, rfl⟩
      simp only [ho, add_zero]
    · exact ⟨Or.inl ⟨rfl, rfl⟩, .refl s, rfl, rfl, rfl⟩

theorem epath_writeFXYZE (s : St) (speed : ℚ) (p : P3) (e : ℚ) (r : Option Amounts) (ho : r = none → s.eOff = 0) :
    EPath c s (writeFXYZE c s speed p e r) := by
  obtain ⟨s2, ⟨hc, ha, he, hoo, hm, hof, hl, hout⟩, xy, z, f, heq⟩ := writeFXYZE_form (c := c) s speed p e r
  rw [heq]
  obtain ⟨hw, ht, hf, hcc, hoo'⟩ := eWord_path (c := c) s2 e r (fun h => by rw [hoo]; exact ho h)
  have hfl : s2.flow = s.flow := by unfold St.flow; rw [hoo, hm, hof]
  have h2 : QuietE s s2 := quietE_same hc he (tsame_attr ha) hfl hout
  refine h2.path.trans ?_
  refine epath_line s2 (eWord c s2 e r).2 _ xy z f (eWord c s2 e r).1 hcc ht hf rfl ?_ hw
  show (eWord c s2 e r).2.out ++ [_] = _
  rw [hoo']

theorem epath_writeZhop (s : St) (speed : ℚ) (h : Int) (d : Option ℚ) : EPath c s (writeZhop c s speed h d) := by
  unfold writeZhop
  simp only
  have h1 : QuietE s { s with hop := h } := quietE_same rfl rfl (.refl s) rfl rfl
  refine (h1.path.trans (epath_writeFXYZE { s with hop := h } (if speed = 0 then c.zhopSpeed s.cur else speed)
    ⟨s.pos.x, s.pos.y, s.layerZ + h⟩ s.e (some (hopAmounts c s d)) (by simp))).trans ?_
  exact epath_same

theorem epath_zhopStart0 (s : St) (h : Int) (speed : ℚ) (d : Option ℚ) : EPath c s (zhopStart0 c s h speed d) := by
  unfold zhopStart0; split
  · exact epath_writeZhop s speed h d
  · exact .refl s

theorem epath_zhopStart (s : St) (h : Int) (speed : ℚ) (d : Option ℚ) (q : ℚ) : EPath c s (zhopStart c s h speed d q) := by
  unfold zhopStart; split
  · exact (epath_zhopStart0 _ _ _ _).trans (epath_zhopStart0 _ _ _ _)
  · exact epath_zhopStart0 _ _ _ _

theorem epath_zhopEnd0 (s : St) (h : Int) (speed : ℚ) (d : Option ℚ) : EPath c s (zhopEnd0 c s speed h d) := by
  unfold zhopEnd0; split
  · exact (epath_writeZhop s speed h d).trans epath_same
  · exact .refl s

theorem epath_zhopEnd1 (s : St) (h : Int) (speed : ℚ) (d : Option ℚ) (q : ℚ) : EPath c s (zhopEnd1 c s speed h d q) := by
  unfold zhopEnd1; split
  · split
    · exact (epath_zhopEnd0 _ _ _ _).trans (epath_zhopEnd0 _ _ _ _)
    · exact epath_zhopEnd0 _ _ _ _
  · exact .refl s

theorem epath_zhopEnd (s : St) (h : Int) (speed : ℚ) (d : Option ℚ) (q : ℚ) : EPath c s (zhopEnd c s speed h d q) := by
  unfold zhopEnd
  simp only
  refine EPath.trans ?_ (epath_zhopEnd1 _ _ _ _ _)
  cases hl : s.leftover with
  | none => exact .refl s
  | some l =>
    have h1 : QuietE s { s with leftover := none } := quietE_same rfl rfl (.refl s) rfl rfl
    exact h1.path.trans (epath_zhopEnd1 _ _ _ _ _)

theorem epath_travel (hs : Sane c) (s : St) (p : P3) (speed : ℚ) (d : Option ℚ) (ho : s.eOff = 0) :
    EPath c s (travel c s p speed d) := by
  unfold travel
  simp only [hs.flavor, if_false]
  split
  · exact .refl s
  · exact epath_writeFXYZE s _ _ _ _ (fun _ => ho)

theorem epath_primeLines (s : St) : EPath c s (primeLines c s) := by
  have hA : ({ s with e := s.e + mm3ToE c s s.a.prime } : St).a = s.a := rfl
  have hz : s.a.prime = 0 → mm3ToE c s s.a.prime = 0 := by
    intro h; rw [h]; unfold mm3ToE; split <;> simp
  unfold primeLines
  simp only [hA]
  split
  · split
    · have h1 : QuietE s (s.emit .g11) := quietE_emit s _ rfl
      split
      · refine h1.path.trans (WordE.path ⟨rfl, fun t => ⟨rfl, rfl⟩, rfl, none, none, some (s.a.primeSpeed * 60), ?_⟩)
        show s.out ++ [.g11] ++ [_] = s.out ++ [.g11] ++ [_]
        simp only [List.append_cancel_left_eq, List.cons.injEq, and_true, Cmd.move.injEq, true_and, Option.some.injEq]
        refine ⟨rfl, ?_⟩
        show (if c.relative then mm3ToE c s s.a.prime else s.e + mm3ToE c s s.a.prime) = 
          (if c.relative then s.e + mm3ToE c s s.a.prime - s.e else s.e + mm3ToE c s s.a.prime)
        rw [add_sub_cancel_left]
      · rename_i hp
        simp only [ne_eq, not_not] at hp
        rw [hz hp, add_zero]
        exact h1.path
    · refine WordE.path ⟨rfl, fun t => ⟨rfl, rfl⟩, rfl, none, none, some (s.a.primeSpeed * 60), ?_⟩
      show s.out ++ [_] = s.out ++ [_]
      simp only [List.append_cancel_left_eq, List.cons.injEq, and_true, Cmd.move.injEq, true_and, Option.some.injEq]
      refine ⟨rfl, ?_⟩
      show (if c.relative then s.a.retrCur + mm3ToE c s s.a.prime else s.e + mm3ToE c s s.a.prime + s.a.retrCur) = 
          (if c.relative then s.e + mm3ToE c s s.a.prime + s.a.retrCur - s.e else s.e + mm3ToE c s s.a.prime + s.a.retrCur)
      split
      · ring
      · rfl
  · split
    · refine WordE.path ⟨rfl, fun t => ⟨rfl, rfl⟩, rfl, none, none, some (s.a.primeSpeed * 60), ?_⟩
      show s.out ++ [_] = s.out ++ [_]
      simp only [List.append_cancel_left_eq, List.cons.injEq, and_true, Cmd.move.injEq, true_and, Option.some.injEq]
      show (if c.relative then mm3ToE c s s.a.prime else s.e + mm3ToE c s s.a.prime) = 
          (if c.relative then s.e + mm3ToE c s s.a.prime - s.e else s.e + mm3ToE c s s.a.prime)
      rw [add_sub_cancel_left]
    · rename_i hp
      simp only [ne_eq, not_not] at hp
      rw [hz hp, add_zero]
      exact .refl s

theorem epath_unretract (s : St) : EPath c s (unretract c s) := by
  have hb : ∀ s : St, EPath c s (bigReset c s) := by
    intro s
    rcases bigReset_or (c := c) s with h | h <;> rw [h]
    · exact .refl s
    · exact (EPath.refl s).reset
  have hcl : ∀ s : St, EPath c s (clearRetracted s) := by
    intro s; unfold clearRetracted; split
    · exact epath_upd s _ _
    · exact .refl s
  unfold unretract
  simp only
  exact (epath_primeLines s).trans ((epath_upd _ _ _).trans ((hb _).trans (hcl _)))

/-- Without flow settings the offset stays zero. -/
theorem updateOffset_id (s : St) (v m len : ℚ) (u : Bool) (h : s.flow = (0, 0, 0)) : updateOffset s v m len u = s := by
  simp only [St.flow, Prod.mk.injEq] at h
  unfold updateOffset flowOffset
  simp [h.1, h.2.1, h.2.2]

theorem epath_extrude (hs : Sane c) (s : St) (p : P3) (v m : ℚ) (u : Bool) (h : s.flow = (0, 0, 0)) :
    EPath c s (extrude c s p v m u) := by
  unfold extrude
  rw [if_neg hs.flavor]
  split
  · exact .refl s
  · simp only
    have h1 : EPath c s (if 0 < s.hop then zhopEnd c s 0 0 none 0 else s) := by
      split
      · exact epath_zhopEnd _ _ _ _ _
      · exact .refl s
    generalize (if 0 < s.hop then zhopEnd c s 0 0 none 0 else s) = s1 at *
    have h2 := h1.trans (epath_unretract (c := c) s1)
    generalize unretract c s1 = s2 at *
    rw [updateOffset_id s2 _ _ _ _ (by rw [h2.flow, h])]
    generalize c.len (p.x - s1.pos.x) (p.y - s1.pos.y) (p.z - s1.pos.z) = len
    have h3 := h2.trans (epath_upd s2 s2.cur (fun a => { a with lastWipe := a.lastWipe + mm3ToE c s m * len }))
    refine h3.trans (epath_writeFXYZE _ _ _ _ _ (fun _ => ?_))
    have := h3.flow
    rw [h] at this
    exact congrArg Prod.fst this

theorem epath_retraction (hs : Sane c) (s : St) (r : RConfig) (force switch : Bool) (dist : Option ℚ) :
    EPath c s (retraction c s r force switch dist).1 := by
  unfold retraction
  rw [if_neg hs.flavor]
  cases hl : limitRetraction c s r force with
  | none => exact epath_upd s s.cur (fun a => { a with hist := a.hist.take r.countMax })
  | some h =>
    simp only
    have h1 : EPath c s (s.upd s.cur fun a => { a with hist := h }) := epath_upd s _ _
    generalize (s.upd s.cur fun a => { a with hist := h }) = s1 at *
    split
    · exact h1
    · split
      · split
        · exact h1
        · dsimp only
          exact h1.trans ((epath_emit s1 .g10).trans (epath_upd (s1.emit .g10) _ _))
      · dsimp only
        generalize amounts c s1 (dist.getD r.distance) = am at *
        generalize (if am.diffE < 0 then r.speed else s1.a.primeSpeed) = v at *
        have h2 : WordE c s1 { (rawRetract c s1 am).2.emit (.move none none (some (v * 60)) (some (rawRetract c s1 am).1)) with
            speed := v } := by
          refine ⟨rfl, ?_, rfl, none, none, some (v * 60), ?_⟩
          · exact tsame_upd { s1 with e := s1.e + am.diffE } s1.cur (fun a => { a with retrCur := am.newE }) (fun a => ⟨rfl, rfl⟩)
          · show s1.out ++ [_] = s1.out ++ [_]
            have : (rawRetract c s1 am).1 = if c.relative then s1.e + am.diffE - s1.e else s1.e + am.diffE := by
              unfold rawRetract
              simp only
              rw [add_sub_cancel_left]
            rw [this]
            rfl
        exact h1.trans (h2.path.trans (epath_upd _ _ _))

theorem quietE_script (s : St) (b : Bool) : QuietE s (script s b) := by
  unfold script; split
  · exact quietE_emit s _ rfl
  · exact quietE_same rfl rfl (.refl s) rfl rfl

theorem epath_start (s : St) (t : Nat) (he : s.e = 0) : EPath c s (startExtruder c s t) := by
  unfold startExtruder
  simp only
  have h1 := quietE_script s (c.prestartCode t)
  generalize script s (c.prestartCode t) = s1 at *
  have h2 : QuietE s1 (s1.upd t fun a => { a with used := true }) := quietE_upd s1 t _ (fun a => ⟨rfl, rfl⟩)
  have h2e : (s1.upd t fun a => { a with used := true }).e = 0 := by rw [h2.e, h1.e, he]
  have h2p := h1.path.trans h2.path (c := c)
  generalize (s1.upd t fun a => { a with used := true }) = s2 at *
  have h3 : EPath c s2 { (if t ≠ s2.cur then s2.emit (.tool t) else s2) with
      pos := ⟨(if t ≠ s2.cur then s2.emit (.tool t) else s2).pos.x + ((c.offset t).1 - (c.offset (if t ≠ s2.cur then s2.emit (.tool t) else s2).cur).1),
              (if t ≠ s2.cur then s2.emit (.tool t) else s2).pos.y + ((c.offset t).2 - (c.offset (if t ≠ s2.cur then s2.emit (.tool t) else s2).cur).2),
              (if t ≠ s2.cur then s2.emit (.tool t) else s2).pos.z⟩
      cur := t } := by
    by_cases ht : t = s2.cur
    · simp only [ne_eq, ht, not_true_eq_false, if_false]
      exact epath_same
    · simp only [ne_eq, ht, not_false_eq_true, if_true]
      exact (EPath.refl s2).tool ⟨h2e, h2e, fun t => ⟨rfl, rfl⟩, rfl, rfl⟩
  have h4 := (h2p.trans h3).reset
  refine h4.trans ((quietE_script _ (c.startCode t)).path.trans ?_)
  exact epath_same

theorem epath_switch (hs : Sane c) (s : St) (t : Nat) (r : RConfig) (hop : Int) : EPath c s (switchExtruder c s t r hop) := by
  unfold switchExtruder
  split
  · exact .refl s
  · simp only
    have h1 : EPath c s (if c.retractionEnable s.cur then (retraction c s r true true none).1 else s) := by
      split
      · exact epath_retraction hs _ _ _ _ _
      · exact .refl s
    generalize (if c.retractionEnable s.cur then (retraction c s r true true none).1 else s) = s1 at *
    have h2 : EPath c s1 (if 0 < hop then zhopStart c s1 hop 0 none 0 else s1) := by
      split
      · exact epath_zhopStart _ _ _ _ _
      · exact .refl _
    generalize (if 0 < hop then zhopStart c s1 hop 0 none 0 else s1) = s2 at *
    have h3 := (h1.trans h2).reset
    have h3e : (resetExtrusion c s2).e = 0 := (resetExtrusion_fields s2).2.1
    generalize resetExtrusion c s2 = s3 at *
    have h4 := quietE_script s3 (c.endCode s3.cur)
    exact h3.trans (h4.path.trans (epath_start _ t (by rw [h4.e, h3e])))

theorem EPath.eOff {s s' : St} (h : EPath c s s') (h0 : s.eOff = 0) : s'.eOff = 0 :=
  (congrArg Prod.fst h.flow : s'.eOff = s.eOff).trans h0

theorem epath_wipeMoves (hs : Sane c) (w : WipeCfg) (n : Nat) : ∀ (i : Nat) (s : St), s.eOff = 0 →
    EPath c s (wipeMoves c w n i s) := by
  induction n with
  | zero => intro i s _; exact .refl s
  | succ n ih =>
    intro i s h0
    have h1 : EPath c s (travelXY c s (s.pos.x + (if i % 2 ≠ 0 then -w.moveDistance else w.moveDistance)) s.pos.y w.moveSpeed) :=
      epath_travel hs s _ _ _ h0
    exact h1.trans (ih _ _ (h1.eOff h0))

theorem epath_wipe (hs : Sane c) (s : St) (w : WipeCfg) (h00 : s.eOff = 0) : EPath c s (wipe c s w) := by
  unfold wipe
  simp only
  have h0 : EPath c s (s.emit .note) := (quietE_emit s _ rfl).path
  generalize s.emit .note = s0 at *
  have h1 : EPath c s0 (if w.retractionEnable then (retraction c s0 w.rconfig false false none).1 else s0) := by
    split
    · exact epath_retraction hs _ _ _ _ _
    · exact .refl _
  have h1 := h0.trans h1
  generalize (if w.retractionEnable then (retraction c s0 w.rconfig false false none).1 else s0) = s1 at *
  have h2 : EPath c s1 (if w.hopEnable then zhopStart c s1 w.hopAmount w.hopSpeed none 0 else s1) := by
    split
    · exact epath_zhopStart _ _ _ _ _
    · exact .refl _
  have h2 := h1.trans h2
  generalize (if w.hopEnable then zhopStart c s1 w.hopAmount w.hopSpeed none 0 else s1) = s2 at *
  have h3 : EPath c s2 (travelXY c s2 w.brushX s2.pos.y w.moveSpeed) := epath_travel hs _ _ _ _ (h2.eOff h00)
  have h3 := h2.trans h3
  generalize travelXY c s2 w.brushX s2.pos.y w.moveSpeed = s3 at *
  have h4 := h3.trans (epath_wipeMoves hs w w.repeatCount 0 s3 (h3.eOff h00))
  generalize wipeMoves c w w.repeatCount 0 s3 = s4 at *
  have h5 := h4.trans (epath_travel hs s4 s.pos w.moveSpeed none (h4.eOff h00))
  generalize travel c s4 s.pos w.moveSpeed none = s5 at *
  have h6 : EPath c s5 (if w.hopEnable then zhopEnd c s5 w.hopSpeed 0 none 0 else s5) := by
    split
    · exact epath_zhopEnd _ _ _ _ _
    · exact .refl _
  have h6 := h5.trans h6
  generalize (if w.hopEnable then zhopEnd c s5 w.hopSpeed 0 none 0 else s5) = s6 at *
  have h7 : EPath c s6 (if w.retractionEnable then unretract c s6 else s6) := by
    split
    · exact epath_unretract _
    · exact .refl _
  exact h6.trans (h7.trans (quietE_emit _ _ rfl).path)

theorem epath_step (hs : Sane c) (s : St) (op : Op) (ha : Allowed c s op) (hf : s.flow = (0, 0, 0))
    (hn : ∀ m f, op ≠ .setFlow m f) : EPath c s (step c s op) := by
  have h0 : s.eOff = 0 := congrArg Prod.fst hf
  cases op with
  | travel p v r => exact epath_travel hs _ _ _ _ h0
  | extrude p v m u => exact epath_extrude hs _ _ _ _ _ hf
  | retraction r f w d => exact epath_retraction hs _ _ _ _ _
  | unretract => exact epath_unretract _
  | zhopStart h v r q => exact epath_zhopStart _ _ _ _ _
  | zhopEnd v => exact epath_zhopEnd _ _ _ _ _
  | setLeftover a r => exact epath_same
  | setZ z => exact epath_same
  | addPrime v => exact epath_upd s s.cur (fun a => { a with prime := a.prime + v })
  | setFlow m f => exact absurd rfl (hn m f)
  | resetExtrusion => exact (EPath.refl s).reset
  | switch t r h => exact epath_switch hs _ _ _ _
  | start t => exact epath_start _ _ ha.1
  | wipe w => exact epath_wipe hs _ _ h0

theorem epath_run (hs : Sane c) (ops : List Op) : ∀ s : St, AllAllowed c s ops → s.flow = (0, 0, 0) → NoFlow ops →
    EPath c s (run c s ops) := by
  induction ops with
  | nil => intro s _ _ _; exact .refl s
  | cons op ops ih =>
    intro s ha hf hn
    have h1 := epath_step hs s op ha.1 hf (fun m f h => hn m f (by simp [h]))
    exact h1.trans (ih _ ha.2 (by rw [h1.flow, hf]) (fun m f h => hn m f (List.mem_cons_of_mem _ h)))

/-- The amount pushed before the current reset interval, in E units. -/
def base (c : Cfg) (s : St) (t : Nat) : ℚ :=
  (s.attr t).total / kappa c t - if c.firmware t then 0 else (s.attr t).retrStart

theorem base_tsame {s s' : St} (h : TSame s s') (t : Nat) : base c s' t = base c s t := by
  unfold base; rw [(h t).1, (h t).2]

theorem base_reset (hs : Sane c) (s : St) (t : Nat) :
    base c (resetExtrusion c s) t = base c s t + if t = s.cur then s.e else 0 := by
  obtain ⟨ha, he, hc, _, _, _, _, ho⟩ := resetExtrusion_fields (c := c) s
  by_cases ht : t = s.cur
  · subst ht
    have hk := (kappa_pos hs s.cur).ne'
    have ha' : (resetExtrusion c s).attr s.cur = (resetExtrusion c s).a := by unfold St.a; rw [hc]
    unfold base
    rw [ha', ha, if_pos rfl]
    show (s.a.total + kappa c s.cur * amountE c s) / kappa c s.cur - (if c.firmware s.cur then 0 else s.a.retrCur) =
      s.a.total / kappa c s.cur - (if c.firmware s.cur then 0 else s.a.retrStart) + s.e
    have : (s.a.total + kappa c s.cur * amountE c s) / kappa c s.cur = s.a.total / kappa c s.cur + amountE c s := by
      field_simp
    rw [this]
    unfold amountE
    split <;> ring
  · rw [if_neg ht, add_zero]
    unfold base; rw [ho t ht]

/-- What the report and the pulled-back amount say the printer has pushed. -/
theorem base_report (hs : Sane c) (s : St) (hi : Inv c s) (t : Nat) :
    totalFilament c s t / kappa c t - retracted c s t = base c s t + if t = s.cur then s.e else 0 := by
  by_cases ht : t = s.cur
  · subst ht
    have hk := (kappa_pos hs s.cur).ne'
    rw [here_eq, if_pos rfl]
    unfold here base retracted
    have : (s.a.total + kappa c s.cur * amountE c s) / kappa c s.cur = s.a.total / kappa c s.cur + amountE c s := by
      field_simp
    rw [this]
    unfold amountE St.a
    split <;> ring
  · unfold totalFilament retracted base
    rw [if_neg ht, if_neg ht, add_zero]
    rcases hi.others t ht with h | h
    · rw [if_pos h, if_pos h]
    · split
      · rfl
      · rw [h]

/-- Printer and exporter agree up to rounding. -/
def Bal (P : PrinterCfg) (p0 : Printer) (c : Cfg) (ε : ℚ) (s : St) : Prop :=
  (p0.after P s).tool = s.cur ∧
  (c.relative = true → ∀ t, |(p0.after P s).fil t - base c s t - if t = s.cur then s.e else 0| ≤ ε * errLines true s.out) ∧
  (c.relative = false → |(p0.after P s).le - s.e| ≤ ε ∧
    ∀ t, |(p0.after P s).fil t - base c s t - if t = s.cur then (p0.after P s).le else 0| ≤ ε * errLines false s.out)

theorem errLines_append (b : Bool) (x y : List Cmd) : errLines b (x ++ y) = errLines b x + errLines b y := by
  simp [errLines, List.countP_append]

variable {P : PrinterCfg} {p0 : Printer} {ε : ℚ}

theorem after_append (s s' : St) (ks : List Cmd) (h : s'.out = s.out ++ ks) :
    p0.after P s' = ks.foldl (Printer.exec P) (p0.after P s) := by
  unfold Printer.after; rw [h, List.foldl_append]

theorem exec_silent (p : Printer) (k : Cmd) (hk : k.silent = true) :
    (p.exec P k).fil = p.fil ∧ (p.exec P k).le = p.le ∧ (p.exec P k).tool = p.tool := by
  cases k with
  | move xy z f e =>
    cases e with
    | some v => simp [Cmd.silent] at hk
    | none => cases xy <;> cases z <;> cases f <;> exact ⟨rfl, rfl, rfl⟩
  | g92 => simp [Cmd.silent] at hk
  | tool n => simp [Cmd.silent] at hk
  | _ => exact ⟨rfl, rfl, rfl⟩

theorem foldl_silent (ks : List Cmd) : ∀ (p : Printer), (∀ k ∈ ks, k.silent = true) →
    (ks.foldl (Printer.exec P) p).fil = p.fil ∧ (ks.foldl (Printer.exec P) p).le = p.le ∧
    (ks.foldl (Printer.exec P) p).tool = p.tool := by
  induction ks with
  | nil => intro p _; exact ⟨rfl, rfl, rfl⟩
  | cons k ks ih =>
    intro p h
    obtain ⟨h1, h2, h3⟩ := ih (p.exec P k) (fun k hk => h k (List.mem_cons_of_mem _ hk))
    obtain ⟨g1, g2, g3⟩ := exec_silent (P := P) p k (h k (by simp))
    exact ⟨h1.trans g1, h2.trans g2, h3.trans g3⟩

theorem errLines_silent (b : Bool) (ks : List Cmd) (h : ∀ k ∈ ks, k.silent = true) : errLines b ks = 0 := by
  unfold errLines
  rw [List.countP_eq_zero]
  intro k hk
  have := h k hk
  cases k with
  | move xy z f e => cases e <;> simp_all [Cmd.silent]
  | _ => simp_all [Cmd.silent]

theorem exec_word (p : Printer) (xy z f) (v : ℚ) :
    (p.exec P (.move xy z f (some v))).tool = p.tool ∧
    (p.exec P (.move xy z f (some v))).le = (if P.relative then p.le + P.rE v else P.rE v) ∧
    ∀ t, (p.exec P (.move xy z f (some v))).fil t =
      p.fil t + if t = p.tool then (if P.relative then P.rE v else P.rE v - p.le) else 0 := by
  by_cases hr : P.relative = true
  · cases xy <;> cases z <;> cases f <;> refine ⟨?_, ?_, fun t => ?_⟩ <;>
      simp only [Printer.exec, Printer.pushE, hr, if_true] <;> split <;> simp
  · cases xy <;> cases z <;> cases f <;> refine ⟨?_, ?_, fun t => ?_⟩ <;>
      simp only [Printer.exec, Printer.pushE, hr, Bool.false_eq_true, if_false] <;> split <;> simp

theorem bal_quiet {s s' : St} (h : QuietE s s') (hb : Bal P p0 c ε s) : Bal P p0 c ε s' := by
  obtain ⟨ks, ho, hk⟩ := h.out
  obtain ⟨f1, f2, f3⟩ := foldl_silent (P := P) ks (p0.after P s) hk
  rw [← after_append s s' ks ho] at f1 f2 f3
  unfold Bal
  rw [f1, f2, f3, h.cur, h.e, ho, errLines_append, errLines_append, errLines_silent _ ks hk, errLines_silent _ ks hk]
  simp only [base_tsame h.t, add_zero]
  exact hb

theorem bal_word (hP : P.relative = c.relative) (hε : ∀ x, |P.rE x - x| ≤ ε) {s s' : St} (h : WordE c s s')
    (hb : Bal P p0 c ε s) : Bal P p0 c ε s' := by
  obtain ⟨xy, z, f, ho⟩ := h.out
  obtain ⟨ht, hr, ha⟩ := hb
  have haft : p0.after P s' = (p0.after P s).exec P
      (.move xy z f (some (if c.relative then s'.e - s.e else s'.e))) := by
    rw [after_append s s' _ ho]; rfl
  obtain ⟨e1, e2, e3⟩ := exec_word (P := P) (p0.after P s) xy z f (if c.relative then s'.e - s.e else s'.e)
  rw [← haft] at e1 e2 e3
  have herr : ∀ b : Bool, errLines b [.move xy z f (some (if c.relative then s'.e - s.e else s'.e))] = if b then 1 else 0 := by
    intro b; cases b <;> simp [errLines]
  refine ⟨by rw [e1, ht, h.cur], fun hrel t => ?_, fun hrel => ⟨?_, fun t => ?_⟩⟩
  · rw [ho, errLines_append, herr, e3, base_tsame h.t, h.cur, ht, hP, hrel]
    simp only [if_true]
    have hh := hr hrel t
    by_cases htc : t = s.cur
    · simp only [htc, if_true] at hh ⊢
      have h2 := hε (s'.e - s.e)
      push_cast
      have h3 : (p0.after P s).fil s.cur + P.rE (s'.e - s.e) - base c s s.cur - s'.e =
          ((p0.after P s).fil s.cur - base c s s.cur - s.e) + (P.rE (s'.e - s.e) - (s'.e - s.e)) := by ring
      rw [h3]
      refine (abs_add_le _ _).trans ?_
      linarith
    · simp only [htc, if_false, add_zero] at hh ⊢
      push_cast
      have : 0 ≤ ε := (abs_nonneg _).trans (hε 0)
      linarith
  · rw [e2, hP, hrel]
    simp only [Bool.false_eq_true, if_false]
    exact hε _
  · rw [ho, errLines_append, herr, e3, base_tsame h.t, h.cur, ht, e2, hP, hrel]
    simp only [Bool.false_eq_true, if_false]
    have hh := (ha hrel).2 t
    by_cases htc : t = s.cur
    · simp only [htc, if_true] at hh ⊢
      have h3 : (p0.after P s).fil s.cur + (P.rE s'.e - (p0.after P s).le) - base c s s.cur - P.rE s'.e =
          (p0.after P s).fil s.cur - base c s s.cur - (p0.after P s).le := by ring
      rw [h3]; simpa using hh
    · simp only [htc, if_false, add_zero] at hh ⊢
      simpa using hh

theorem reset_out (s : St) : (resetExtrusion c s).out = if c.relative then s.out else s.out ++ [.g92] := by
  unfold resetExtrusion
  simp only
  by_cases hr : c.relative = true
  · simp [hr, St.upd]
  · simp [hr, St.upd, St.emit]

theorem bal_reset (hs : Sane c) (s : St) (hb : Bal P p0 c ε s) : Bal P p0 c ε (resetExtrusion c s) := by
  obtain ⟨_, he, hc, _⟩ := resetExtrusion_fields (c := c) s
  obtain ⟨ht, hr, ha⟩ := hb
  have ho := reset_out (c := c) s
  by_cases hrel : c.relative = true
  · rw [if_pos hrel] at ho
    have haft : p0.after P (resetExtrusion c s) = p0.after P s := by unfold Printer.after; rw [ho]
    refine ⟨by rw [haft, hc, ht], fun _ t => ?_, fun h => by rw [hrel] at h; exact absurd h (by simp)⟩
    rw [haft, ho, base_reset hs, he, hc]
    have hh := hr hrel t
    have : (p0.after P s).fil t - (base c s t + if t = s.cur then s.e else 0) - (if t = s.cur then 0 else 0) =
      (p0.after P s).fil t - base c s t - if t = s.cur then s.e else 0 := by split <;> ring
    rw [this]; exact hh
  · rw [if_neg hrel] at ho
    simp only [Bool.not_eq_true] at hrel
    have haft : p0.after P (resetExtrusion c s) = { p0.after P s with le := 0 } := by
      rw [after_append s _ _ ho]; rfl
    obtain ⟨h1, h2⟩ := ha hrel
    refine ⟨by rw [haft, hc]; exact ht, fun h => by rw [hrel] at h; exact absurd h (by simp), fun _ => ⟨?_, fun t => ?_⟩⟩
    · rw [haft, he]
      simp only [sub_self, abs_zero]
      exact (abs_nonneg _).trans h1
    · rw [haft, ho, base_reset hs, hc, errLines_append]
      have hh := h2 t
      have herr : errLines false [Cmd.g92] = 1 := rfl
      rw [herr]
      push_cast
      have hε := (abs_nonneg _).trans h1
      by_cases htc : t = s.cur
      · simp only [htc, if_true] at hh ⊢
        have h3 : (p0.after P s).fil s.cur - (base c s s.cur + s.e) - 0 =
          ((p0.after P s).fil s.cur - base c s s.cur - (p0.after P s).le) + ((p0.after P s).le - s.e) := by ring
        rw [h3]
        refine (abs_add_le _ _).trans ?_
        linarith
      · simp only [htc, if_false, add_zero] at hh ⊢
        linarith

theorem bal_tool {s s' : St} (h : ToolE s s') (hb : Bal P p0 c ε s) : Bal P p0 c ε s' := by
  obtain ⟨ht, hr, ha⟩ := hb
  have haft : p0.after P s' = { p0.after P s with tool := s'.cur } := by
    rw [after_append s _ _ h.out]; rfl
  have herr : ∀ b : Bool, errLines b [.tool s'.cur] = if b then 0 else 1 := by intro b; cases b <;> rfl
  refine ⟨by rw [haft], fun hrel t => ?_, fun hrel => ⟨?_, fun t => ?_⟩⟩
  · rw [haft, h.out, errLines_append, herr, base_tsame h.t, h.e']
    have hh := hr hrel t
    rw [h.e] at hh
    simpa using hh
  · rw [haft, h.e', ← h.e]; exact (ha hrel).1
  · rw [haft, h.out, errLines_append, herr, base_tsame h.t]
    obtain ⟨h1, h2⟩ := ha hrel
    have hh := h2 t
    rw [h.e, sub_zero] at h1
    have hε := (abs_nonneg _).trans h1
    simp only [Bool.false_eq_true, if_false]
    push_cast
    generalize (p0.after P s).le = l at *
    generalize (p0.after P s).fil t - base c s t = d at *
    have hl := abs_le.mp h1
    by_cases ha1 : t = s.cur <;> by_cases ha2 : t = s'.cur
    · rw [if_pos ha2]; rw [if_pos ha1] at hh; linarith
    · rw [if_neg ha2]; rw [if_pos ha1] at hh
      have := abs_le.mp hh
      rw [abs_le]; constructor <;> linarith
    · rw [if_pos ha2]; rw [if_neg ha1] at hh
      have := abs_le.mp hh
      rw [abs_le]; constructor <;> linarith
    · rw [if_neg ha2]; rw [if_neg ha1] at hh; linarith

theorem bal_path (hs : Sane c) (hP : P.relative = c.relative) (hε : ∀ x, |P.rE x - x| ≤ ε) {s s' : St}
    (h : EPath c s s') (hb : Bal P p0 c ε s) : Bal P p0 c ε s' := by
  induction h with
  | refl => exact hb
  | quiet _ q ih => exact bal_quiet q ih
  | word _ w ih => exact bal_word hP hε w ih
  | reset _ ih => exact bal_reset hs _ ih
  | tool _ t ih => exact bal_tool t ih

/-- The bound that `Bal` gives on the deviation. -/
theorem Bal.bound {s : St} (hs : Sane c) (hb : Bal P p0 c ε s) (hi : Inv c s) (h0 : 0 ≤ ε) (t : Nat) :
    |(p0.after P s).fil t - (totalFilament c s t / kappa c t - retracted c s t)| ≤ ε * (errLines c.relative s.out + 1) := by
  rw [base_report hs s hi]
  obtain ⟨_, hr, ha⟩ := hb
  by_cases hrel : c.relative = true
  · have := hr hrel t
    rw [hrel]
    rw [← sub_sub]
    linarith
  · simp only [Bool.not_eq_true] at hrel
    obtain ⟨h1, h2⟩ := ha hrel
    have h2 := h2 t
    rw [hrel]
    by_cases htc : t = s.cur
    · rw [if_pos htc] at h2 ⊢
      have h3 : (p0.after P s).fil t - (base c s t + s.e) =
        ((p0.after P s).fil t - base c s t - (p0.after P s).le) + ((p0.after P s).le - s.e) := by ring
      rw [h3]
      refine (abs_add_le _ _).trans ?_
      linarith
    · rw [if_neg htc] at h2 ⊢
      rw [← sub_sub]
      linarith

end Verif.GCode
