import Verif.GCode.BoxLemmas

/-! # The reported bounding box: theorem C24 -/

namespace Verif.GCode

/-- Every coordinate word lies in the box. -/
def Contains (s : St) : Prop :=
  (∀ g ∈ xyWords s.out, s.box.min.x ≤ g.1 ∧ g.1 ≤ s.box.max.x ∧ s.box.min.y ≤ g.2 ∧ g.2 ≤ s.box.max.y) ∧
  ∀ z ∈ zWords s.out, s.box.min.z ≤ z ∧ z ≤ s.box.max.z

theorem prims_contains (c : Cfg) : Prims c True Contains where
  quiet s s' h hi := by unfold Contains at *; rw [h.xy, h.z, h.box]; exact hi
  hopEnd s _ hi := hi
  moved s s' p h hi := by
    have hxy : ∀ g ∈ xyWords s'.out, g ∈ xyWords s.out ∨ g = gcodePos c s p.x p.y := by
      intro g hg
      rcases h.xy with h | ⟨h, _⟩
      · rw [h] at hg; simpa using hg
      · rw [h] at hg; exact Or.inl hg
    have hz : ∀ g ∈ zWords s'.out, g ∈ zWords s.out ∨ g = p.z := by
      intro g hg
      rcases h.z with h | ⟨h, _⟩
      · rw [h] at hg; simpa using hg
      · rw [h] at hg; exact Or.inl hg
    refine ⟨fun g hg => ?_, fun z hg => ?_⟩
    · rw [h.box]
      simp only [Box.incl]
      rcases hxy g hg with hg | rfl
      · have := hi.1 g hg
        omega
      · omega
    · rw [h.box]
      simp only [Box.incl]
      rcases hz z hg with hg | rfl
      · have := hi.2 z hg
        omega
      · omega

theorem contains_run (c : Cfg) (hb : c.flavor ≠ .BFB) (ops : List Op) : ∀ s : St, Contains s → Contains (run c s ops) := by
  induction ops with
  | nil => intro s h; exact h
  | cons op ops ih =>
    intro s h
    apply ih
    refine prims_step (prims_contains c) hb s op (Or.inl trivial) ?_ h
    intro _ s s' t _ _ _ _ hbx hxy hz hi
    unfold Contains at *
    rw [hxy, hz, hbx]; exact hi

/-- **C24, containment.** Except for BFB printers: for every history of calls, every X, Y and Z the printer is told to go
to lies in the reported bounding box. -/
theorem C24_contains (c : Cfg) (hb : c.flavor ≠ .BFB) (t : Nat) (ps : Nat → ℚ) (ops : List Op) :
    let s := run c (St.init t ps) ops
    (∀ g ∈ xyWords s.out, s.box.min.x ≤ g.1 ∧ g.1 ≤ s.box.max.x ∧ s.box.min.y ≤ g.2 ∧ g.2 ≤ s.box.max.y) ∧
    ∀ z ∈ zWords s.out, s.box.min.z ≤ z ∧ z ≤ s.box.max.z :=
  contains_run c hb ops (St.init t ps) ⟨by intro g hg; simp [St.init, xyWords] at hg, by intro z hz; simp [St.init, zWords] at hz⟩

/-- The X/Y positions the printer has been at, `h` being the start position. -/
def visited (h : Int × Int) (s : St) : List (Int × Int) := h :: xyWords s.out

/-- The recorded position and the faces of the box are positions the printer has been at. -/
def TightXY (c : Cfg) (h : Int × Int) (s : St) : Prop :=
  gcodePos c s s.pos.x s.pos.y ∈ visited h s ∧
  (s.box.min.x = Box.empty.min.x ∨ ∃ g ∈ visited h s, g.1 = s.box.min.x) ∧
  (s.box.max.x = Box.empty.max.x ∨ ∃ g ∈ visited h s, g.1 = s.box.max.x) ∧
  (s.box.min.y = Box.empty.min.y ∨ ∃ g ∈ visited h s, g.2 = s.box.min.y) ∧
  (s.box.max.y = Box.empty.max.y ∨ ∃ g ∈ visited h s, g.2 = s.box.max.y)

theorem face_min {L : List (Int × Int)} {f : Int × Int → Int} {a d : Int} {g : Int × Int}
    (h : a = d ∨ ∃ g ∈ L, f g = a) (hg : g ∈ L) : Min.min a (f g) = d ∨ ∃ g' ∈ L, f g' = Min.min a (f g) := by
  rcases le_total a (f g) with h1 | h1
  · rw [min_eq_left h1]; exact h
  · rw [min_eq_right h1]; exact Or.inr ⟨g, hg, rfl⟩

theorem face_max {L : List (Int × Int)} {f : Int × Int → Int} {a d : Int} {g : Int × Int}
    (h : a = d ∨ ∃ g ∈ L, f g = a) (hg : g ∈ L) : Max.max a (f g) = d ∨ ∃ g' ∈ L, f g' = Max.max a (f g) := by
  rcases le_total a (f g) with h1 | h1
  · rw [max_eq_right h1]; exact Or.inr ⟨g, hg, rfl⟩
  · rw [max_eq_left h1]; exact h

theorem face_mono {L L' : List (Int × Int)} {f : Int × Int → Int} {a d : Int} (hs : ∀ g ∈ L, g ∈ L')
    (h : a = d ∨ ∃ g ∈ L, f g = a) : a = d ∨ ∃ g ∈ L', f g = a := by
  rcases h with h | ⟨g, hg, e⟩
  · exact Or.inl h
  · exact Or.inr ⟨g, hs g hg, e⟩

theorem prims_tightXY (c : Cfg) (h : Int × Int) : Prims c True (TightXY c h) where
  quiet s s' hq hi := by
    unfold TightXY visited at *
    have hg : gcodePos c s' s'.pos.x s'.pos.y = gcodePos c s s.pos.x s.pos.y := by simp [gcodePos, hq.pos, hq.cur]
    rw [hq.xy, hq.box, hg]; exact hi
  hopEnd s _ hi := hi
  moved s s' p hm hi := by
    have hsub : ∀ g ∈ visited h s, g ∈ visited h s' := by
      intro g hg
      unfold visited at *
      rcases hm.xy with h' | ⟨h', _⟩ <;> rw [h'] <;> simp at hg ⊢
      · rcases hg with hg | hg
        · exact Or.inl hg
        · exact Or.inr (Or.inl hg)
      · exact hg
    have hmem : gcodePos c s p.x p.y ∈ visited h s' := by
      rcases hm.xy with h' | ⟨h', hx, hy⟩
      · unfold visited; rw [h']; simp
      · apply hsub; rw [hx, hy]; exact hi.1
    obtain ⟨_, h1, h2, h3, h4⟩ := hi
    refine ⟨?_, ?_, ?_, ?_, ?_⟩
    · have : gcodePos c s' s'.pos.x s'.pos.y = gcodePos c s p.x p.y := by simp [gcodePos, hm.pos, hm.cur]
      rw [this]; exact hmem
    · rw [hm.box]; exact face_min (f := Prod.fst) (face_mono hsub h1) hmem
    · rw [hm.box]; exact face_max (f := Prod.fst) (face_mono hsub h2) hmem
    · rw [hm.box]; exact face_min (f := Prod.snd) (face_mono hsub h3) hmem
    · rw [hm.box]; exact face_max (f := Prod.snd) (face_mono hsub h4) hmem

theorem tightXY_run (c : Cfg) (hb : c.flavor ≠ .BFB) (h : Int × Int) (ops : List Op) :
    ∀ s : St, TightXY c h s → TightXY c h (run c s ops) := by
  induction ops with
  | nil => intro s h; exact h
  | cons op ops ih =>
    intro s hs
    apply ih
    refine prims_step (prims_tightXY c h) hb s op (Or.inl trivial) ?_ hs
    intro _ s s' t hx hy _ hc hbx hxy _ hi
    unfold TightXY visited at *
    have : gcodePos c s' s'.pos.x s'.pos.y = gcodePos c s s.pos.x s.pos.y := by
      simp only [gcodePos, hx, hy, hc]
      refine Prod.ext ?_ ?_
      · show s.pos.x + ((c.offset t).1 - (c.offset s.cur).1) - (c.offset t).1 = s.pos.x - (c.offset s.cur).1
        omega
      · show s.pos.y + ((c.offset t).2 - (c.offset s.cur).2) - (c.offset t).2 = s.pos.y - (c.offset s.cur).2
        omega
    rw [hxy, hbx, this]; exact hi

/-- **C24, smallest (X, Y).** Except for BFB printers: for every history, each side of the bounding box is either still the
default (no move so far) or the coordinate of a position the printer has been at (the start position or an emitted one):
no smaller box would contain them. -/
theorem C24_smallest_xy (c : Cfg) (hb : c.flavor ≠ .BFB) (t : Nat) (ps : Nat → ℚ) (ops : List Op) :
    let s := run c (St.init t ps) ops
    let been := (0 - (c.offset t).1, 0 - (c.offset t).2) :: xyWords s.out
    (s.box.min.x = 2147483647 ∨ ∃ g ∈ been, g.1 = s.box.min.x) ∧
    (s.box.max.x = -2147483648 ∨ ∃ g ∈ been, g.1 = s.box.max.x) ∧
    (s.box.min.y = 2147483647 ∨ ∃ g ∈ been, g.2 = s.box.min.y) ∧
    (s.box.max.y = -2147483648 ∨ ∃ g ∈ been, g.2 = s.box.max.y) :=
  (tightXY_run c hb (0 - (c.offset t).1, 0 - (c.offset t).2) ops (St.init t ps)
    ⟨by simp [visited, gcodePos, St.init], Or.inl rfl, Or.inl rfl, Or.inl rfl, Or.inl rfl⟩).2

/-- The recorded height and the top and bottom of the box are heights the printer has been at. -/
def TightZ (s : St) : Prop :=
  s.pos.z ∈ 20000 :: zWords s.out ∧
  (s.box.min.z = Box.empty.min.z ∨ s.box.min.z ∈ 20000 :: zWords s.out) ∧
  (s.box.max.z = Box.empty.max.z ∨ s.box.max.z ∈ 20000 :: zWords s.out)

theorem prims_tightZ (c : Cfg) : Prims c False TightZ where
  quiet s s' hq hi := by
    unfold TightZ at *
    rw [hq.z, hq.box, hq.pos]; exact hi
  hopEnd s h hi := by
    rcases h with h | h
    · exact absurd h id
    · refine ⟨?_, hi.2⟩
      show s.layerZ ∈ 20000 :: zWords s.out
      rw [← h]; exact hi.1
  moved s s' p hm hi := by
    have hsub : ∀ g ∈ 20000 :: zWords s.out, g ∈ 20000 :: zWords s'.out := by
      intro g hg
      rcases hm.z with h' | ⟨h', _⟩ <;> rw [h'] <;> simp at hg ⊢
      · rcases hg with hg | hg
        · exact Or.inl hg
        · exact Or.inr (Or.inl hg)
      · exact hg
    have hmem : p.z ∈ 20000 :: zWords s'.out := by
      rcases hm.z with h' | ⟨h', hz⟩
      · rw [h']; simp
      · apply hsub; rw [hz]; exact hi.1
    obtain ⟨_, h1, h2⟩ := hi
    refine ⟨by rw [hm.pos]; exact hmem, ?_, ?_⟩
    · rw [hm.box]
      show Min.min s.box.min.z p.z = _ ∨ Min.min s.box.min.z p.z ∈ _
      rcases le_total s.box.min.z p.z with h | h
      · rw [min_eq_left h]; exact h1.imp id (hsub _)
      · rw [min_eq_right h]; exact Or.inr hmem
    · rw [hm.box]
      show Max.max s.box.max.z p.z = _ ∨ Max.max s.box.max.z p.z ∈ _
      rcases le_total s.box.max.z p.z with h | h
      · rw [max_eq_right h]; exact Or.inr hmem
      · rw [max_eq_left h]; exact h2.imp id (hsub _)

theorem splitFree_step (c : Cfg) (s : St) (op : Op) (hop : ∀ a r, op = .setLeftover a r → ¬ (0 < r ∧ r < 1))
    (h : SplitFree s) : SplitFree (step c s op) := by
  cases op with
  | travel p v r => exact (keepZ_travel (P := ⟨true, id, id⟩) (p0 := ⟨0, 0, 0, 0, 0, 0, fun _ => 0⟩) s p v r).sf h
  | extrude p v m u => exact (keepZ_extrude (P := ⟨true, id, id⟩) (p0 := ⟨0, 0, 0, 0, 0, 0, fun _ => 0⟩) s p v m u).sf h
  | retraction r f w d =>
    exact (quiet_retraction (P := ⟨true, id, id⟩) (p0 := ⟨0, 0, 0, 0, 0, 0, fun _ => 0⟩) s r f w d).keepZ.sf h
  | unretract => exact (quiet_unretract (P := ⟨true, id, id⟩) (p0 := ⟨0, 0, 0, 0, 0, 0, fun _ => 0⟩) s).keepZ.sf h
  | zhopStart hh v r ra => exact splitFree_same (zhopStart_leftover s hh v r ra) h
  | zhopEnd v => exact (keepZ_zhopEnd (P := ⟨true, id, id⟩) (p0 := ⟨0, 0, 0, 0, 0, 0, fun _ => 0⟩) s v).sf h
  | setLeftover a r =>
    intro l hl
    simp only [step, Option.some.injEq] at hl
    rw [← hl]; exact hop a r rfl
  | setZ z => exact h
  | addPrime v => exact h
  | setFlow m f => exact h
  | resetExtrusion => exact splitFree_same (resetExtrusion_leftover s) h
  | switch t r hh => exact splitFree_same (switch_leftover s t r hh) h
  | start t => exact splitFree_same (start_leftover s t) h
  | wipe w => exact (keepZ_wipe (P := ⟨true, id, id⟩) (p0 := ⟨0, 0, 0, 0, 0, 0, fun _ => 0⟩) s w).sf h

theorem tightZ_run (c : Cfg) (hb : c.flavor ≠ .BFB) (ops : List Op) : ∀ s : St, NoSplit ops → NoToolChange ops →
    SplitFree s → TightZ s → TightZ (run c s ops) := by
  induction ops with
  | nil => intro s _ _ _ h; exact h
  | cons op ops ih =>
    intro s hn ht hsf hs
    have hn' : NoSplit ops := fun a r hm => hn a r (List.mem_cons_of_mem _ hm)
    have ht' : NoToolChange ops := fun o hm => ht o (List.mem_cons_of_mem _ hm)
    refine ih _ hn' ht' (splitFree_step c s op (fun a r he => hn a r (by simp [he])) hsf) ?_
    refine prims_step (prims_tightZ c) hb s op (Or.inr hsf) ?_ hs
    intro htool
    have := ht op (by simp)
    rcases htool with ⟨t, r, h, e⟩ | ⟨t, e⟩
    · exact absurd e (this.1 t r h)
    · exact absurd e (this.2 t)

/-- **C24, smallest (Z), partial.** For histories without tool changes and split z-hop ends, top and bottom of the box are
default or heights the printer has been at. What is missing: tool changes and split ends, after which the exporter's
recorded height is not the printer's (C18, C19), and which may therefore extend the box. -/
theorem C24_smallest_z_partial (c : Cfg) (hb : c.flavor ≠ .BFB) (t : Nat) (ps : Nat → ℚ) (ops : List Op)
    (hn : NoSplit ops) (ht : NoToolChange ops) :
    let s := run c (St.init t ps) ops
    (s.box.min.z = 2147483647 ∨ s.box.min.z ∈ 20000 :: zWords s.out) ∧
    (s.box.max.z = -2147483648 ∨ s.box.max.z ∈ 20000 :: zWords s.out) :=
  (tightZ_run c hb ops (St.init t ps) hn ht (fun l hl => by simp [St.init] at hl)
    ⟨by simp [St.init], Or.inl rfl, Or.inl rfl⟩).2

/-- **C24, the counterexample.** On BFB printers travel and extrusion moves never enter the box: whatever is printed, it
stays as it was. -/
theorem C24_bfb_not_contained (c : Cfg) (hb : c.flavor = .BFB) (s : St) (ops : List Op)
    (h : ∀ op ∈ ops, (∃ p v r, op = .travel p v r) ∨ ∃ p v m u, op = .extrude p v m u) :
    (run c s ops).box = s.box := by
  induction ops generalizing s with
  | nil => rfl
  | cons op ops ih =>
    show (run c (step c s op) ops).box = _
    rw [ih _ (fun o ho => h o (List.mem_cons_of_mem _ ho))]
    rcases h op (by simp) with ⟨p, v, r, rfl⟩ | ⟨p, v, m, u, rfl⟩
    · show (travel c s p v r).box = _
      unfold travel
      rw [if_pos hb]
      exact (bfb_spec (P := ⟨true, id, id⟩) (p0 := ⟨0, 0, 0, 0, 0, 0, fun _ => 0⟩) s _ v 0).2.2.2.2.2.1
    · show (extrude c s p v m u).box = _
      unfold extrude
      rw [if_pos hb]
      exact (bfb_spec (P := ⟨true, id, id⟩) (p0 := ⟨0, 0, 0, 0, 0, 0, fun _ => 0⟩) s p v m).2.2.2.2.2.1

/-! ## Witness: a history with a raised travel -/

example : let ops : List Op := [.setZ 200, .travel ⟨1000, 2000, 200⟩ 100 none, .extrude ⟨5000, 2000, 200⟩ 50 1 false,
      .zhopStart 400 0 none 0, .travel ⟨9000, 9000, 200⟩ 100 none]
    NoSplit ops ∧ NoToolChange ops := by
  refine ⟨by intro a r h; simp at h, ?_⟩
  intro op h
  simp at h
  rcases h with rfl | rfl | rfl | rfl | rfl <;> simp

end Verif.GCode
