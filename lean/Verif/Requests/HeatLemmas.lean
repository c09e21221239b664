import Verif.Requests.Lemmas

/-! # Lemmas on heaters, bed, acceleration and jerk -/

namespace Verif.Requests

variable {c : Cfg} {M : MachineCfg} {m : Machine}

theorem leaves_assumeBed {p : Part} (s : St) (t : ℚ) : Leaves p s (step c s (.assumeBed t)) :=
  Leaves.refl

/-- The machine after the temperature command of a request, seen from the machine before. -/
theorem writeTemp_after (s : St) (e : Nat) (t : ℚ) (w : Bool) (ht : (m.after M s).tool = s.cur)
    (hsel : M.selects = true → c.alwaysTool = true) :
    (m.after M (writeTemp c s e t w)).tool = s.cur ∧
    (m.after M (writeTemp c s e t w)).target =
      (fun i => if i = M.heater e then printed 1 t else (m.after M s).target i) ∧
    (∀ i, (m.after M (writeTemp c s e t w)).hot i =
      (if w = true ∧ (c.flavor = .MAKERBOT ∨ i = M.heater e) then true
       else if i = M.heater e then (m.after M s).hot i && decide (printed 1 t ≤ (m.after M s).target i)
       else (m.after M s).hot i)) ∧
    (writeTemp c s e t w).temp = (fun i => if i = e then t else s.temp i) ∧
    (writeTemp c s e t w).waited = (fun i => if i = e then decide (w = true ∧ c.flavor ≠ .MAKERBOT) else s.waited i) := by
  have hget : (if e ≠ s.cur then some e else none : Option Nat).getD (m.after M s).tool = e := by
    by_cases h : e = s.cur
    · rw [if_neg (by simpa using h), ht, h]; rfl
    · rw [if_pos h]; rfl
  have hselT : M.select (m.after M s) (if e ≠ s.cur then some e else none) =
      if e ≠ s.cur ∧ M.selects then e else s.cur := by
    by_cases h : e = s.cur
    · simp [h, MachineCfg.select, ht]
    · simp [h, MachineCfg.select, ht]
  -- the command line
  have hline : (m.after M (tempLine c s e t w)).tool = (if e ≠ s.cur ∧ M.selects then e else s.cur) ∧
      (m.after M (tempLine c s e t w)).target =
        (fun i => if i = M.heater e then printed 1 t else (m.after M s).target i) ∧
      (m.after M (tempLine c s e t w)).hot = (fun i => if i = M.heater e then
          (if w = true ∧ c.flavor ≠ .MAKERBOT then true
           else (m.after M s).hot i && decide (printed 1 t ≤ (m.after M s).target i))
        else (m.after M s).hot i) ∧
      (tempLine c s e t w).cur = s.cur ∧ (tempLine c s e t w).temp = s.temp ∧
      (tempLine c s e t w).waited = (fun i => if i = e then decide (w = true ∧ c.flavor ≠ .MAKERBOT) else s.waited i) := by
    unfold tempLine
    dsimp only
    by_cases hw : w = true ∧ c.flavor ≠ .MAKERBOT
    · rw [if_pos hw]
      have hs1 : ∀ s1 : St, m.after M s1 = m.after M s → s1.cur = s.cur →
          (m.after M { s1.emit (.tempWait (if e ≠ s.cur then some e else none) (printed 1 t)) with
            waited := fun i => if i = e then true else s1.waited i }) =
          (m.after M s).exec M (.tempWait (if e ≠ s.cur then some e else none) (printed 1 t)) := by
        intro s1 h1 _
        rw [← h1, ← after_emit]; exact after_out
      by_cases hm : c.flavor = .MARLIN
      · rw [if_pos hm]
        have h105 : m.after M (s.emit .m105) = m.after M s := by rw [after_emit]; rfl
        rw [hs1 (s.emit .m105) h105 rfl]
        refine ⟨hselT, ?_, ?_, rfl, rfl, ?_⟩
        · simp only [Machine.exec]; rw [hget]
        · simp only [Machine.exec]; rw [hget]; simp only [hw, ne_eq, not_false_eq_true, and_self, if_true]
        · simp [hw, St.emit]
      · rw [if_neg hm]
        rw [hs1 s rfl rfl]
        refine ⟨hselT, ?_, ?_, rfl, rfl, ?_⟩
        · simp only [Machine.exec]; rw [hget]
        · simp only [Machine.exec]; rw [hget]; simp only [hw, ne_eq, not_false_eq_true, and_self, if_true]
        · simp [hw]
    · rw [if_neg hw]
      have hs1 : (m.after M { s.emit (.temp (if e ≠ s.cur then some e else none) (printed 1 t)) with
            waited := fun i => if i = e then false else s.waited i }) =
          (m.after M s).exec M (.temp (if e ≠ s.cur then some e else none) (printed 1 t)) := by
        rw [← after_emit]; exact after_out
      rw [hs1]
      refine ⟨hselT, ?_, ?_, rfl, rfl, ?_⟩
      · simp only [Machine.exec]; rw [hget]
      · simp only [Machine.exec]; rw [hget]; simp only [if_neg hw]
      · simp only [hw, decide_false]
  obtain ⟨l1, l2, l3, l4, l5, l6⟩ := hline
  unfold writeTemp
  dsimp only
  generalize tempLine c s e t w = s1 at *
  -- switching back
  have hback : (m.after M (if e ≠ s1.cur ∧ c.alwaysTool then s1.emit (.tool s1.cur) else s1)).tool = s.cur ∧
      (m.after M (if e ≠ s1.cur ∧ c.alwaysTool then s1.emit (.tool s1.cur) else s1)).target = (m.after M s1).target ∧
      (m.after M (if e ≠ s1.cur ∧ c.alwaysTool then s1.emit (.tool s1.cur) else s1)).hot = (m.after M s1).hot := by
    rw [l4]
    split
    · rw [after_emit]; exact ⟨rfl, rfl, rfl⟩
    · rename_i h
      refine ⟨?_, rfl, rfl⟩
      rw [l1, if_neg]
      intro h'
      exact h ⟨h'.1, hsel h'.2⟩
  have hrest : (if e ≠ s1.cur ∧ c.alwaysTool then s1.emit (.tool s1.cur) else s1).temp = s1.temp ∧
      (if e ≠ s1.cur ∧ c.alwaysTool then s1.emit (.tool s1.cur) else s1).waited = s1.waited := by
    split <;> exact ⟨rfl, rfl⟩
  generalize (if e ≠ s1.cur ∧ c.alwaysTool then s1.emit (.tool s1.cur) else s1) = s2 at *
  obtain ⟨b1, b2, b3⟩ := hback
  obtain ⟨r1, r2⟩ := hrest
  by_cases hm : w = true ∧ c.flavor = .MAKERBOT
  · rw [if_pos hm]
    have ha : ∀ f, m.after M { s2.emit .waitAll with temp := f } = (m.after M s2).exec M .waitAll := by
      intro f; rw [← after_emit]; exact after_out
    rw [ha]
    refine ⟨b1, by rw [← l2, ← b2]; rfl, fun i => ?_, ?_, ?_⟩
    · rw [if_pos ⟨hm.1, Or.inl hm.2⟩]; rfl
    · show (fun i => if i = e then t else s2.temp i) = _
      rw [r1, l5]
    · show s2.waited = _
      rw [r2, l6]
  · rw [if_neg hm]
    have ha : ∀ f, m.after M { s2 with temp := f } = m.after M s2 := fun f => after_out
    rw [ha]
    refine ⟨b1, by rw [b2, l2], fun i => ?_, ?_, ?_⟩
    · rw [b3, l3]
      by_cases hi : i = M.heater e
      · simp only [if_pos hi]
        by_cases hw : w = true
        · have : c.flavor ≠ .MAKERBOT := fun h => hm ⟨hw, h⟩
          rw [if_pos ⟨hw, this⟩, if_pos ⟨hw, Or.inr hi⟩]
        · rw [if_neg (fun h => hw h.1), if_neg (fun h => hw h.1)]
      · simp only [if_neg hi]
        rw [if_neg]
        rintro ⟨hw, h | h⟩
        · exact hm ⟨hw, h⟩
        · exact hi h
    · show (fun i => if i = e then t else s2.temp i) = _
      rw [r1, l5]
    · show s2.waited = _
      rw [r2, l6]

theorem writeTemp_cur (s : St) (e : Nat) (t : ℚ) (w : Bool) : (writeTemp c s e t w).cur = s.cur := by
  have h1 : (tempLine c s e t w).cur = s.cur := by
    unfold tempLine; dsimp only
    split
    · split <;> rfl
    · rfl
  unfold writeTemp
  dsimp only
  generalize tempLine c s e t w = s1 at *
  split <;> split <;> simpa only [St.emit] using h1

/-! ## Separate heaters -/

structure HeatInv (c : Cfg) (m : Machine) (s : St) : Prop where
  tool : m.tool = s.cur
  target : ∀ e, m.target e = printed 1 (s.temp e)
  waited : ∀ e, s.waited e = true → m.hot e = true

theorem heat_temp (hc : c.share = false) (hM : M.shared = false) (hsel : M.selects = true → c.alwaysTool = true) (s : St)
    (e : Nat) (t : ℚ) (w f : Bool) (h : HeatInv c (m.after M s) s) :
    HeatInv c (m.after M (temp c s e t w f)) (temp c s e t w f) ∧
    (c.tempEnabled e = true → (temp c s e t w f).temp = (fun i => if i = e then t else s.temp i) ∧
      (w = true → (m.after M (temp c s e t w f)).hot e = true)) ∧
    (c.tempEnabled e = false → (temp c s e t w f).temp = s.temp) := by
  have hheat : ∀ i, M.heater i = i := by intro i; simp [MachineCfg.heater, hM]
  unfold temp
  by_cases he : c.tempEnabled e = false
  · rw [if_pos he]
    exact ⟨h, fun h' => by rw [he] at h'; simp at h', fun _ => rfl⟩
  · rw [if_neg he, if_neg (by simp [hc])]
    simp only [hc, Bool.false_eq_true, if_false]
    unfold tempUnlessSame
    split
    · rename_i hsup
      refine ⟨h, fun _ => ⟨?_, fun hw => ?_⟩, fun h' => absurd h' he⟩
      · funext i
        by_cases hi : i = e
        · rw [if_pos hi, hi]; exact hsup.2.2
        · rw [if_neg hi]
      · rcases hsup.1 with h1 | h1
        · rw [hw] at h1; simp at h1
        · exact h.waited e h1
    · obtain ⟨w1, w2, w3, w4, w5⟩ := writeTemp_after (c := c) (m := m) (M := M) s e t w h.tool hsel
      have hcur : (writeTemp c s e t w).cur = s.cur := writeTemp_cur s e t w
      refine ⟨⟨by rw [w1, hcur], fun i => ?_, fun i hi => ?_⟩, fun _ => ⟨w4, fun hw => ?_⟩, fun h' => absurd h' he⟩
      · rw [w2, w4, hheat]
        by_cases hi : i = e
        · simp only [if_pos hi]
        · simp only [if_neg hi]; exact h.target i
      · rw [w5] at hi
        rw [w3, hheat]
        by_cases hie : i = e
        · simp only [if_pos hie, decide_eq_true_eq] at hi
          rw [if_pos ⟨hi.1, Or.inr hie⟩]
        · simp only [if_neg hie] at hi
          split
          · rfl
          · exact h.waited i hi
      · rw [w3, hheat, if_pos ⟨hw, Or.inr rfl⟩]

theorem heat_leaves {s s' : St} (hl : Leaves .heat s s') (hc : s'.cur = s.cur) (ht : s'.temp = s.temp)
    (hw : s'.waited = s.waited) (h : HeatInv c (m.after M s) s) : HeatInv c (m.after M s') s' := by
  obtain ⟨a1, a2, a3⟩ : Agree (m.after M s) (m.after M s') .heat := hl.agree
  exact ⟨by rw [a1, hc]; exact h.tool, fun e => by rw [a2, ht]; exact h.target e,
    fun e he => by rw [a3]; rw [hw] at he; exact h.waited e he⟩

theorem tool_after (s : St) (t : Nat) (h : (m.after M s).tool = s.cur) :
    (m.after M (step c s (.tool t))).tool = t ∧ (m.after M (step c s (.tool t))).target = (m.after M s).target ∧
    (m.after M (step c s (.tool t))).hot = (m.after M s).hot := by
  have ha : m.after M (step c s (.tool t)) = m.after M (if t ≠ s.cur then s.emit (.tool t) else s) := by
    apply after_out
    unfold step; rfl
  rw [ha]
  split
  · rw [after_emit]; exact ⟨rfl, rfl, rfl⟩
  · rename_i h'
    simp only [ne_eq, not_not] at h'
    exact ⟨by rw [h, h'], rfl, rfl⟩

theorem heat_step (hc : c.share = false) (hM : M.shared = false) (hsel : M.selects = true → c.alwaysTool = true) (s : St)
    (op : Op) (h : HeatInv c (m.after M s) s) : HeatInv c (m.after M (step c s op)) (step c s op) := by
  cases op with
  | fan v e =>
    obtain ⟨_, a2, a3, a4, _⟩ := specificFan_rec (c := c) s v (c.fanNumber (e.getD s.cur))
    exact heat_leaves (leaves_specificFan .heat (by simp) s v _) a2 a3 a4 h
  | specificFan v k =>
    obtain ⟨_, a2, a3, a4, _⟩ := specificFan_rec (c := c) s v k
    exact heat_leaves (leaves_specificFan .heat (by simp) s v k) a2 a3 a4 h
  | temp e t w f => exact (heat_temp hc hM hsel s e t w f h).1
  | bed t w =>
    obtain ⟨_, a2, a3, a4, _⟩ := bed_rec (c := c) s t w
    exact heat_leaves (leaves_bed .heat (by simp) s t w) a2 a3 a4 h
  | printAcc a =>
    obtain ⟨_, a2, a3, a4, _⟩ := printAcc_rec (c := c) s a
    exact heat_leaves (leaves_printAcc .heat (by simp) s a) a2 a3 a4 h
  | travelAcc a =>
    obtain ⟨_, a2, a3, a4, _⟩ := travelAcc_rec (c := c) s a
    exact heat_leaves (leaves_travelAcc .heat (by simp) s a) a2 a3 a4 h
  | jerk j =>
    obtain ⟨_, a2, a3, a4, _⟩ := jerk_rec (c := c) s j
    exact heat_leaves (leaves_jerk .heat (by simp) s j) a2 a3 a4 h
  | tool t =>
    obtain ⟨b1, b2, b3⟩ := tool_after (c := c) (M := M) (m := m) s t h.tool
    obtain ⟨_, a2, a3, a4, _⟩ := tool_rec (c := c) s t
    exact ⟨by rw [b1, a2], fun e => by rw [b2, a3]; exact h.target e, fun e he => by
      rw [b3]; rw [a4] at he; exact h.waited e he⟩
  | assumeBed t => exact heat_leaves (s := s) (s' := step c s (.assumeBed t)) (leaves_assumeBed s t) rfl rfl rfl h

theorem heat_run (hc : c.share = false) (hM : M.shared = false) (hsel : M.selects = true → c.alwaysTool = true)
    (ops : List Op) : ∀ s : St, HeatInv c (m.after M s) s → HeatInv c (m.after M (run c s ops)) (run c s ops) := by
  induction ops with
  | nil => intro s h; exact h
  | cons op ops ih => intro s h; exact ih _ (heat_step hc hM hsel s op h)

theorem temp_last (hc : c.share = false) (e : Nat) (he : c.tempEnabled e = true) (ops : List Op) :
    ∀ s : St, (run c s ops).temp e = lastTemp e (s.temp e) ops := by
  induction ops with
  | nil => intro s; rfl
  | cons op ops ih =>
    intro s
    show (run c (step c s op) ops).temp e = _
    rw [ih]
    cases op with
    | fan v x => simp only [step, lastTemp, fan]; rw [(specificFan_rec s v _).2.2.1]
    | specificFan v k => simp only [step, lastTemp]; rw [(specificFan_rec s v k).2.2.1]
    | temp x t w f =>
      simp only [step, lastTemp]
      congr 1
      unfold temp
      by_cases hx : c.tempEnabled x = false
      · rw [if_pos hx, if_neg]
        rintro rfl
        rw [he] at hx; simp at hx
      · rw [if_neg hx, if_neg (by simp [hc])]
        simp only [hc, Bool.false_eq_true, if_false]
        unfold tempUnlessSame
        split
        · rename_i hsup
          by_cases hxe : x = e
          · rw [if_pos hxe, ← hxe]; exact hsup.2.2
          · rw [if_neg hxe]
        · have : ∀ s : St, (tempLine c s x t w).temp = s.temp := by
            intro s; unfold tempLine; dsimp only
            split
            · split <;> rfl
            · rfl
          have h2 : (writeTemp c s x t w).temp = fun i => if i = x then t else s.temp i := by
            unfold writeTemp
            dsimp only
            have := this s
            generalize tempLine c s x t w = s1 at *
            split <;> split <;> simp only [St.emit, this]
          rw [h2]
          by_cases hxe : x = e
          · simp [hxe]
          · simp [hxe, Ne.symm hxe]
    | bed t w => simp only [step, lastTemp]; rw [(bed_rec s t w).2.2.1]
    | printAcc a => simp only [step, lastTemp]; rw [(printAcc_rec s a).2.2.1]
    | travelAcc a => simp only [step, lastTemp]; rw [(travelAcc_rec s a).2.2.1]
    | jerk j => simp only [step, lastTemp]; rw [(jerk_rec s j).2.2.1]
    | tool t => rw [(tool_rec s t).2.2.1]; rfl
    | assumeBed t => rfl

/-! ## One heater for all -/

structure SharedInv (c : Cfg) (m : Machine) (s : St) : Prop where
  tool : m.tool = s.cur
  cur : s.cur < c.extruders
  target : ∀ e, e < c.extruders → m.target 0 = printed 1 (s.temp e)
  waited : ∀ e, e < c.extruders → s.waited e = true → m.hot 0 = true

theorem shared_temp (hc : c.share = true) (hM : M.shared = true) (hsel : M.selects = true → c.alwaysTool = true) (s : St)
    (e : Nat) (t : ℚ) (w f : Bool) (h : SharedInv c (m.after M s) s) :
    SharedInv c (m.after M (temp c s e t w f)) (temp c s e t w f) ∧
    (e = s.cur → c.tempEnabled e = true → (m.after M (temp c s e t w f)).target 0 = printed 1 t ∧
      (w = true → (m.after M (temp c s e t w f)).hot 0 = true)) ∧
    (¬ (e = s.cur ∧ c.tempEnabled e = true) → temp c s e t w f = s) := by
  have hheat : ∀ i, M.heater i = 0 := by intro i; simp [MachineCfg.heater, hM]
  unfold temp
  by_cases he : c.tempEnabled e = false
  · rw [if_pos he]
    exact ⟨h, fun _ h' => by rw [he] at h'; simp at h', fun _ => rfl⟩
  · rw [if_neg he]
    by_cases hcur : e = s.cur
    · rw [if_neg (by simp [hcur]), if_pos hc]
      have hE : e < c.extruders := hcur ▸ h.cur
      have hsync : (m.after M (syncOthers c s e t w)) = m.after M s := after_out
      unfold tempUnlessSame
      split
      · rename_i hsup
        have htemp : s.temp e = t := by
          have := hsup.2.2
          simpa [syncOthers] using this
        have hwe : w = false ∨ s.waited e = true := by
          rcases hsup.1 with h1 | h1
          · exact Or.inl h1
          · right; simpa [syncOthers] using h1
        have htar : (m.after M s).target 0 = printed 1 t := by rw [← htemp]; exact h.target e hE
        refine ⟨⟨by rw [hsync]; exact h.tool, h.cur, fun i hi => ?_, fun i hi hwi => ?_⟩, fun _ _ => ⟨?_, fun hw => ?_⟩,
          fun hx => ?_⟩
        · rw [hsync, htar]
          by_cases hie : i = e
          · simp [syncOthers, hie, htemp]
          · simp [syncOthers, hie, hi]
        · rw [hsync]
          by_cases hie : i = e
          · have : s.waited i = true := by simpa [syncOthers, hie] using hwi
            exact h.waited i hi this
          · simp only [syncOthers] at hwi
            split at hwi
            · rcases hwe with h1 | h1
              · rw [h1] at hwi; simp at hwi
              · exact h.waited e hE h1
            · exact h.waited i hi hwi
        · rw [hsync]; exact htar
        · rw [hsync]
          rcases hwe with h1 | h1
          · rw [hw] at h1; simp at h1
          · exact h.waited e hE h1
        · exact absurd ⟨hcur, by simpa using he⟩ hx
      · have ht' : (m.after M (syncOthers c s e t w)).tool = (syncOthers c s e t w).cur := by rw [hsync]; exact h.tool
        obtain ⟨w1, w2, w3, w4, w5⟩ := writeTemp_after (c := c) (m := m) (M := M) (syncOthers c s e t w) e t w ht' hsel
        have hcur2 : (writeTemp c (syncOthers c s e t w) e t w).cur = s.cur := writeTemp_cur _ e t w
        rw [hsync] at w2 w3
        refine ⟨⟨by rw [w1, hcur2]; rfl, by rw [hcur2]; exact h.cur, fun i hi => ?_, fun i hi hwi => ?_⟩,
          fun _ _ => ⟨?_, fun hw => ?_⟩, fun hx => ?_⟩
        · rw [w2, w4, hheat]
          simp only [if_true]
          by_cases hie : i = e
          · simp [hie]
          · simp [syncOthers, hie, hi]
        · rw [w5] at hwi
          rw [w3, hheat]
          by_cases hw : w = true
          · rw [if_pos ⟨hw, Or.inr rfl⟩]
          · rw [if_neg (fun hx => hw hx.1), if_pos rfl]
            by_cases hie : i = e
            · simp [hie, hw] at hwi
            · simp only [if_neg hie, syncOthers] at hwi
              split at hwi
              · exact absurd hwi hw
              · rename_i hni
                have hle : t ≤ s.temp i := by
                  by_contra hlt
                  exact hni ⟨hi, hie, Or.inr (not_le.mp hlt)⟩
                rw [h.waited i hi hwi, h.target i hi]
                simp [printed_mono 1 hle]
        · rw [w2, hheat]; simp
        · rw [w3, hheat, if_pos ⟨hw, Or.inr rfl⟩]
        · exact absurd ⟨hcur, by simpa using he⟩ hx
    · rw [if_pos ⟨hc, hcur⟩]
      exact ⟨h, fun h' => absurd h' hcur, fun _ => rfl⟩

theorem shared_leaves {s s' : St} (hl : Leaves .heat s s') (hc : s'.cur = s.cur) (ht : s'.temp = s.temp)
    (hw : s'.waited = s.waited) (h : SharedInv c (m.after M s) s) : SharedInv c (m.after M s') s' := by
  obtain ⟨a1, a2, a3⟩ : Agree (m.after M s) (m.after M s') .heat := hl.agree
  exact ⟨by rw [a1, hc]; exact h.tool, by rw [hc]; exact h.cur, fun e he => by rw [a2, ht]; exact h.target e he,
    fun e he hwe => by rw [a3]; rw [hw] at hwe; exact h.waited e he hwe⟩

/-- Tool changes go to extruders that exist. -/
def ToolsExist (c : Cfg) (ops : List Op) : Prop := ∀ t, Op.tool t ∈ ops → t < c.extruders

theorem shared_step (hc : c.share = true) (hM : M.shared = true) (hsel : M.selects = true → c.alwaysTool = true) (s : St)
    (op : Op) (hop : ∀ t, op = .tool t → t < c.extruders) (h : SharedInv c (m.after M s) s) :
    SharedInv c (m.after M (step c s op)) (step c s op) := by
  cases op with
  | fan v e =>
    obtain ⟨_, a2, a3, a4, _⟩ := specificFan_rec (c := c) s v (c.fanNumber (e.getD s.cur))
    exact shared_leaves (leaves_specificFan .heat (by simp) s v _) a2 a3 a4 h
  | specificFan v k =>
    obtain ⟨_, a2, a3, a4, _⟩ := specificFan_rec (c := c) s v k
    exact shared_leaves (leaves_specificFan .heat (by simp) s v k) a2 a3 a4 h
  | temp e t w f => exact (shared_temp hc hM hsel s e t w f h).1
  | bed t w =>
    obtain ⟨_, a2, a3, a4, _⟩ := bed_rec (c := c) s t w
    exact shared_leaves (leaves_bed .heat (by simp) s t w) a2 a3 a4 h
  | printAcc a =>
    obtain ⟨_, a2, a3, a4, _⟩ := printAcc_rec (c := c) s a
    exact shared_leaves (leaves_printAcc .heat (by simp) s a) a2 a3 a4 h
  | travelAcc a =>
    obtain ⟨_, a2, a3, a4, _⟩ := travelAcc_rec (c := c) s a
    exact shared_leaves (leaves_travelAcc .heat (by simp) s a) a2 a3 a4 h
  | jerk j =>
    obtain ⟨_, a2, a3, a4, _⟩ := jerk_rec (c := c) s j
    exact shared_leaves (leaves_jerk .heat (by simp) s j) a2 a3 a4 h
  | tool t =>
    obtain ⟨b1, b2, b3⟩ := tool_after (c := c) (M := M) (m := m) s t h.tool
    obtain ⟨_, a2, a3, a4, _⟩ := tool_rec (c := c) s t
    exact ⟨by rw [b1, a2], by rw [a2]; exact hop t rfl, fun e he => by rw [b2, a3]; exact h.target e he, fun e he hwe => by
      rw [b3]; rw [a4] at hwe; exact h.waited e he hwe⟩
  | assumeBed t => exact shared_leaves (s := s) (s' := step c s (.assumeBed t)) (leaves_assumeBed s t) rfl rfl rfl h

theorem shared_run (hc : c.share = true) (hM : M.shared = true) (hsel : M.selects = true → c.alwaysTool = true)
    (ops : List Op) : ∀ s : St, ToolsExist c ops → SharedInv c (m.after M s) s →
      SharedInv c (m.after M (run c s ops)) (run c s ops) := by
  induction ops with
  | nil => intro s _ h; exact h
  | cons op ops ih =>
    intro s hop h
    exact ih _ (fun t ht => hop t (List.mem_cons_of_mem _ ht)) (shared_step hc hM hsel s op (fun t ht => hop t (by simp [ht])) h)

theorem shared_last (hc : c.share = true) (hM : M.shared = true) (hsel : M.selects = true → c.alwaysTool = true)
    (ops : List Op) : ∀ (s : St) (v : ℚ), ToolsExist c ops → SharedInv c (m.after M s) s →
      (m.after M s).target 0 = printed 1 v → (m.after M (run c s ops)).target 0 = printed 1 (lastShared c s.cur v ops) := by
  induction ops with
  | nil => intro s v _ _ h; exact h
  | cons op ops ih =>
    intro s v hop h hv
    have hstep := shared_step hc hM hsel s op (fun t ht => hop t (by simp [ht])) h
    have hop' : ToolsExist c ops := fun t ht => hop t (List.mem_cons_of_mem _ ht)
    have same : Leaves .heat s (step c s op) → (step c s op).cur = s.cur →
        (m.after M (run c s (op :: ops))).target 0 = printed 1 (lastShared c s.cur v ops) := by
      intro hl hcu
      obtain ⟨_, a2, _⟩ : Agree (m.after M s) (m.after M (step c s op)) .heat := hl.agree
      have := ih (step c s op) v hop' hstep (by rw [a2]; exact hv)
      rw [hcu] at this
      exact this
    cases op with
    | fan x e => exact same (leaves_specificFan .heat (by simp) s x _) (specificFan_rec s x _).2.1
    | specificFan x k => exact same (leaves_specificFan .heat (by simp) s x k) (specificFan_rec s x k).2.1
    | temp e t w f =>
      obtain ⟨_, h2, h3⟩ := shared_temp (m := m) (M := M) hc hM hsel s e t w f h
      show (m.after M (run c (temp c s e t w f) ops)).target 0 = _
      have hcu : (temp c s e t w f).cur = s.cur := (temp_rec s e t w f).2.1
      simp only [lastShared]
      by_cases hx : e = s.cur ∧ c.tempEnabled e = true
      · rw [if_pos hx]
        have := ih (temp c s e t w f) t hop' hstep (h2 hx.1 hx.2).1
        rw [hcu] at this
        exact this
      · rw [if_neg hx]
        have := ih (temp c s e t w f) v hop' hstep (by rw [h3 hx]; exact hv)
        rw [hcu] at this
        exact this
    | bed t w => exact same (leaves_bed .heat (by simp) s t w) (bed_rec s t w).2.1
    | printAcc a => exact same (leaves_printAcc .heat (by simp) s a) (printAcc_rec s a).2.1
    | travelAcc a => exact same (leaves_travelAcc .heat (by simp) s a) (travelAcc_rec s a).2.1
    | jerk j => exact same (leaves_jerk .heat (by simp) s j) (jerk_rec s j).2.1
    | tool t =>
      obtain ⟨_, b2, _⟩ := tool_after (c := c) (M := M) (m := m) s t h.tool
      have := ih (step c s (.tool t)) v hop' hstep (by rw [b2]; exact hv)
      rw [(tool_rec s t).2.1] at this
      exact this
    | assumeBed t => exact same (leaves_assumeBed s t) rfl

/-! ## Bed, acceleration, jerk -/

theorem bed_after (hf : c.flavor ≠ .ULTIGCODE) (s : St) (t : ℚ) (w : Bool)
    (h : (m.after M s).bed = printed 1 s.bed) : (m.after M (bed c s t w)).bed = printed 1 t := by
  unfold bed
  rw [if_neg hf]
  by_cases hb : s.bed = t
  · rw [if_neg (by simpa using hb), h, hb]
  · rw [if_pos hb]
    dsimp only
    have : ∀ (s1 : St), m.after M { s1 with bed := t } = m.after M s1 := fun _ => after_out
    rw [this]
    split
    · rw [after_emit]; rfl
    · rw [after_emit]; rfl

theorem bed_step (hf : c.flavor ≠ .ULTIGCODE) (s : St) (op : Op) (hop : ∀ t, op ≠ .assumeBed t)
    (h : (m.after M s).bed = printed 1 s.bed) : (m.after M (step c s op)).bed = printed 1 (step c s op).bed := by
  have same : Leaves .bed s (step c s op) → (step c s op).bed = s.bed →
      (m.after M (step c s op)).bed = printed 1 (step c s op).bed := by
    intro hl hb
    obtain ⟨a1, _⟩ : Agree (m.after M s) (m.after M (step c s op)) .bed := hl.agree
    rw [a1, hb]; exact h
  cases op with
  | fan v e => exact same (leaves_specificFan .bed (by simp) s v _) (specificFan_rec s v _).2.2.2.2.1
  | specificFan v k => exact same (leaves_specificFan .bed (by simp) s v k) (specificFan_rec s v k).2.2.2.2.1
  | temp e t w f => exact same (leaves_temp .bed (by simp) s e t w f) (temp_rec s e t w f).2.2.1
  | bed t w =>
    show (m.after M (bed c s t w)).bed = printed 1 (bed c s t w).bed
    rw [bed_after hf s t w h, (bed_rec s t w).2.2.2.2.2.2.2, if_neg hf]
  | printAcc a => exact same (leaves_printAcc .bed (by simp) s a) (printAcc_rec s a).2.2.2.2.1
  | travelAcc a => exact same (leaves_travelAcc .bed (by simp) s a) (travelAcc_rec s a).2.2.2.2.1
  | jerk j => exact same (leaves_jerk .bed (by simp) s j) (jerk_rec s j).2.2.2.2.1
  | tool t => exact same (leaves_tool .bed (by simp) s t) (tool_rec s t).2.2.2.2.1
  | assumeBed t => exact absurd rfl (hop t)

theorem bed_last (hf : c.flavor ≠ .ULTIGCODE) (ops : List Op) : ∀ s : St, (∀ t, Op.assumeBed t ∉ ops) →
    (run c s ops).bed = lastBed s.bed ops := by
  induction ops with
  | nil => intro s _; rfl
  | cons op ops ih =>
    intro s hn
    show (run c (step c s op) ops).bed = _
    rw [ih _ (fun t ht => hn t (List.mem_cons_of_mem _ ht))]
    cases op with
    | fan v x => simp only [step, lastBed, fan]; rw [(specificFan_rec s v _).2.2.2.2.1]
    | specificFan v k => simp only [step, lastBed]; rw [(specificFan_rec s v k).2.2.2.2.1]
    | temp x t w f => simp only [step, lastBed]; rw [(temp_rec s x t w f).2.2.1]
    | bed t w => simp only [step, lastBed]; rw [(bed_rec s t w).2.2.2.2.2.2.2, if_neg hf]
    | printAcc a => simp only [step, lastBed]; rw [(printAcc_rec s a).2.2.2.2.1]
    | travelAcc a => simp only [step, lastBed]; rw [(travelAcc_rec s a).2.2.2.2.1]
    | jerk j => simp only [step, lastBed]; rw [(jerk_rec s j).2.2.2.2.1]
    | tool t => rw [(tool_rec s t).2.2.2.2.1]; rfl
    | assumeBed t => exact absurd (List.mem_cons_self ..) (hn t)

/-- Flavours with separate accelerations for printing and travelling. -/
def Separate (c : Cfg) : Prop := c.flavor = .REPETIER ∨ c.flavor = .REPRAP

instance : Decidable (Separate c) := by unfold Separate; infer_instance

/-- Acceleration record and machine agree, once something was requested (requests are not negative). -/
structure AccInv (c : Cfg) (m : Machine) (s : St) : Prop where
  one : ¬ Separate c → s.pAcc ≠ -1 → m.acc = printed 0 s.pAcc
  p : Separate c → s.pAcc ≠ -1 → m.accP = printed 0 s.pAcc
  t : Separate c → s.tAcc ≠ -1 → m.accT = printed 0 s.tAcc

theorem printAcc_after (s : St) (a : ℚ) (ha : 0 ≤ a) (h : AccInv c (m.after M s) s) :
    AccInv c (m.after M (printAcc c s a)) (printAcc c s a) := by
  obtain ⟨_, _, _, _, _, r6, r7, _⟩ := printAcc_rec (c := c) s a
  have hne : a ≠ -1 := by intro h; rw [h] at ha; norm_num at ha
  have hout : m.after M (printAcc c s a) = m.after M (if s.pAcc ≠ a then
      match c.flavor with
      | .REPETIER => s.emit (.accP (printed 0 a))
      | .REPRAP => s.emit (.accP (printed 0 a))
      | _ => s.emit (.acc (printed 0 a))
    else s) := by
    apply after_out; unfold printAcc; rfl
  have key : (¬ Separate c → (m.after M (printAcc c s a)).acc = printed 0 a) ∧
      (Separate c → (m.after M (printAcc c s a)).accP = printed 0 a ∧
        (m.after M (printAcc c s a)).accT = (m.after M s).accT) := by
    rw [hout]
    by_cases hp : s.pAcc = a
    · rw [if_neg (by simpa using hp)]
      exact ⟨fun hs => by rw [← hp]; exact h.one hs (by rw [hp]; exact hne),
        fun hs => ⟨by rw [← hp]; exact h.p hs (by rw [hp]; exact hne), rfl⟩⟩
    · rw [if_pos hp]
      unfold Separate
      cases c.flavor <;> simp [after_emit, Machine.exec]
  refine ⟨fun hs _ => by rw [r6]; exact key.1 hs, fun hs _ => by rw [r6]; exact (key.2 hs).1, fun hs ht => ?_⟩
  rw [(key.2 hs).2, r7]
  rw [r7] at ht
  exact h.t hs ht

theorem travelAcc_after (s : St) (a : ℚ) (ha : 0 ≤ a) (h : AccInv c (m.after M s) s) :
    AccInv c (m.after M (travelAcc c s a)) (travelAcc c s a) := by
  obtain ⟨_, _, _, _, _, r6, r7, _⟩ := travelAcc_rec (c := c) s a
  have hne : a ≠ -1 := by intro h; rw [h] at ha; norm_num at ha
  by_cases hs : Separate c
  · have hout : m.after M (travelAcc c s a) = m.after M (if s.tAcc ≠ a then s.emit (.accT (printed 0 a)) else s) := by
      apply after_out
      unfold travelAcc
      dsimp only
      rcases hs with hs | hs <;> rw [hs]
    refine ⟨fun hn => absurd hs hn, fun _ hp => ?_, fun _ ht => ?_⟩
    · rw [r6, if_pos (show _ ∨ _ from hs)] at hp ⊢
      have : (m.after M (travelAcc c s a)).accP = (m.after M s).accP := by
        rw [hout]; split
        · rw [after_emit]; rfl
        · rfl
      rw [this]; exact h.p hs hp
    · rw [r7, hout]
      by_cases ht' : s.tAcc = a
      · rw [if_neg (by simpa using ht'), ← ht']; exact h.t hs (by rw [ht']; exact hne)
      · rw [if_pos ht', after_emit]; rfl
  · have hout : m.after M (travelAcc c s a) = m.after M (printAcc c s a) := by
      apply after_out
      unfold travelAcc
      dsimp only
      unfold Separate at hs
      split
      · rename_i h1; exact absurd (Or.inl h1) hs
      · rename_i h1; exact absurd (Or.inr h1) hs
      · rfl
    have hp := printAcc_after (m := m) (M := M) s a ha h
    refine ⟨fun _ h1 => ?_, fun h' => absurd h' hs, fun h' => absurd h' hs⟩
    have r6' := (printAcc_rec (c := c) s a).2.2.2.2.2.1
    have h2 := hp.one hs (by rw [r6']; exact hne)
    rw [r6, if_neg (by unfold Separate at hs; exact hs), hout, h2, r6']

theorem acc_leaves {s s' : St} (hl : Leaves .acc s s') (h1 : s'.pAcc = s.pAcc) (h2 : s'.tAcc = s.tAcc)
    (h : AccInv c (m.after M s) s) : AccInv c (m.after M s') s' := by
  obtain ⟨a1, a2, a3⟩ : Agree (m.after M s) (m.after M s') .acc := hl.agree
  exact ⟨by rw [a1, h1]; exact h.one, by rw [a2, h1]; exact h.p, by rw [a3, h2]; exact h.t⟩

/-- Requested accelerations and jerks are not negative. -/
def NonNeg : Op → Prop
  | .printAcc a => 0 ≤ a
  | .travelAcc a => 0 ≤ a
  | .jerk j => 0 ≤ j
  | _ => True

theorem acc_step (s : St) (op : Op) (hop : NonNeg op) (h : AccInv c (m.after M s) s) :
    AccInv c (m.after M (step c s op)) (step c s op) := by
  cases op with
  | fan v e =>
    obtain ⟨_, _, _, _, _, a6, a7, _⟩ := specificFan_rec (c := c) s v (c.fanNumber (e.getD s.cur))
    exact acc_leaves (leaves_specificFan .acc (by simp) s v _) a6 a7 h
  | specificFan v k =>
    obtain ⟨_, _, _, _, _, a6, a7, _⟩ := specificFan_rec (c := c) s v k
    exact acc_leaves (leaves_specificFan .acc (by simp) s v k) a6 a7 h
  | temp e t w f =>
    obtain ⟨_, _, _, a6, a7, _⟩ := temp_rec (c := c) s e t w f
    exact acc_leaves (leaves_temp .acc (by simp) s e t w f) a6 a7 h
  | bed t w =>
    obtain ⟨_, _, _, _, a6, a7, _⟩ := bed_rec (c := c) s t w
    exact acc_leaves (leaves_bed .acc (by simp) s t w) a6 a7 h
  | printAcc a => exact printAcc_after s a hop h
  | travelAcc a => exact travelAcc_after s a hop h
  | jerk j =>
    obtain ⟨_, _, _, _, _, a6, a7, _⟩ := jerk_rec (c := c) s j
    exact acc_leaves (leaves_jerk .acc (by simp) s j) a6 a7 h
  | tool t =>
    obtain ⟨_, _, _, _, _, a6, a7, _⟩ := tool_rec (c := c) s t
    exact acc_leaves (leaves_tool .acc (by simp) s t) a6 a7 h
  | assumeBed t => exact acc_leaves (s := s) (s' := step c s (.assumeBed t)) (leaves_assumeBed s t) rfl rfl h

theorem acc_run (ops : List Op) : ∀ s : St, (∀ op ∈ ops, NonNeg op) → AccInv c (m.after M s) s →
    AccInv c (m.after M (run c s ops)) (run c s ops) := by
  induction ops with
  | nil => intro s _ h; exact h
  | cons op ops ih =>
    intro s hop h
    exact ih _ (fun o ho => hop o (List.mem_cons_of_mem _ ho)) (acc_step s op (hop op (by simp)) h)

/-- The recorded print acceleration is the last request, with `-1` for none. -/
theorem pAcc_last (ops : List Op) : ∀ (s : St) (v : Option ℚ), s.pAcc = v.getD (-1) →
    (run c s ops).pAcc = (lastAcc true (decide (¬ Separate c)) v ops).getD (-1) := by
  induction ops with
  | nil => intro s v h; exact h
  | cons op ops ih =>
    intro s v h
    show (run c (step c s op) ops).pAcc = _
    cases op with
    | fan x e => exact ih _ v (by simp only [step, fan]; rw [(specificFan_rec s x _).2.2.2.2.2.1]; exact h)
    | specificFan x k => exact ih _ v (by simp only [step]; rw [(specificFan_rec s x k).2.2.2.2.2.1]; exact h)
    | temp x t w f => exact ih _ v (by simp only [step]; rw [(temp_rec s x t w f).2.2.2.1]; exact h)
    | bed t w => exact ih _ v (by simp only [step]; rw [(bed_rec s t w).2.2.2.2.1]; exact h)
    | printAcc a => exact ih _ (some a) (by simp only [step]; rw [(printAcc_rec s a).2.2.2.2.2.1]; rfl)
    | travelAcc a =>
      have hr := (travelAcc_rec (c := c) s a).2.2.2.2.2.1
      refine ih _ _ ?_
      simp only [step]
      rw [hr]
      by_cases hs : Separate c
      · rw [if_pos (show _ ∨ _ from hs)]; simp [hs, h]
      · rw [if_neg (by unfold Separate at hs; exact hs)]; simp [hs]
    | jerk j => exact ih _ v (by simp only [step]; rw [(jerk_rec s j).2.2.2.2.2.1]; exact h)
    | tool t => exact ih _ v (by rw [(tool_rec s t).2.2.2.2.2.1]; exact h)
    | assumeBed t => exact ih _ v h

theorem tAcc_last (ops : List Op) : ∀ (s : St) (v : Option ℚ), s.tAcc = v.getD (-1) →
    (run c s ops).tAcc = (lastAcc false true v ops).getD (-1) := by
  induction ops with
  | nil => intro s v h; exact h
  | cons op ops ih =>
    intro s v h
    show (run c (step c s op) ops).tAcc = _
    cases op with
    | fan x e => exact ih _ v (by simp only [step, fan]; rw [(specificFan_rec s x _).2.2.2.2.2.2.1]; exact h)
    | specificFan x k => exact ih _ v (by simp only [step]; rw [(specificFan_rec s x k).2.2.2.2.2.2.1]; exact h)
    | temp x t w f => exact ih _ v (by simp only [step]; rw [(temp_rec s x t w f).2.2.2.2.1]; exact h)
    | bed t w => exact ih _ v (by simp only [step]; rw [(bed_rec s t w).2.2.2.2.2.1]; exact h)
    | printAcc a => exact ih _ v (by simp only [step]; rw [(printAcc_rec s a).2.2.2.2.2.2.1]; exact h)
    | travelAcc a => exact ih _ (some a) (by simp only [step]; rw [(travelAcc_rec s a).2.2.2.2.2.2.1]; rfl)
    | jerk j => exact ih _ v (by simp only [step]; rw [(jerk_rec s j).2.2.2.2.2.2.1]; exact h)
    | tool t => exact ih _ v (by rw [(tool_rec s t).2.2.2.2.2.2.1]; exact h)
    | assumeBed t => exact ih _ v h

/-- Jerk. -/
def JerkInv (c : Cfg) (m : Machine) (s : St) : Prop := s.jerk ≠ -1 → m.jerk = printed 2 (s.jerk * jerkUnit c.flavor)

theorem jerk_leaves {s s' : St} (hl : Leaves .jerk s s') (h1 : s'.jerk = s.jerk) (h : JerkInv c (m.after M s) s) :
    JerkInv c (m.after M s') s' := by
  have a1 : (m.after M s').jerk = (m.after M s).jerk := hl.agree
  unfold JerkInv; rw [a1, h1]; exact h

theorem jerk_step (s : St) (op : Op) (hop : NonNeg op) (h : JerkInv c (m.after M s) s) :
    JerkInv c (m.after M (step c s op)) (step c s op) := by
  cases op with
  | fan v e => exact jerk_leaves (leaves_specificFan .jerk (by simp) s v _) (specificFan_rec s v _).2.2.2.2.2.2.2 h
  | specificFan v k => exact jerk_leaves (leaves_specificFan .jerk (by simp) s v k) (specificFan_rec s v k).2.2.2.2.2.2.2 h
  | temp e t w f => exact jerk_leaves (leaves_temp .jerk (by simp) s e t w f) (temp_rec s e t w f).2.2.2.2.2 h
  | bed t w => exact jerk_leaves (leaves_bed .jerk (by simp) s t w) (bed_rec s t w).2.2.2.2.2.2.1 h
  | printAcc a => exact jerk_leaves (leaves_printAcc .jerk (by simp) s a) (printAcc_rec s a).2.2.2.2.2.2.2 h
  | travelAcc a => exact jerk_leaves (leaves_travelAcc .jerk (by simp) s a) (travelAcc_rec s a).2.2.2.2.2.2.2 h
  | jerk j =>
    have hne : j ≠ -1 := by intro hj; have : (0 : ℚ) ≤ j := hop; rw [hj] at this; norm_num at this
    show JerkInv c (m.after M (jerk c s j)) (jerk c s j)
    intro _
    rw [(jerk_rec s j).2.2.2.2.2.2.2]
    unfold jerk
    by_cases hj : s.jerk = j
    · rw [if_neg (by simpa using hj), ← hj]; exact h (by rw [hj]; exact hne)
    · rw [if_pos hj]
      have : ∀ f, m.after M { s.emit (.jerk (printed 2 (j * jerkUnit c.flavor))) with jerk := f } =
          (m.after M s).exec M (.jerk (printed 2 (j * jerkUnit c.flavor))) := by
        intro f; rw [← after_emit]; exact after_out
      rw [this]; rfl
  | tool t => exact jerk_leaves (leaves_tool .jerk (by simp) s t) (tool_rec s t).2.2.2.2.2.2.2 h
  | assumeBed t => exact jerk_leaves (s := s) (s' := step c s (.assumeBed t)) (leaves_assumeBed s t) rfl h

theorem jerk_run (ops : List Op) : ∀ s : St, (∀ op ∈ ops, NonNeg op) → JerkInv c (m.after M s) s →
    JerkInv c (m.after M (run c s ops)) (run c s ops) := by
  induction ops with
  | nil => intro s _ h; exact h
  | cons op ops ih =>
    intro s hop h
    exact ih _ (fun o ho => hop o (List.mem_cons_of_mem _ ho)) (jerk_step s op (hop op (by simp)) h)

theorem jerk_last (ops : List Op) : ∀ (s : St) (v : Option ℚ), s.jerk = v.getD (-1) →
    (run c s ops).jerk = (lastJerk v ops).getD (-1) := by
  induction ops with
  | nil => intro s v h; exact h
  | cons op ops ih =>
    intro s v h
    show (run c (step c s op) ops).jerk = _
    cases op with
    | fan x e => exact ih _ v (by simp only [step, fan]; rw [(specificFan_rec s x _).2.2.2.2.2.2.2]; exact h)
    | specificFan x k => exact ih _ v (by simp only [step]; rw [(specificFan_rec s x k).2.2.2.2.2.2.2]; exact h)
    | temp x t w f => exact ih _ v (by simp only [step]; rw [(temp_rec s x t w f).2.2.2.2.2]; exact h)
    | bed t w => exact ih _ v (by simp only [step]; rw [(bed_rec s t w).2.2.2.2.2.2.1]; exact h)
    | printAcc a => exact ih _ v (by simp only [step]; rw [(printAcc_rec s a).2.2.2.2.2.2.2]; exact h)
    | travelAcc a => exact ih _ v (by simp only [step]; rw [(travelAcc_rec s a).2.2.2.2.2.2.2]; exact h)
    | jerk j => exact ih _ (some j) (by simp only [step]; rw [(jerk_rec s j).2.2.2.2.2.2.2]; rfl)
    | tool t => exact ih _ v (by rw [(tool_rec s t).2.2.2.2.2.2.2]; exact h)
    | assumeBed t => exact ih _ v h

end Verif.Requests
