import Verif.Requests.Spec
import Mathlib.Tactic.Linarith
import Mathlib.Tactic.Positivity
import Mathlib.Tactic.FieldSimp

/-! # Lemmas for the requests -/

namespace Verif.Requests

variable {c : Cfg} {M : MachineCfg} {m : Machine}

theorem after_emit (s : St) (k : Cmd) : m.after M (s.emit k) = (m.after M s).exec M k := by
  simp [Machine.after, St.emit, List.foldl_append]

theorem after_out {s s' : St} (h : s'.out = s.out := by rfl) : m.after M s' = m.after M s := by
  simp [Machine.after, h]

theorem run_append (s : St) (a b : List Op) : run c s (a ++ b) = run c (run c s a) b := by
  simp [run, List.foldl_append]

/-- The parts of the machine. -/
inductive Part
  | fan | mb | heat | bed | acc | jerk

/-- The parts a command may touch. -/
def Cmd.part : Cmd → Part
  | .fan _ _ => .fan
  | .fanOff _ => .fan
  | .mbFan _ => .mb
  | .temp _ _ => .heat
  | .tempWait _ _ => .heat
  | .waitAll => .heat
  | .m105 => .heat
  | .bed _ => .bed
  | .bedWait _ => .bed
  | .acc _ => .acc
  | .accP _ => .acc
  | .accT _ => .acc
  | .jerk _ => .jerk
  | .tool _ => .heat

/-- The machine agrees on a part. -/
def Agree (m m' : Machine) : Part → Prop
  | .fan => m'.fan = m.fan
  | .mb => m'.mbFan = m.mbFan
  | .heat => m'.tool = m.tool ∧ m'.target = m.target ∧ m'.hot = m.hot
  | .bed => m'.bed = m.bed ∧ m'.bedHot = m.bedHot
  | .acc => m'.acc = m.acc ∧ m'.accP = m.accP ∧ m'.accT = m.accT
  | .jerk => m'.jerk = m.jerk

theorem Agree.refl (m : Machine) (p : Part) : Agree m m p := by cases p <;> simp [Agree]

theorem Agree.trans {m m' m'' : Machine} {p : Part} (h : Agree m m' p) (h' : Agree m' m'' p) : Agree m m'' p := by
  cases p <;> simp_all [Agree]

theorem agree_exec (m : Machine) (k : Cmd) (p : Part) (h : k.part ≠ p ∧ k ≠ .m105 ∨ k = .m105) : Agree m (m.exec M k) p := by
  cases k <;> cases p <;> simp_all [Cmd.part, Agree, Machine.exec]

/-- `s'` only adds commands that leave part `p` of the machine alone. -/
def Leaves (p : Part) (s s' : St) : Prop := ∃ ks, s'.out = s.out ++ ks ∧ ∀ k ∈ ks, (k.part ≠ p ∧ k ≠ .m105 ∨ k = .m105)

theorem Leaves.agree {p : Part} {s s' : St} (h : Leaves p s s') : Agree (m.after M s) (m.after M s') p := by
  obtain ⟨ks, ho, hk⟩ := h
  have : ∀ (ks : List Cmd) (m : Machine), (∀ k ∈ ks, (k.part ≠ p ∧ k ≠ .m105 ∨ k = .m105)) →
      Agree m (ks.foldl (Machine.exec M) m) p := by
    intro ks
    induction ks with
    | nil => intro m _; exact .refl m p
    | cons k ks ih =>
      intro m h
      exact (agree_exec m k p (h k (by simp))).trans (ih _ (fun k' hk' => h k' (List.mem_cons_of_mem _ hk')))
  unfold Machine.after
  rw [ho, List.foldl_append]
  exact this ks _ hk

theorem Leaves.refl {p : Part} {s s' : St} (h : s'.out = s.out := by rfl) : Leaves p s s' := ⟨[], by simp [h], by simp⟩

theorem Leaves.trans {p : Part} {s s' s'' : St} (h : Leaves p s s') (h' : Leaves p s' s'') : Leaves p s s'' := by
  obtain ⟨k1, o1, h1⟩ := h
  obtain ⟨k2, o2, h2⟩ := h'
  refine ⟨k1 ++ k2, by rw [o2, o1, List.append_assoc], fun k hk => ?_⟩
  rcases List.mem_append.mp hk with hk | hk
  · exact h1 k hk
  · exact h2 k hk

theorem leaves_emit {p : Part} {s s' : St} (k : Cmd) (h : k.part ≠ p ∧ k ≠ .m105 ∨ k = .m105)
    (ho : s'.out = s.out ++ [k] := by rfl) : Leaves p s s' :=
  ⟨[k], ho, by simpa using h⟩

theorem leaves_specificFan (p : Part) (hp : p ≠ .fan ∧ p ≠ .mb) (s : St) (v : ℚ) (n : Nat) :
    Leaves p s (specificFan c s v n) := by
  have hf : ∀ k : Cmd, (k.part = .fan ∨ k.part = .mb) → (k.part ≠ p ∧ k ≠ .m105 ∨ k = .m105) := by
    intro k hk
    by_cases h : k = .m105
    · exact Or.inr h
    · refine Or.inl ⟨fun h' => ?_, h⟩
      rcases hk with hk | hk
      · exact hp.1 (h'.symm.trans hk)
      · exact hp.2 (h'.symm.trans hk)
  have hl : ∀ s : St, Leaves p s (fanLine c s v n) := by
    intro s
    unfold fanLine
    split
    · exact leaves_emit _ (hf _ (Or.inl rfl))
    · exact leaves_emit _ (hf _ (Or.inl rfl))
  unfold specificFan
  dsimp only
  refine Leaves.trans ?_ .refl
  split
  · unfold fanMakerbot
    split
    · split
      · exact leaves_emit _ (hf _ (Or.inr rfl))
      · exact .refl
    · exact leaves_emit _ (hf _ (Or.inr rfl))
  · unfold fanNormal
    split
    · split
      · exact hl s
      · exact .refl
    · exact hl s

theorem leaves_temp (p : Part) (hp : p ≠ .heat) (s : St) (e : Nat) (t : ℚ) (w f : Bool) :
    Leaves p s (temp c s e t w f) := by
  have hf : ∀ k : Cmd, k.part = .heat → (k.part ≠ p ∧ k ≠ .m105 ∨ k = .m105) := by
    intro k hk
    by_cases h : k = .m105
    · exact Or.inr h
    · exact Or.inl ⟨fun h' => hp (h'.symm.trans hk), h⟩
  have hl : ∀ s : St, Leaves p s (tempLine c s e t w) := by
    intro s
    unfold tempLine
    dsimp only
    split
    · split
      · exact (leaves_emit (s' := s.emit .m105) _ (hf .m105 rfl)).trans (leaves_emit _ (hf (.tempWait _ _) rfl))
      · exact leaves_emit _ (hf (.tempWait _ _) rfl)
    · exact leaves_emit _ (hf (.temp _ _) rfl)
  have hw : ∀ s : St, Leaves p s (writeTemp c s e t w) := by
    intro s
    unfold writeTemp
    dsimp only
    have h1 := hl s
    generalize tempLine c s e t w = s1 at *
    have h2 : Leaves p s1 (if e ≠ s1.cur ∧ c.alwaysTool then s1.emit (.tool s1.cur) else s1) := by
      split
      · exact leaves_emit _ (hf (.tool _) rfl)
      · exact .refl
    generalize (if e ≠ s1.cur ∧ c.alwaysTool then s1.emit (.tool s1.cur) else s1) = s2 at *
    have h3 : Leaves p s2 (if w ∧ c.flavor = .MAKERBOT then s2.emit .waitAll else s2) := by
      split
      · exact leaves_emit _ (hf .waitAll rfl)
      · exact .refl
    exact (h1.trans h2).trans (h3.trans .refl)
  unfold temp
  split
  · exact .refl
  · split
    · exact .refl
    · have h1 : Leaves p s (if c.share then syncOthers c s e t w else s) := by
        split <;> exact .refl
      generalize (if c.share then syncOthers c s e t w else s) = s1 at *
      unfold tempUnlessSame
      split
      · exact h1
      · exact h1.trans (hw _)

theorem leaves_bed (p : Part) (hp : p ≠ .bed) (s : St) (t : ℚ) (w : Bool) : Leaves p s (bed c s t w) := by
  have hf : ∀ k : Cmd, k.part = .bed → (k.part ≠ p ∧ k ≠ .m105 ∨ k = .m105) := by
    intro k hk
    by_cases h : k = .m105
    · exact Or.inr h
    · exact Or.inl ⟨fun h' => hp (h'.symm.trans hk), h⟩
  unfold bed
  split
  · exact .refl
  · split
    · dsimp only
      refine Leaves.trans ?_ .refl
      split
      · split
        · exact ((leaves_emit (s' := s.emit (.bed (printed 1 t))) _ (hf (.bed _) rfl)).trans
            (leaves_emit (s' := (s.emit (.bed (printed 1 t))).emit .m105) .m105 (Or.inr rfl))).trans
              (leaves_emit _ (hf (.bedWait _) rfl))
        · exact leaves_emit _ (hf (.bedWait _) rfl)
      · exact leaves_emit _ (hf (.bed _) rfl)
    · exact .refl

theorem leaves_printAcc (p : Part) (hp : p ≠ .acc) (s : St) (a : ℚ) : Leaves p s (printAcc c s a) := by
  have hf : ∀ k : Cmd, k.part = .acc → (k.part ≠ p ∧ k ≠ .m105 ∨ k = .m105) := by
    intro k hk
    by_cases h : k = .m105
    · exact Or.inr h
    · exact Or.inl ⟨fun h' => hp (h'.symm.trans hk), h⟩
  unfold printAcc
  dsimp only
  refine Leaves.trans ?_ .refl
  split
  · cases c.flavor <;> exact leaves_emit _ (hf _ rfl)
  · exact .refl

theorem leaves_travelAcc (p : Part) (hp : p ≠ .acc) (s : St) (a : ℚ) : Leaves p s (travelAcc c s a) := by
  have hf : ∀ k : Cmd, k.part = .acc → (k.part ≠ p ∧ k ≠ .m105 ∨ k = .m105) := by
    intro k hk
    by_cases h : k = .m105
    · exact Or.inr h
    · exact Or.inl ⟨fun h' => hp (h'.symm.trans hk), h⟩
  unfold travelAcc
  dsimp only
  refine Leaves.trans ?_ .refl
  split
  · split
    · exact leaves_emit _ (hf (.accT _) rfl)
    · exact .refl
  · split
    · exact leaves_emit _ (hf (.accT _) rfl)
    · exact .refl
  · exact leaves_printAcc p hp s a

theorem leaves_jerk (p : Part) (hp : p ≠ .jerk) (s : St) (j : ℚ) : Leaves p s (jerk c s j) := by
  unfold jerk
  split
  · exact leaves_emit (.jerk (printed 2 (j * jerkUnit c.flavor))) (Or.inl ⟨fun h => hp h.symm, by simp⟩)
  · exact .refl

theorem leaves_tool (p : Part) (hp : p ≠ .heat) (s : St) (t : Nat) : Leaves p s (step c s (.tool t)) := by
  simp only [step]
  refine Leaves.trans ?_ .refl
  split
  · exact leaves_emit (.tool t) (Or.inl ⟨fun h => hp h.symm, by simp⟩)
  · exact .refl

/-! ## The record -/

theorem specificFan_rec (s : St) (v : ℚ) (n : Nat) :
    (specificFan c s v n).fan = (fun i => if i = n then some v else s.fan i) ∧ (specificFan c s v n).cur = s.cur ∧
    (specificFan c s v n).temp = s.temp ∧ (specificFan c s v n).waited = s.waited ∧ (specificFan c s v n).bed = s.bed ∧
    (specificFan c s v n).pAcc = s.pAcc ∧ (specificFan c s v n).tAcc = s.tAcc ∧ (specificFan c s v n).jerk = s.jerk := by
  have h : ∀ {s1 : St}, (s1 = s ∨ ∃ k, s1 = s.emit k) → s1.fan = s.fan ∧ s1.cur = s.cur ∧ s1.temp = s.temp ∧
      s1.waited = s.waited ∧ s1.bed = s.bed ∧ s1.pAcc = s.pAcc ∧ s1.tAcc = s.tAcc ∧ s1.jerk = s.jerk := by
    rintro s1 (rfl | ⟨k, rfl⟩) <;> exact ⟨rfl, rfl, rfl, rfl, rfl, rfl, rfl, rfl⟩
  have hl : fanLine c s v n = s ∨ ∃ k, fanLine c s v n = s.emit k := by
    unfold fanLine; split <;> exact Or.inr ⟨_, rfl⟩
  have h1 : (if c.flavor = .MAKERBOT then fanMakerbot s v n else fanNormal c s v n) = s ∨
      ∃ k, (if c.flavor = .MAKERBOT then fanMakerbot s v n else fanNormal c s v n) = s.emit k := by
    split
    · unfold fanMakerbot
      split
      · split
        · exact Or.inr ⟨_, rfl⟩
        · exact Or.inl rfl
      · exact Or.inr ⟨_, rfl⟩
    · unfold fanNormal
      split
      · split
        · exact hl
        · exact Or.inl rfl
      · exact hl
  unfold specificFan
  dsimp only
  obtain ⟨a1, a2, a3, a4, a5, a6, a7, a8⟩ := h h1
  exact ⟨by rw [a1], a2, a3, a4, a5, a6, a7, a8⟩

/-- A request other than a fan request keeps the record of the fans, and so on. -/
theorem temp_rec (s : St) (e : Nat) (t : ℚ) (w f : Bool) :
    (temp c s e t w f).fan = s.fan ∧ (temp c s e t w f).cur = s.cur ∧ (temp c s e t w f).bed = s.bed ∧
    (temp c s e t w f).pAcc = s.pAcc ∧ (temp c s e t w f).tAcc = s.tAcc ∧ (temp c s e t w f).jerk = s.jerk := by
  have hl : ∀ s : St, (tempLine c s e t w).fan = s.fan ∧ (tempLine c s e t w).cur = s.cur ∧
      (tempLine c s e t w).bed = s.bed ∧ (tempLine c s e t w).pAcc = s.pAcc ∧ (tempLine c s e t w).tAcc = s.tAcc ∧
      (tempLine c s e t w).jerk = s.jerk := by
    intro s; unfold tempLine; dsimp only
    split
    · split <;> exact ⟨rfl, rfl, rfl, rfl, rfl, rfl⟩
    · exact ⟨rfl, rfl, rfl, rfl, rfl, rfl⟩
  have hw : ∀ s : St, (writeTemp c s e t w).fan = s.fan ∧ (writeTemp c s e t w).cur = s.cur ∧
      (writeTemp c s e t w).bed = s.bed ∧ (writeTemp c s e t w).pAcc = s.pAcc ∧ (writeTemp c s e t w).tAcc = s.tAcc ∧
      (writeTemp c s e t w).jerk = s.jerk := by
    intro s; unfold writeTemp; dsimp only
    have := hl s
    generalize tempLine c s e t w = s1 at *
    split <;> split <;> exact this
  unfold temp
  split
  · exact ⟨rfl, rfl, rfl, rfl, rfl, rfl⟩
  · split
    · exact ⟨rfl, rfl, rfl, rfl, rfl, rfl⟩
    · have h1 : ∀ {s1 : St}, s1 = (if c.share then syncOthers c s e t w else s) → s1.fan = s.fan ∧ s1.cur = s.cur ∧
          s1.bed = s.bed ∧ s1.pAcc = s.pAcc ∧ s1.tAcc = s.tAcc ∧ s1.jerk = s.jerk := by
        rintro s1 rfl; split <;> exact ⟨rfl, rfl, rfl, rfl, rfl, rfl⟩
      have h2 := h1 rfl
      clear h1
      generalize (if c.share then syncOthers c s e t w else s) = s1 at *
      unfold tempUnlessSame
      split
      · exact h2
      · obtain ⟨b1, b2, b3, b4, b5, b6⟩ := hw s1
        obtain ⟨a1, a2, a3, a4, a5, a6⟩ := h2
        exact ⟨b1.trans a1, b2.trans a2, b3.trans a3, b4.trans a4, b5.trans a5, b6.trans a6⟩

theorem bed_rec (s : St) (t : ℚ) (w : Bool) :
    (bed c s t w).fan = s.fan ∧ (bed c s t w).cur = s.cur ∧ (bed c s t w).temp = s.temp ∧
    (bed c s t w).waited = s.waited ∧ (bed c s t w).pAcc = s.pAcc ∧ (bed c s t w).tAcc = s.tAcc ∧
    (bed c s t w).jerk = s.jerk ∧ (bed c s t w).bed = if c.flavor = .ULTIGCODE then s.bed else t := by
  unfold bed
  by_cases hf : c.flavor = .ULTIGCODE
  · rw [if_pos hf, if_pos hf]; exact ⟨rfl, rfl, rfl, rfl, rfl, rfl, rfl, rfl⟩
  · rw [if_neg hf, if_neg hf]
    by_cases hb : s.bed = t
    · rw [if_neg (by simpa using hb)]; exact ⟨rfl, rfl, rfl, rfl, rfl, rfl, rfl, hb⟩
    · rw [if_pos hb]
      dsimp only
      split
      · split <;> exact ⟨rfl, rfl, rfl, rfl, rfl, rfl, rfl, rfl⟩
      · exact ⟨rfl, rfl, rfl, rfl, rfl, rfl, rfl, rfl⟩

theorem printAcc_rec (s : St) (a : ℚ) :
    (printAcc c s a).fan = s.fan ∧ (printAcc c s a).cur = s.cur ∧ (printAcc c s a).temp = s.temp ∧
    (printAcc c s a).waited = s.waited ∧ (printAcc c s a).bed = s.bed ∧ (printAcc c s a).pAcc = a ∧
    (printAcc c s a).tAcc = s.tAcc ∧ (printAcc c s a).jerk = s.jerk := by
  unfold printAcc
  dsimp only
  split
  · cases c.flavor <;> exact ⟨rfl, rfl, rfl, rfl, rfl, rfl, rfl, rfl⟩
  · exact ⟨rfl, rfl, rfl, rfl, rfl, rfl, rfl, rfl⟩

theorem travelAcc_rec (s : St) (a : ℚ) :
    (travelAcc c s a).fan = s.fan ∧ (travelAcc c s a).cur = s.cur ∧ (travelAcc c s a).temp = s.temp ∧
    (travelAcc c s a).waited = s.waited ∧ (travelAcc c s a).bed = s.bed ∧
    (travelAcc c s a).pAcc = (if c.flavor = .REPETIER ∨ c.flavor = .REPRAP then s.pAcc else a) ∧
    (travelAcc c s a).tAcc = a ∧ (travelAcc c s a).jerk = s.jerk := by
  unfold travelAcc
  dsimp only
  split
  · rename_i h
    rw [if_pos (Or.inl h)]
    split <;> exact ⟨rfl, rfl, rfl, rfl, rfl, rfl, rfl, rfl⟩
  · rename_i h
    rw [if_pos (Or.inr h)]
    split <;> exact ⟨rfl, rfl, rfl, rfl, rfl, rfl, rfl, rfl⟩
  · rename_i h1 h2
    rw [if_neg (by rintro (h | h) <;> contradiction)]
    obtain ⟨a1, a2, a3, a4, a5, a6, a7, a8⟩ := printAcc_rec (c := c) s a
    exact ⟨a1, a2, a3, a4, a5, a6, rfl, a8⟩

theorem jerk_rec (s : St) (j : ℚ) :
    (jerk c s j).fan = s.fan ∧ (jerk c s j).cur = s.cur ∧ (jerk c s j).temp = s.temp ∧ (jerk c s j).waited = s.waited ∧
    (jerk c s j).bed = s.bed ∧ (jerk c s j).pAcc = s.pAcc ∧ (jerk c s j).tAcc = s.tAcc ∧ (jerk c s j).jerk = j := by
  unfold jerk
  by_cases h : s.jerk = j
  · rw [if_neg (by simpa using h)]; exact ⟨rfl, rfl, rfl, rfl, rfl, rfl, rfl, h⟩
  · rw [if_pos h]; exact ⟨rfl, rfl, rfl, rfl, rfl, rfl, rfl, rfl⟩

theorem tool_rec (s : St) (t : Nat) :
    (step c s (.tool t)).fan = s.fan ∧ (step c s (.tool t)).cur = t ∧ (step c s (.tool t)).temp = s.temp ∧
    (step c s (.tool t)).waited = s.waited ∧ (step c s (.tool t)).bed = s.bed ∧ (step c s (.tool t)).pAcc = s.pAcc ∧
    (step c s (.tool t)).tAcc = s.tAcc ∧ (step c s (.tool t)).jerk = s.jerk := by
  unfold step
  dsimp only
  split <;> exact ⟨rfl, rfl, rfl, rfl, rfl, rfl, rfl, rfl⟩

/-! ## Rounding -/

theorem roundHalfEven_small {q : ℚ} (h0 : 0 ≤ q) (h1 : q < 1) : Text.roundHalfEven q = 0 ∨ Text.roundHalfEven q = 1 := by
  have hf : ⌊q⌋ = 0 := by rw [Int.floor_eq_iff]; constructor <;> push_cast <;> linarith
  unfold Text.roundHalfEven
  rw [hf]
  split
  · exact Or.inl rfl
  · split
    · exact Or.inr rfl
    · exact Or.inl rfl

theorem roundHalfEven_tiny {q : ℚ} (h0 : 0 ≤ q) (h1 : q < 1 / 2) : Text.roundHalfEven q = 0 := by
  have hf : ⌊q⌋ = 0 := by rw [Int.floor_eq_iff]; constructor <;> push_cast <;> linarith
  unfold Text.roundHalfEven
  rw [hf, if_pos (by push_cast; linarith)]

theorem printed_zero_or_unit (p : Nat) (x : ℚ) (h : Text.wouldWriteZero p x = true) :
    printed p x = 0 ∨ |printed p x| = 1 / 10 ^ p := by
  unfold Text.wouldWriteZero at h
  have h1 : |x| * 10 ^ p < 1 := by simpa using h
  have hpos : (0 : ℚ) < 10 ^ p := by positivity
  rcases roundHalfEven_small (q := |x| * 10 ^ p) (by positivity) h1 with h2 | h2 <;> unfold printed <;> rw [h2]
  · left; split <;> simp
  · right
    split
    · rw [abs_neg, abs_of_pos (by positivity)]; norm_num
    · rw [abs_of_pos (by positivity)]; norm_num

theorem printed_tiny (p : Nat) (x : ℚ) (h : |x| * 10 ^ p < 1 / 2) : printed p x = 0 := by
  have hpos : (0 : ℚ) < 10 ^ p := by positivity
  unfold printed
  rw [roundHalfEven_tiny (by positivity) h]
  split <;> simp

theorem roundHalfEven_mono {a b : ℚ} (h : a ≤ b) : Text.roundHalfEven a ≤ Text.roundHalfEven b := by
  have hfl : ⌊a⌋ ≤ ⌊b⌋ := Int.floor_le_floor h
  rcases hfl.lt_or_eq with hlt | heq
  · have h1 : Text.roundHalfEven a ≤ ⌊a⌋ + 1 := by
      unfold Text.roundHalfEven; split
      · omega
      · split
        · omega
        · split <;> omega
    have h2 : ⌊b⌋ ≤ Text.roundHalfEven b := by
      unfold Text.roundHalfEven; split
      · omega
      · split
        · omega
        · split <;> omega
    omega
  · have hle : a - ⌊a⌋ ≤ b - ⌊b⌋ := by rw [heq]; linarith
    have hge : ∀ q : ℚ, ⌊q⌋ ≤ Text.roundHalfEven q := by
      intro q; unfold Text.roundHalfEven; split
      · omega
      · split
        · omega
        · split <;> omega
    by_cases h1 : a - ⌊a⌋ < 1 / 2
    · have : Text.roundHalfEven a = ⌊a⌋ := by unfold Text.roundHalfEven; rw [if_pos h1]
      rw [this, heq]; exact hge b
    · by_cases h2 : 1 / 2 < b - ⌊b⌋
      · have hb : Text.roundHalfEven b = ⌊b⌋ + 1 := by
          unfold Text.roundHalfEven; rw [if_neg (by linarith), if_pos h2]
        rw [hb, ← heq]
        unfold Text.roundHalfEven; split
        · omega
        · split
          · omega
          · split <;> omega
      · have he : a = b := by
          have : (⌊a⌋ : ℚ) = ⌊b⌋ := by rw [heq]
          linarith
        rw [he]

theorem roundHalfEven_nonneg {q : ℚ} (h : 0 ≤ q) : 0 ≤ Text.roundHalfEven q := by
  have hf : 0 ≤ ⌊q⌋ := Int.floor_nonneg.mpr h
  unfold Text.roundHalfEven; split
  · omega
  · split
    · omega
    · split <;> omega

theorem printed_mono (p : Nat) {a b : ℚ} (h : a ≤ b) : printed p a ≤ printed p b := by
  have hpos : (0 : ℚ) < 10 ^ p := by positivity
  unfold printed
  have hn : ∀ x : ℚ, 0 ≤ (Text.roundHalfEven (|x| * 10 ^ p) : ℚ) / 10 ^ p := by
    intro x
    have := roundHalfEven_nonneg (q := |x| * 10 ^ p) (by positivity)
    have : (0 : ℚ) ≤ (Text.roundHalfEven (|x| * 10 ^ p) : ℚ) := by exact_mod_cast this
    positivity
  by_cases ha : a < 0
  · by_cases hb : b < 0
    · rw [if_pos ha, if_pos hb]
      apply neg_le_neg
      rw [abs_of_neg ha, abs_of_neg hb]
      have := roundHalfEven_mono (a := -b * 10 ^ p) (b := -a * 10 ^ p) (by nlinarith)
      gcongr
    · rw [if_pos ha, if_neg hb]
      linarith [hn a, hn b]
  · rw [if_neg ha, if_neg (by linarith)]
    rw [abs_of_nonneg (by linarith), abs_of_nonneg (by linarith)]
    have := roundHalfEven_mono (a := a * 10 ^ p) (b := b * 10 ^ p) (by nlinarith)
    gcongr

/-! ## Fans -/

/-- The fan runs as recorded, or is off although the smallest step is recorded. -/
def FanInv (c : Cfg) (m : Machine) (s : St) (n : Nat) : Prop :=
  ∀ v, s.fan n = some v → m.fan n = printed (fanDigits c) (fanValue c v) ∨
    m.fan n = 0 ∧ |printed (fanDigits c) (fanValue c v)| = 1 / 10 ^ fanDigits c

theorem fanLine_fan (s : St) (v : ℚ) (n : Nat) :
    (m.after M (fanLine c s v n)).fan = fun i => if i = n then
      (if Text.wouldWriteZero (fanDigits c) (fanValue c v) then 0 else printed (fanDigits c) (fanValue c v))
      else (m.after M s).fan i := by
  unfold fanLine
  split <;> rw [after_emit] <;> rfl

theorem fanInv_specific (hf : c.flavor ≠ .MAKERBOT) (s : St) (v : ℚ) (k n : Nat) (h : FanInv c (m.after M s) s n) :
    FanInv c (m.after M (specificFan c s v k)) (specificFan c s v k) n := by
  have hrec := (specificFan_rec (c := c) s v k).1
  have hout : m.after M (specificFan c s v k) = m.after M (fanNormal c s v k) := by
    apply after_out
    unfold specificFan; rw [if_neg hf]
  have key : FanInv c (m.after M (fanLine c s v k)) (specificFan c s v k) n := by
    intro x hx
    rw [hrec] at hx
    rw [fanLine_fan]
    by_cases hn : n = k
    · subst hn
      simp only [if_true, Option.some.injEq] at hx ⊢
      subst hx
      split
      · rename_i hz
        rcases printed_zero_or_unit _ _ hz with h0 | h0
        · left; rw [h0]
        · right; exact ⟨rfl, h0⟩
      · left; rfl
    · simp only [if_neg hn] at hx ⊢
      exact h x hx
  rw [hout]
  unfold fanNormal
  split
  · rename_i old hold
    split
    · exact key
    · rename_i heq
      simp only [ne_eq, not_not] at heq
      intro x hx
      rw [hrec] at hx
      by_cases hn : n = k
      · subst hn
        simp only [if_true, Option.some.injEq] at hx
        subst hx
        rw [heq]; exact h old hold
      · simp only [if_neg hn] at hx
        exact h x hx
  · exact key

theorem fanInv_leaves {s s' : St} {n : Nat} (hl : Leaves .fan s s') (hr : s'.fan = s.fan) (h : FanInv c (m.after M s) s n) :
    FanInv c (m.after M s') s' n := by
  have ha : (m.after M s').fan = (m.after M s).fan := hl.agree
  intro v hv
  rw [ha]; rw [hr] at hv; exact h v hv

theorem fanInv_step (hf : c.flavor ≠ .MAKERBOT) (s : St) (op : Op) (n : Nat) (h : FanInv c (m.after M s) s n) :
    FanInv c (m.after M (step c s op)) (step c s op) n := by
  cases op with
  | fan v e => exact fanInv_specific hf s v _ n h
  | specificFan v k => exact fanInv_specific hf s v k n h
  | temp e t w f => exact fanInv_leaves (leaves_temp .fan (by simp) s e t w f) (temp_rec s e t w f).1 h
  | bed t w => exact fanInv_leaves (leaves_bed .fan (by simp) s t w) (bed_rec s t w).1 h
  | printAcc a => exact fanInv_leaves (leaves_printAcc .fan (by simp) s a) (printAcc_rec s a).1 h
  | travelAcc a => exact fanInv_leaves (leaves_travelAcc .fan (by simp) s a) (travelAcc_rec s a).1 h
  | jerk j => exact fanInv_leaves (leaves_jerk .fan (by simp) s j) (jerk_rec s j).1 h
  | tool t => exact fanInv_leaves (leaves_tool .fan (by simp) s t) (tool_rec s t).1 h
  | assumeBed t => exact fanInv_leaves (s' := step c s (.assumeBed t)) .refl rfl h

/-- The request is not in the gap between "written as zero" and "counted as zero". -/
def ClearFan (c : Cfg) (v : ℚ) : Prop :=
  |fanValue c v| * 10 ^ fanDigits c < 1 / 2 ∨ 1 ≤ |fanValue c v| * 10 ^ fanDigits c

/-- The fan runs as recorded. -/
def FanExact (c : Cfg) (m : Machine) (s : St) (n : Nat) : Prop :=
  ∀ v, s.fan n = some v → m.fan n = printed (fanDigits c) (fanValue c v)

theorem fanExact_specific (hf : c.flavor ≠ .MAKERBOT) (s : St) (v : ℚ) (hv : ClearFan c v) (k n : Nat)
    (h : FanExact c (m.after M s) s n) : FanExact c (m.after M (specificFan c s v k)) (specificFan c s v k) n := by
  have hrec := (specificFan_rec (c := c) s v k).1
  have hout : m.after M (specificFan c s v k) = m.after M (fanNormal c s v k) := by
    apply after_out
    unfold specificFan; rw [if_neg hf]
  have key : FanExact c (m.after M (fanLine c s v k)) (specificFan c s v k) n := by
    intro x hx
    rw [hrec] at hx
    rw [fanLine_fan]
    by_cases hn : n = k
    · subst hn
      simp only [if_true, Option.some.injEq] at hx ⊢
      subst hx
      split
      · rename_i hz
        rcases hv with hv | hv
        · rw [printed_tiny _ _ hv]
        · exfalso
          unfold Text.wouldWriteZero at hz
          have : |fanValue c v| * 10 ^ fanDigits c < 1 := by simpa using hz
          linarith
      · rfl
    · simp only [if_neg hn] at hx ⊢
      exact h x hx
  rw [hout]
  unfold fanNormal
  split
  · rename_i old hold
    split
    · exact key
    · rename_i heq
      simp only [ne_eq, not_not] at heq
      intro x hx
      rw [hrec] at hx
      by_cases hn : n = k
      · subst hn
        simp only [if_true, Option.some.injEq] at hx
        subst hx
        rw [heq]; exact h old hold
      · simp only [if_neg hn] at hx
        exact h x hx
  · exact key

theorem fanExact_leaves {s s' : St} {n : Nat} (hl : Leaves .fan s s') (hr : s'.fan = s.fan)
    (h : FanExact c (m.after M s) s n) : FanExact c (m.after M s') s' n := by
  have ha : (m.after M s').fan = (m.after M s).fan := hl.agree
  intro v hv
  rw [ha]; rw [hr] at hv; exact h v hv

/-- The speed requested by a call, if any. -/
def Op.fanSpeed : Op → Option ℚ
  | .fan v _ => some v
  | .specificFan v _ => some v
  | _ => none

theorem fanExact_step (hf : c.flavor ≠ .MAKERBOT) (s : St) (op : Op) (hop : ∀ v, op.fanSpeed = some v → ClearFan c v)
    (n : Nat) (h : FanExact c (m.after M s) s n) : FanExact c (m.after M (step c s op)) (step c s op) n := by
  cases op with
  | fan v e => exact fanExact_specific hf s v (hop v rfl) _ n h
  | specificFan v k => exact fanExact_specific hf s v (hop v rfl) k n h
  | temp e t w f => exact fanExact_leaves (leaves_temp .fan (by simp) s e t w f) (temp_rec s e t w f).1 h
  | bed t w => exact fanExact_leaves (leaves_bed .fan (by simp) s t w) (bed_rec s t w).1 h
  | printAcc a => exact fanExact_leaves (leaves_printAcc .fan (by simp) s a) (printAcc_rec s a).1 h
  | travelAcc a => exact fanExact_leaves (leaves_travelAcc .fan (by simp) s a) (travelAcc_rec s a).1 h
  | jerk j => exact fanExact_leaves (leaves_jerk .fan (by simp) s j) (jerk_rec s j).1 h
  | tool t => exact fanExact_leaves (leaves_tool .fan (by simp) s t) (tool_rec s t).1 h
  | assumeBed t => exact fanExact_leaves (s' := step c s (.assumeBed t)) .refl rfl h

/-- The record of a fan is the last request. -/
theorem fan_last (n : Nat) (ops : List Op) : ∀ s : St, (run c s ops).fan n = lastFan c n s.cur (s.fan n) ops := by
  induction ops with
  | nil => intro s; rfl
  | cons op ops ih =>
    intro s
    show (run c (step c s op) ops).fan n = _
    rw [ih]
    have hsp : ∀ (v : ℚ) (k : Nat), lastFan c n (specificFan c s v k).cur ((specificFan c s v k).fan n) ops =
        lastFan c n s.cur (if k = n then some v else s.fan n) ops := by
      intro v k
      rw [(specificFan_rec (c := c) s v k).1, (specificFan_rec (c := c) s v k).2.1]
      by_cases h : n = k
      · subst h; simp
      · simp [h, Ne.symm h]
    cases op with
    | fan v e => exact hsp v _
    | specificFan v k => exact hsp v k
    | temp e t w f => simp only [step, lastFan]; rw [(temp_rec s e t w f).1, (temp_rec s e t w f).2.1]
    | bed t w => simp only [step, lastFan]; rw [(bed_rec s t w).1, (bed_rec s t w).2.1]
    | printAcc a => simp only [step, lastFan]; rw [(printAcc_rec s a).1, (printAcc_rec s a).2.1]
    | travelAcc a => simp only [step, lastFan]; rw [(travelAcc_rec s a).1, (travelAcc_rec s a).2.1]
    | jerk j => simp only [step, lastFan]; rw [(jerk_rec s j).1, (jerk_rec s j).2.1]
    | tool t => rw [(tool_rec s t).1, (tool_rec s t).2.1]; rfl
    | assumeBed t => rfl

theorem cur_last (ops : List Op) : ∀ s : St, (run c s ops).cur = toolAfter s.cur ops := by
  induction ops with
  | nil => intro s; rfl
  | cons op ops ih =>
    intro s
    show (run c (step c s op) ops).cur = _
    rw [ih]
    cases op with
    | fan v e => simp only [step, toolAfter, fan]; rw [(specificFan_rec s v _).2.1]
    | specificFan v k => simp only [step, toolAfter]; rw [(specificFan_rec s v k).2.1]
    | temp e t w f => simp only [step, toolAfter]; rw [(temp_rec s e t w f).2.1]
    | bed t w => simp only [step, toolAfter]; rw [(bed_rec s t w).2.1]
    | printAcc a => simp only [step, toolAfter]; rw [(printAcc_rec s a).2.1]
    | travelAcc a => simp only [step, toolAfter]; rw [(travelAcc_rec s a).2.1]
    | jerk j => simp only [step, toolAfter]; rw [(jerk_rec s j).2.1]
    | tool t => rw [(tool_rec s t).2.1]; rfl
    | assumeBed t => rfl

/-- Makerbot: only one fan number is in use. -/
theorem mb_specific (hf : c.flavor = .MAKERBOT) (s : St) (v : ℚ) (n : Nat)
    (h : ∀ x, s.fan n = some x → (m.after M s).mbFan = decide (50 ≤ x)) :
    ∀ x, (specificFan c s v n).fan n = some x → (m.after M (specificFan c s v n)).mbFan = decide (50 ≤ x) := by
  have hrec := (specificFan_rec (c := c) s v n).1
  have hout : m.after M (specificFan c s v n) = m.after M (fanMakerbot s v n) := by
    apply after_out
    unfold specificFan; rw [if_pos hf]
  intro x hx
  rw [hrec] at hx
  simp only [if_true, Option.some.injEq] at hx
  subst hx
  rw [hout]
  unfold fanMakerbot
  split
  · rename_i old hold
    split
    · rw [after_emit]; rfl
    · rename_i heq
      rw [h old hold]
      simp only [ne_eq, not_not] at heq
      exact heq.symm
  · rw [after_emit]; rfl

end Verif.Requests
