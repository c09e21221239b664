import Verif.Bridge.Spec

/-! # Lemmas on how a line of a wall is printed -/

namespace Verif.Bridge

theorem leads_append {x y z : ℚ} {l m : List Out} (h1 : Leads x l y) (h2 : Leads y m z) : Leads x (l ++ m) z := by
  induction l generalizing x with
  | nil => cases h1; exact h2
  | cons o l ih => exact ⟨h1.1, h1.2.1, ih h1.2.2⟩

theorem leads_le {x y : ℚ} {l : List Out} (h : Leads x l y) : x ≤ y := by
  induction l generalizing x with
  | nil => cases h; exact le_refl _
  | cons o l ih => exact le_trans h.2.1 (ih h.2.2)

theorem leads_mem {x y : ℚ} {l : List Out} (h : Leads x l y) {o : Out} (ho : o ∈ l) : x ≤ o.a ∧ o.a ≤ o.b ∧ o.b ≤ y := by
  induction l generalizing x with
  | nil => simp at ho
  | cons e l ih =>
    obtain ⟨rfl, h2, h3⟩ := h
    rcases List.mem_cons.mp ho with rfl | ho
    · exact ⟨le_refl _, h2, leads_le h3⟩
    · obtain ⟨i1, i2, i3⟩ := ih h3 ho
      exact ⟨le_trans h2 i1, i2, i3⟩

theorem segmentEnd_cases (c : Cfg) (st : St) (e : ℚ) :
    (segmentEnd c st e = e) ∨ (segmentEnd c st e = st.cur + 1000 ∧ 1000 ≤ e - st.cur ∧ st.speed ≠ 1 ∧
      ¬(0 < st.dist ∧ st.dist - (e - st.cur) ≤ coastDist c st.volume)) := by
  unfold segmentEnd
  split
  · exact Or.inl rfl
  · rename_i h1
    split
    · exact Or.inl rfl
    · rename_i h2
      push Not at h2
      exact Or.inr ⟨rfl, h2.2, h2.1, h1⟩

/-- What holds of each move of a part that is no bridge. -/
structure Fine (c : Cfg) (e : ℚ) (o : Out) : Prop where
  kind : o.kind ≠ .bridge
  low : 0 < o.speed
  flow : o.kind = .plain → o.flow = if 1 < o.speed then c.flow * (1 / o.speed) else c.flow
  none : o.kind = .coast → o.flow = 0
  endAt : o.kind = .coast → o.b = e

theorem moves_leads (c : Cfg) (st : St) (e : ℚ) (h : 5 < e - st.cur) :
    Leads st.cur (segmentMoves c st e) (segmentEnd c st e) ∧ st.cur < segmentEnd c st e ∧ segmentEnd c st e ≤ e := by
  have hx : st.cur < segmentEnd c st e ∧ segmentEnd c st e ≤ e := by
    rcases segmentEnd_cases c st e with h1 | ⟨h1, h2, -⟩ <;> rw [h1] <;> constructor <;> linarith
  refine ⟨?_, hx⟩
  unfold segmentMoves
  dsimp only
  split
  · rename_i hc
    split
    · rename_i h5
      exact ⟨rfl, by dsimp only; linarith, rfl, by dsimp only; linarith [hc.2.1], rfl⟩
    · exact ⟨rfl, hx.1.le, rfl⟩
  · exact ⟨rfl, hx.1.le, rfl⟩

theorem moves_fine (c : Cfg) (st : St) (e : ℚ) (hs : 0 < st.speed) : ∀ o ∈ segmentMoves c st e, Fine c e o := by
  have hend : 0 < st.dist ∧ 0 < coastDist c st.volume ∧ st.dist - (segmentEnd c st e - st.cur) ≤ coastDist c st.volume → segmentEnd c st e = e := by
    rintro ⟨h1, -, h3⟩
    rcases segmentEnd_cases c st e with h4 | ⟨h4, h5, -, h6⟩
    · exact h4
    · exfalso
      rw [h4] at h3
      exact h6 ⟨h1, by linarith⟩
  intro o ho
  unfold segmentMoves at ho
  dsimp only at ho
  split at ho
  · rename_i hc
    have he := hend hc
    split at ho
    · rcases List.mem_cons.mp ho with rfl | ho
      · exact ⟨by simp, hs, fun _ => rfl, by simp, by simp⟩
      · rw [List.mem_singleton] at ho
        subst ho
        exact ⟨by simp, hs, by simp, fun _ => rfl, fun _ => he⟩
    · rw [List.mem_singleton] at ho
      subst ho
      exact ⟨by simp, hs, by simp, fun _ => rfl, fun _ => he⟩
  · rw [List.mem_singleton] at ho
    subst ho
    exact ⟨by simp, hs, fun _ => rfl, by simp, by simp⟩

theorem moves_speed (c : Cfg) (st : St) (e : ℚ) : ∀ o ∈ segmentMoves c st e, o.speed = st.speed := by
  intro o ho
  unfold segmentMoves at ho
  dsimp only at ho
  split at ho
  · split at ho
    · rcases List.mem_cons.mp ho with rfl | ho
      · rfl
      · rw [List.mem_singleton] at ho; subst ho; rfl
    · rw [List.mem_singleton] at ho; subst ho; rfl
  · rw [List.mem_singleton] at ho; subst ho; rfl

theorem faster_range {s : ℚ} (h0 : 0 < s) (h1 : s ≤ 1) : s ≤ faster s ∧ 0 < faster s ∧ faster s ≤ 1 := by
  unfold faster
  split
  · exact ⟨h1, by norm_num, le_refl _⟩
  · refine ⟨?_, ?_, ?_⟩ <;> linarith

theorem nonBridge_ends (c : Cfg) (e : ℚ) (n : Nat) {st : St} (h : e - st.cur ≤ 1000 * n) : ∃ r, nonBridge c e n st = some r := by
  induction n generalizing st with
  | zero =>
    unfold nonBridge
    rw [if_neg (by push_cast at h; linarith)]
    exact ⟨_, rfl⟩
  | succ n ih =>
    unfold nonBridge
    split
    · rename_i hc
      have : e - (segmentNext c st e).cur ≤ 1000 * n := by
        change e - segmentEnd c st e ≤ 1000 * n
        rcases segmentEnd_cases c st e with h1 | ⟨h1, -⟩
        · rw [h1]
          have : (0 : ℚ) ≤ n := Nat.cast_nonneg n
          linarith
        · rw [h1]
          push_cast at h
          linarith
      obtain ⟨r, hr⟩ := ih this
      dsimp only
      rw [hr]
      exact ⟨_, rfl⟩
    · exact ⟨_, rfl⟩

theorem nonBridge_step {c : Cfg} {e : ℚ} {n : Nat} {st : St} {r : List Out × St} (h : nonBridge c e n st = some r) :
    (¬ 5 < e - st.cur ∧ r = ([], st)) ∨ (5 < e - st.cur ∧ ∃ m r', n = m + 1 ∧ nonBridge c e m (segmentNext c st e) = some r' ∧
      r = (segmentMoves c st e ++ r'.1, r'.2)) := by
  unfold nonBridge at h
  split at h
  · rename_i hc
    cases n with
    | zero => simp at h
    | succ m =>
      obtain ⟨r', h1, h2⟩ := Option.map_eq_some_iff.mp h
      exact Or.inr ⟨hc, m, r', rfl, h1, h2.symm⟩
  · rename_i hc
    injection h with h
    exact Or.inl ⟨hc, h.symm⟩

theorem nonBridge_spec {c : Cfg} {e : ℚ} (n : Nat) {st : St} {r : List Out × St} (hr : nonBridge c e n st = some r) (hc : st.cur ≤ e)
    (h0 : 0 < st.speed) (h1 : st.speed ≤ 1) :
    Leads st.cur r.1 r.2.cur ∧ r.2.cur ≤ e ∧ e - r.2.cur ≤ 5 ∧ (∀ o ∈ r.1, Fine c e o) ∧ (∀ o ∈ r.1, st.speed ≤ o.speed ∧ o.speed ≤ 1) ∧
      r.1.Pairwise (fun o o' => o.speed ≤ o'.speed) ∧ st.speed ≤ r.2.speed ∧ r.2.speed ≤ 1 := by
  induction n generalizing st r with
  | zero =>
    rcases nonBridge_step hr with ⟨h5, rfl⟩ | ⟨-, m, r', h, -⟩
    · exact ⟨rfl, hc, by linarith, by simp, by simp, by simp, le_refl _, h1⟩
    · omega
  | succ n ih =>
    rcases nonBridge_step hr with ⟨h5, rfl⟩ | ⟨h5, m, r', h, hr', rfl⟩
    · exact ⟨rfl, hc, by linarith, by simp, by simp, by simp, le_refl _, h1⟩
    · obtain rfl : n = m := by omega
      obtain ⟨l1, l2, l3⟩ := moves_leads c st e h5
      obtain ⟨f1, f2, f3⟩ := faster_range h0 h1
      obtain ⟨i1, i2, i3, i4, i5, i6, i7, i8⟩ := ih hr' l3 f2 f3
      have sp : ∀ o ∈ r'.1, st.speed ≤ o.speed := fun o ho => le_trans f1 (i5 o ho).1
      refine ⟨leads_append l1 i1, i2, i3, ?_, ?_, ?_, le_trans f1 i7, i8⟩
      · intro o ho
        rcases List.mem_append.mp ho with ho | ho
        · exact moves_fine c st e h0 o ho
        · exact i4 o ho
      · intro o ho
        rcases List.mem_append.mp ho with ho | ho
        · rw [moves_speed c st e o ho]; exact ⟨le_refl _, h1⟩
        · exact ⟨sp o ho, (i5 o ho).2⟩
      · rw [List.pairwise_append]
        refine ⟨?_, i6, ?_⟩
        · refine List.pairwise_of_forall_mem_list fun o ho o' ho' => ?_
          rw [moves_speed c st e o ho, moves_speed c st e o' ho']
        · intro o ho o' ho'
          rw [moves_speed c st e o ho]
          exact sp o' ho'

/-! ## Coasting -/

theorem nonBridge_away {c : Cfg} {e : ℚ} (n : Nat) {st : St} {r : List Out × St} (hr : nonBridge c e n st = some r) (hd : st.dist ≤ 0) :
    (∀ o ∈ r.1, o.kind = .plain) ∧ r.2.dist = st.dist := by
  induction n generalizing st r with
  | zero =>
    rcases nonBridge_step hr with ⟨h5, rfl⟩ | ⟨-, m, r', h, -⟩
    · exact ⟨by simp, rfl⟩
    · omega
  | succ n ih =>
    rcases nonBridge_step hr with ⟨h5, rfl⟩ | ⟨h5, m, r', h, hr', rfl⟩
    · exact ⟨by simp, rfl⟩
    · obtain rfl : n = m := by omega
      have hd' : (segmentNext c st e).dist = st.dist := by
        unfold segmentNext
        dsimp only
        rw [if_neg (not_lt.mpr hd)]
      obtain ⟨i1, i2⟩ := ih hr' (by rw [hd']; exact hd)
      refine ⟨?_, by rw [i2, hd']⟩
      intro o ho
      rcases List.mem_append.mp ho with ho | ho
      · unfold segmentMoves at ho
        dsimp only at ho
        rw [if_neg (by intro hc; exact absurd hc.1 (not_lt.mpr hd))] at ho
        rw [List.mem_singleton] at ho
        subst ho
        rfl
      · exact i1 o ho

theorem coastDist_le {c : Cfg} {v : ℚ} (h0 : 0 ≤ c.ease) (h2 : 0 ≤ c.coast) (hv : 0 ≤ v) (hp : 0 < coastDist c v) :
    coastDist c v ≤ 2500 * c.coast := by
  unfold coastDist at *
  have hm : min v 100000 ≤ 100000 := min_le_right _ _
  have hn : 0 ≤ min v 100000 := le_min hv (by norm_num)
  have h3 : 0 < (1 - c.ease) * c.coast := by
    by_contra h
    push Not at h
    have : min v 100000 * (1 - c.ease) * c.coast / 40 ≤ 0 := by
      rw [mul_assoc]
      apply div_nonpos_of_nonpos_of_nonneg _ (by norm_num)
      exact mul_nonpos_of_nonneg_of_nonpos hn h
    linarith
  have h4 : (1 - c.ease) * c.coast ≤ c.coast := by nlinarith
  have : min v 100000 * ((1 - c.ease) * c.coast) ≤ 100000 * c.coast := by nlinarith
  rw [mul_assoc]
  linarith

theorem segmentFlow_nonneg {c : Cfg} (hc : c.Ok) (st : St) : 0 ≤ segmentFlow c st := by
  unfold segmentFlow
  split
  · exact mul_nonneg hc.flow (by have : 0 < st.speed := by linarith
                                 positivity)
  · exact hc.flow

theorem nonBridge_coast {c : Cfg} (hok : c.Ok) {e : ℚ} (n : Nat) {st : St} {r : List Out × St} (hr : nonBridge c e n st = some r)
    (h0 : 0 < st.speed) (h1 : st.speed ≤ 1) (hv : 0 ≤ st.volume) :
    (∀ o ∈ r.1, o.kind = .coast → o.b - o.a ≤ 2500 * c.coast + 5) ∧ 0 ≤ r.2.volume := by
  induction n generalizing st r with
  | zero =>
    rcases nonBridge_step hr with ⟨h5, rfl⟩ | ⟨-, m, r', h, -⟩
    · exact ⟨by simp, hv⟩
    · omega
  | succ n ih =>
    rcases nonBridge_step hr with ⟨h5, rfl⟩ | ⟨h5, m, r', h, hr', rfl⟩
    · exact ⟨by simp, hv⟩
    · obtain rfl : n = m := by omega
      obtain ⟨f1, f2, f3⟩ := faster_range h0 h1
      obtain ⟨-, l2, l3⟩ := moves_leads c st e h5
      have hv' : 0 ≤ (segmentNext c st e).volume := by
        change 0 ≤ st.volume + (segmentEnd c st e - st.cur) * segmentFlow c st * c.width * st.speed * c.rate
        have a1 : 0 ≤ segmentEnd c st e - st.cur := by linarith
        have a2 := segmentFlow_nonneg hok st
        have := mul_nonneg (mul_nonneg (mul_nonneg (mul_nonneg a1 a2) hok.width) h0.le) hok.rate
        linarith
      obtain ⟨i1, i2⟩ := ih hr' f2 f3 hv'
      refine ⟨?_, i2⟩
      intro o ho hk
      rcases List.mem_append.mp ho with ho | ho
      · unfold segmentMoves at ho
        dsimp only at ho
        split at ho
        · rename_i hc
          have hcd := coastDist_le hok.ease hok.coast hv hc.2.1
          split at ho
          · rcases List.mem_cons.mp ho with rfl | ho
            · simp at hk
            · rw [List.mem_singleton] at ho
              subst ho
              dsimp only
              linarith
          · rename_i h6
            rw [List.mem_singleton] at ho
            subst ho
            dsimp only
            linarith
        · rw [List.mem_singleton] at ho
          subst ho
          simp at hk
      · exact i1 o ho hk

/-! ## Speed -/

theorem nonBridge_ramp {c : Cfg} {e : ℚ} (n : Nat) {st : St} {r : List Out × St} (hr : nonBridge c e n st = some r) (hd : st.dist ≤ 0)
    (hc : st.cur ≤ e) (h0 : 0 < st.speed) (h1 : st.speed ≤ 1) (j : Nat) (hj : st.speed = 1 ∨ (1 ≤ j ∧ (1 - st.speed) * (3 / 4) ^ j ≤ 1 / 10)) :
    ∀ o ∈ r.1, st.cur + 1000 * j ≤ o.a → o.speed = 1 := by
  induction n generalizing st r j with
  | zero =>
    rcases nonBridge_step hr with ⟨h5, rfl⟩ | ⟨-, m, r', h, -⟩
    · simp
    · omega
  | succ n ih =>
    by_cases hs : st.speed = 1
    · intro o ho _
      have := (nonBridge_spec _ hr hc h0 h1).2.2.2.2.1 o ho
      rw [hs] at this
      exact le_antisymm this.2 this.1
    · obtain ⟨hj1, hj2⟩ := hj.resolve_left hs
      rcases nonBridge_step hr with ⟨h5, rfl⟩ | ⟨h5, m, r', h, hr', rfl⟩
      · simp
      · obtain rfl : n = m := by omega
        obtain ⟨l1, l2, l3⟩ := moves_leads c st e h5
        obtain ⟨f1, f2, f3⟩ := faster_range h0 h1
        have hlen : segmentEnd c st e ≤ st.cur + 1000 := by
          unfold segmentEnd
          rw [if_neg (by intro hx; linarith [hx.1])]
          split
          · rename_i hx
            rcases hx with hx | hx
            · exact absurd hx hs
            · linarith
          · exact le_refl _
        have hj' : (segmentNext c st e).speed = 1 ∨ (1 ≤ j - 1 ∧ (1 - (segmentNext c st e).speed) * (3 / 4) ^ (j - 1) ≤ 1 / 10) := by
          change faster st.speed = 1 ∨ (1 ≤ j - 1 ∧ (1 - faster st.speed) * (3 / 4) ^ (j - 1) ≤ 1 / 10)
          by_cases hf : 9 / 10 ≤ 1 - (1 - st.speed) * (3 / 4)
          · left
            unfold faster
            rw [if_pos hf]
          · right
            have hfe : faster st.speed = 1 - (1 - st.speed) * (3 / 4) := by
              unfold faster
              rw [if_neg hf]
            obtain ⟨k, rfl⟩ : ∃ k, j = k + 1 := ⟨j - 1, by omega⟩
            have hk : 1 ≤ k := by
              by_contra hk
              obtain rfl : k = 0 := by omega
              apply hf
              norm_num at hj2
              linarith
            refine ⟨by omega, ?_⟩
            rw [hfe, Nat.add_sub_cancel]
            rw [pow_succ] at hj2
            linarith
        have hd' : (segmentNext c st e).dist ≤ 0 := by
          unfold segmentNext
          dsimp only
          rw [if_neg (not_lt.mpr hd)]
          exact hd
        intro o ho hoa
        rcases List.mem_append.mp ho with ho | ho
        · exfalso
          unfold segmentMoves at ho
          dsimp only at ho
          rw [if_neg (by intro hx; linarith [hx.1])] at ho
          rw [List.mem_singleton] at ho
          subst ho
          have : (1 : ℚ) ≤ j := by exact_mod_cast hj1
          dsimp only at hoa
          linarith
        · refine ih hr' hd' l3 f2 f3 (j - 1) hj' o ho ?_
          change segmentEnd c st e + 1000 * ((j - 1 : Nat) : ℚ) ≤ o.a
          rw [Nat.cast_sub hj1]
          push_cast
          linarith

theorem afterBridge_range (c : Cfg) : 1 / 2 ≤ afterBridge c ∧ afterBridge c ≤ 1 := by
  unfold afterBridge
  refine ⟨le_max_right _ _, max_le (min_le_right _ _) (by norm_num)⟩

/-! ## The whole line -/

theorem printLine_spec {c : Cfg} {len : ℚ} (hl : 0 ≤ len) {rounds : Nat} (hn : len ≤ 1000 * rounds) (subs : List (ℚ × ℚ)) (ho : Ordered subs) {st : St}
    (hs : ∀ sub ∈ subs, st.cur ≤ sub.1 * len) (hc0 : 0 ≤ st.cur) (hc : st.cur ≤ len) (h0 : 0 < st.speed) (h1 : st.speed ≤ 1) :
    ∃ r, printLine c len rounds subs st = some r ∧ Leads st.cur r.1 r.2.cur ∧ len - 5 ≤ r.2.cur ∧ r.2.cur ≤ len ∧
      List.Forall₂ (Bridged c len) (r.1.filter fun o => o.kind = .bridge) subs ∧
      (∀ o ∈ r.1, o.kind ≠ .bridge → (∀ sub ∈ subs, o.b ≤ sub.1 * len ∨ sub.2 * len ≤ o.a) ∧ 0 < o.speed ∧ o.speed ≤ 1 ∧
        (o.kind = .plain → o.flow = c.flow) ∧ (o.kind = .coast → o.flow = 0 ∧ (o.b = len ∨ ∃ sub ∈ subs, o.b = sub.1 * len))) := by
  have part : ∀ {e : ℚ} {st : St} {r : List Out × St}, nonBridge c e rounds st = some r → st.cur ≤ e → 0 < st.speed → st.speed ≤ 1 → ∀ o ∈ r.1,
      o.kind ≠ .bridge ∧ 0 < o.speed ∧ o.speed ≤ 1 ∧ (o.kind = .plain → o.flow = c.flow) ∧ (o.kind = .coast → o.flow = 0 ∧ o.b = e) := by
    intro e st r hr hc h0 h1 o ho
    obtain ⟨-, -, -, i4, i5, -⟩ := nonBridge_spec _ hr hc h0 h1
    obtain ⟨a1, a2, a3, a4, a5⟩ := i4 o ho
    refine ⟨a1, a2, (i5 o ho).2, ?_, fun hk => ⟨a4 hk, a5 hk⟩⟩
    intro hk
    rw [a3 hk, if_neg (not_lt.mpr (i5 o ho).2)]
  induction subs generalizing st with
  | nil =>
    obtain ⟨r, hr⟩ := nonBridge_ends c len rounds (st := st) (by linarith)
    obtain ⟨i1, i2, i3, i4, i5, -⟩ := nonBridge_spec _ hr hc h0 h1
    have hp := part hr hc h0 h1
    refine ⟨r, hr, i1, by linarith, i2, ?_, ?_⟩
    · rw [List.filter_eq_nil_iff.mpr (fun o ho => by simpa using (hp o ho).1)]
      exact List.Forall₂.nil
    · intro o ho _
      obtain ⟨a1, a2, a3, a4, a5⟩ := hp o ho
      exact ⟨by simp, a2, a3, a4, fun hk => ⟨(a5 hk).1, Or.inl (a5 hk).2⟩⟩
  | cons sub subs ih =>
    obtain ⟨ho1, ho2⟩ := ho
    obtain ⟨b1, b2, b3⟩ := ho1 sub (by simp)
    have hcs := hs sub (by simp)
    have m1 : sub.1 * len ≤ sub.2 * len := mul_le_mul_of_nonneg_right b2 hl
    have m2 : sub.2 * len ≤ len := by nlinarith
    have m0 : 0 ≤ sub.1 * len := mul_nonneg b1 hl
    obtain ⟨r, hr⟩ := nonBridge_ends c (sub.1 * len) rounds (st := st) (by linarith)
    obtain ⟨i1, i2, i3, i4, i5, -⟩ := nonBridge_spec _ hr hcs h0 h1
    have hp := part hr hcs h0 h1
    obtain ⟨f1, f2⟩ := afterBridge_range c
    have hlater : ∀ s ∈ subs, sub.2 * len ≤ s.1 * len := fun s hs' =>
      mul_le_mul_of_nonneg_right (List.rel_of_pairwise_cons ho2 hs') hl
    obtain ⟨o, q1, q2, q3, q4, q5, q6⟩ := ih (st := ⟨sub.2 * len, 0, afterBridge c, r.2.dist⟩)
      ⟨fun x hx => ho1 x (List.mem_cons_of_mem _ hx), List.Pairwise.of_cons ho2⟩ hlater (by dsimp only; linarith) m2 (by dsimp only; linarith) f2
    refine ⟨(r.1 ++ ⟨.bridge, r.2.cur, sub.2 * len, c.flow, 1⟩ :: o.1, o.2), ?_, ?_, q3, q4, ?_, ?_⟩
    · unfold printLine
      rw [hr]
      dsimp only [Option.bind_some]
      rw [q1]
      rfl
    · exact leads_append i1 ⟨rfl, by dsimp only; linarith, q2⟩
    · dsimp only
      rw [List.filter_append, List.filter_eq_nil_iff.mpr (fun o ho => by simpa using (hp o ho).1), List.nil_append, List.filter_cons_of_pos (by simp)]
      exact List.Forall₂.cons ⟨rfl, ⟨by dsimp only; linarith, by dsimp only; linarith⟩, rfl, rfl⟩ q5
    · intro x hx hk
      rcases List.mem_append.mp hx with hx | hx
      · obtain ⟨a1, a2, a3, a4, a5⟩ := hp x hx
        have hxb := (leads_mem i1 hx).2.2
        refine ⟨?_, a2, a3, a4, fun hk => ⟨(a5 hk).1, Or.inr ⟨sub, by simp, (a5 hk).2⟩⟩⟩
        intro s hs'
        left
        rcases List.mem_cons.mp hs' with rfl | hs'
        · linarith
        · linarith [hlater s hs']
      · rcases List.mem_cons.mp hx with rfl | hxo
        · simp at hk
        · obtain ⟨a1, a2, a3, a4, a5⟩ := q6 x hxo hk
          refine ⟨?_, a2, a3, a4, ?_⟩
          · intro s hs'
            rcases List.mem_cons.mp hs' with rfl | hs'
            · right
              have := (leads_mem q2 hxo).1
              exact this
            · exact a1 s hs'
          · intro hk
            refine ⟨(a5 hk).1, ?_⟩
            rcases (a5 hk).2 with h | ⟨s, hs', h⟩
            · exact Or.inl h
            · exact Or.inr ⟨s, List.mem_cons_of_mem _ hs', h⟩

theorem printLine_coast {c : Cfg} (hok : c.Ok) {len : ℚ} {rounds : Nat} (subs : List (ℚ × ℚ)) {st : St} {r : List Out × St}
    (hr : printLine c len rounds subs st = some r) (h0 : 0 < st.speed) (h1 : st.speed ≤ 1) (hv : 0 ≤ st.volume) :
    ∀ o ∈ r.1, o.kind = .coast → o.b - o.a ≤ 2500 * c.coast + 5 := by
  induction subs generalizing st r with
  | nil => exact (nonBridge_coast hok _ hr h0 h1 hv).1
  | cons sub subs ih =>
    unfold printLine at hr
    obtain ⟨q, hq, hr⟩ := Option.bind_eq_some_iff.mp hr
    obtain ⟨o, ho, rfl⟩ := Option.map_eq_some_iff.mp hr
    obtain ⟨f1, f2⟩ := afterBridge_range c
    intro x hx hk
    rcases List.mem_append.mp hx with hx | hx
    · exact (nonBridge_coast hok _ hq h0 h1 hv).1 x hx hk
    · rcases List.mem_cons.mp hx with rfl | hx
      · simp at hk
      · exact ih ho (by dsimp only; linarith) f2 (le_refl _) x hx hk

theorem printLine_away {c : Cfg} {len : ℚ} {rounds : Nat} (subs : List (ℚ × ℚ)) {st : St} {r : List Out × St}
    (hr : printLine c len rounds subs st = some r) (hd : st.dist ≤ 0) : ∀ o ∈ r.1, o.kind ≠ .coast := by
  induction subs generalizing st r with
  | nil =>
    intro o ho
    rw [(nonBridge_away _ hr hd).1 o ho]
    simp
  | cons sub subs ih =>
    unfold printLine at hr
    obtain ⟨q, hq, hr⟩ := Option.bind_eq_some_iff.mp hr
    obtain ⟨o, ho, rfl⟩ := Option.map_eq_some_iff.mp hr
    obtain ⟨a1, a2⟩ := nonBridge_away _ hq hd
    intro x hx
    rcases List.mem_append.mp hx with hx | hx
    · rw [a1 x hx]; simp
    · rcases List.mem_cons.mp hx with rfl | hx
      · simp
      · exact ih ho (by dsimp only; rw [a2]; exact hd) x hx

end Verif.Bridge
