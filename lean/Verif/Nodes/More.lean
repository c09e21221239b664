import Verif.Nodes.Run

/-! # More invariants -/

namespace Verif.Nodes

variable {P : Type}

/-! ## Areas -/

theorem spread_area {inp : Input P} {st0 st st' : State P} {area : Nat → P → Prop} (ha : InAreas inp st0 area) {e : Nat}
    (hp : ∀ x ∈ (inp.elem e).parents, inp.Has x) (hs : Spread inp st e st') (h : ∀ x p, st.alive x = true → st.point x = some p → area x p) :
    ∀ x p, st'.alive x = true → st'.point x = some p → area x p := by
  obtain ⟨q, _, h2, _, _, h5⟩ := hs
  intro x p hx hpx
  rw [h2] at hx
  rw [h5] at hpx
  split at hpx
  · rename_i hh
    cases hpx
    exact ha.moved x q (hp x hh.1)
  · exact h x p hx hpx

theorem set_area {st : State P} {area : Nat → P → Prop} {e : Nat} {q : P} (hq : area e q)
    (h : ∀ x p, st.alive x = true → st.point x = some p → area x p) :
    ∀ x p, (st.set e (some q)).alive x = true → (st.set e (some q)).point x = some p → area x p := by
  intro x p hx hp
  rw [set_point] at hp
  split at hp
  · rename_i hxe; cases hp; rw [hxe]; exact hq
  · exact h x p hx hp

theorem delete_area {st : State P} {area : Nat → P → Prop} {del : List Nat} (h : ∀ x p, st.alive x = true → st.point x = some p → area x p) :
    ∀ x p, (st.delete del).alive x = true → (st.delete del).point x = some p → area x p :=
  fun x p hx hp => h x p ((delete_alive _ _ _).1 hx).1 hp

theorem keeps_area {inp : Input P} (ho : inp.Ok) {st0 : State P} {area : Nat → P → Prop} (ha : InAreas inp st0 area) :
    Keeps inp fun _ _ st _ => ∀ x p, st.alive x = true → st.point x = some p → area x p := by
  refine ⟨fun e todo st rem st' rem' h1 h2 h3 h4 => ?_, fun L e todo st rem st' rem' _ h1 h2 h3 h4 => ?_, fun L st rem todo _ _ _ h => delete_area h⟩
  · have he := h1.left e (by simp)
    have hh := h1.has e he.1
    have hp : ∀ x ∈ (inp.elem e).parents, inp.Has x := fun x hx => (ho.up e x hh hx).1
    have hf := set_area (ha.first e hh he.2.1) h4
    cases h3 with
    | base _ hs => exact spread_area ha hp hs hf
    | mark _ hs h5 h6 h7 =>
      have h8 := spread_area ha hp hs hf
      intro x p hx hpx
      rw [h6] at hx
      rw [h7] at hpx
      rcases h5 with rfl | rfl | ⟨q, hq, rfl⟩
      · exact h8 x p hx hpx
      · exact set_area (ha.fallback e hh) h8 x p hx hpx
      · exact set_area (ha.placed e q hq) h8 x p hx hpx
    | up y k q del _ hs hq => exact set_area (ha.placed _ q hq) (delete_area (spread_area ha hp hs hf))
  · have he := h1.left e (by simp)
    have hh := h1.has e he.1
    have hp : ∀ x ∈ (inp.elem e).parents, inp.Has x := fun x hx => (ho.up e x hh hx).1
    cases h3 with
    | go hs => exact spread_area ha hp hs h4
    | here _ hs => exact spread_area ha hp hs (set_area (ha.fallback e hh) h4)
    | rest _ hq _ hs => exact spread_area ha hp hs (set_area (ha.placed e _ hq) h4)
    | remove _ h5 _ _ h6 =>
      intro x p hx hpx
      rw [h5] at hx
      rw [h6] at hpx
      split at hpx
      · cases hpx
      · exact h4 x p hx hpx
    | up y k q del _ _ _ _ hq => exact set_area (ha.placed _ q hq) (delete_area h4)

/-! ## Branches that reach the first layer -/

theorem Rooted.has {inp : Input P} (ho : inp.Ok) {e : Nat} (h : Rooted inp e) : inp.Has e := by
  induction h with
  | base h _ => exact h
  | up _ h ih => exact (ho.up _ _ ih h).1

theorem rooted_down {inp : Input P} (ho : inp.Ok) {c e : Nat} (h : Rooted inp e) (hc : inp.Has c) (hce : e ∈ (inp.elem c).parents) : Rooted inp c := by
  cases h with
  | base _ hl => have := (ho.up c e hc hce).2; omega
  | up hr he =>
    rename_i c'
    rw [ho.single c c' e hc (hr.has ho) hce he]
    exact hr

theorem rooted_child {inp : Input P} (ho : inp.Ok) {e : Nat} (h : Rooted inp e) (hl : 0 < (inp.elem e).layer) :
    ∃ c, Rooted inp c ∧ e ∈ (inp.elem c).parents ∧ (inp.elem c).layer + 1 = (inp.elem e).layer := by
  cases h with
  | base _ h => omega
  | up hr he => exact ⟨_, hr, he, ((ho.up _ _ (hr.has ho) he).2).symm⟩

theorem keeps_rooted {inp : Input P} (ho : inp.Ok) (hb : inp.buildplate = true) :
    Keeps inp fun _ _ st rem => ∀ e, Rooted inp e → st.alive e = true ∧ e ∉ rem := by
  refine ⟨fun e todo st rem st' rem' h1 h2 h3 h4 => ?_, fun L e todo st rem st' rem' hL h1 h2 h3 h4 => ?_, fun L st rem todo _ _ _ h => fun e he =>
    ⟨(delete_alive _ _ _).2 (h e he), by simp⟩⟩
  · cases h3 with
    | base _ hs =>
      intro x hx
      have := h4 x hx
      exact ⟨by rw [hs.choose_spec.2.1]; exact this.1, this.2⟩
    | mark h => rw [hb] at h; cases h
    | up _ _ _ _ h => rw [hb] at h; cases h
  · have he := h1.left e (by simp)
    have hno : st.point e = none → ¬ Rooted inp e := by
      intro hp hr
      obtain ⟨c, hc, hce, hl⟩ := rooted_child ho hr (by omega)
      have := h4 c hc
      exact (h1.point c this.1 this.2 (by omega) (fun ht => by have := (h1.left c ht).2.1; omega)).2 e hce hp
    cases h3 with
    | go hs =>
      intro x hx
      have := h4 x hx
      exact ⟨by rw [hs.choose_spec.2.1]; exact this.1, this.2⟩
    | here _ hs =>
      intro x hx
      have := h4 x hx
      exact ⟨by rw [hs.choose_spec.2.1]; exact this.1, this.2⟩
    | rest _ _ _ hs =>
      intro x hx
      have := h4 x hx
      exact ⟨by rw [hs.choose_spec.2.1]; exact this.1, this.2⟩
    | remove hp h5 _ _ _ =>
      intro x hx
      have := h4 x hx
      refine ⟨by rw [h5]; exact this.1, ?_⟩
      simp only [List.mem_cons, not_or]
      exact ⟨fun hh => hno hp (hh ▸ hx), this.2⟩
    | up y k q del hp hy0 hch hk hq htop hdel hal =>
      intro x hx
      have hx' := h4 x hx
      refine ⟨(delete_alive _ _ _).2 ⟨hx'.1, fun hd => ?_⟩, ?_⟩
      · obtain ⟨i, h5, h6, rfl⟩ := (hdel x).1 hd
        have hr : ∀ j, j ≤ i → Rooted inp (y (i - j)) := by
          intro j
          induction j with
          | zero => intro _; exact hx
          | succ j ih =>
            intro hj
            refine rooted_down ho (ih (by omega)) (h1.has _ (hal _ (by omega))) ?_
            rw [(hch (i - (j + 1)) (by omega)).1, show i - (j + 1) + 1 = i - j from by omega]
            simp
        have := hr i (Nat.le_refl _)
        rw [Nat.sub_self, hy0] at this
        exact hno hp this
      · simp only [List.mem_cons, not_or]
        exact ⟨fun hh => hno hp (hh ▸ hx), hx'.2⟩

/-! ## Without gaps -/

/-- A branch was placed on the element, and on no element further up it could be. -/
def Top (inp : Input P) (st : State P) (y : Nat) : Prop :=
  (∃ p, inp.placed y = some p ∧ st.point y = some p) ∧ ∀ z, Relation.TransGen (Next inp) y z → inp.placed z = none

/-- While layer `L` is visited. -/
structure Tight (inp : Input P) (L : Nat) (todo : List Nat) (st : State P) (rem : List Nat) : Prop where
  above : ∀ y, st.alive y = true → L < (inp.elem y).layer → st.point y ≠ none →
    (∃ c, st.alive c = true ∧ c ∉ rem ∧ c ∉ todo ∧ y ∈ (inp.elem c).parents ∧ (inp.elem c).layer = L) ∨ Top inp st y
  held : ∀ e, st.alive e = true → e ∉ rem → 0 < (inp.elem e).layer → st.point e ≠ none →
    (∃ c, st.alive c = true ∧ c ∉ rem ∧ e ∈ (inp.elem c).parents) ∨ Rests inp st e
  follow : ∀ c e, st.alive c = true → c ∉ rem → c ∉ todo → (inp.elem c).layer ≤ L → e ∈ (inp.elem c).parents →
    ∃ q, st.point c = some q ∧ (st.point e = some (inp.moved e q) ∨ ∃ p, inp.placed e = some p ∧ st.point e = some p)

theorem Spread.alive {inp : Input P} {st st' : State P} {e : Nat} (h : Spread inp st e st') : st'.alive = st.alive := h.choose_spec.2.1

theorem Spread.gracious {inp : Input P} {st st' : State P} {e : Nat} (h : Spread inp st e st') : st'.gracious = st.gracious := h.choose_spec.2.2.2.1

theorem tight_spread {inp : Input P} (ho : inp.Ok) {L e : Nat} {todo rem : List Nat} {st st' : State P} (h : Tight inp L (e :: todo) st rem)
    (hhas : ∀ x, st.alive x = true → inp.Has x) (ha : st.alive e = true) (hl : (inp.elem e).layer = L) (hr : e ∉ rem) (ht : e ∉ todo)
    (hup : ∀ x ∈ (inp.elem e).parents, st.alive x = true)
    (hs : Spread inp st e st') : Tight inp L todo st' rem := by
  have htop : ∀ y, Top inp st y → Top inp st' y := fun y ⟨⟨p, h1, h2⟩, h3⟩ => ⟨⟨p, h1, hs.same h2⟩, h3⟩
  refine ⟨fun y hy hly hp => ?_, fun x hx h1 h2 h3 => ?_, fun c x hc h1 h2 h3 h4 => ?_⟩
  · rw [hs.alive] at hy ⊢
    rcases hs.new hp with h1 | h1
    · rcases h.above y hy hly h1 with ⟨c, hc, hc1, hc2, hc3⟩ | h2
      · exact Or.inl ⟨c, hc, hc1, fun hh => hc2 (List.mem_cons_of_mem _ hh), hc3⟩
      · exact Or.inr (htop y h2)
    · exact Or.inl ⟨e, ha, hr, ht, h1, hl⟩
  · rw [hs.alive] at hx ⊢
    rcases hs.new h3 with h4 | h4
    · rcases h.held x hx h1 h2 h4 with hc | ⟨w, hw, hw'⟩
      · exact Or.inl hc
      · exact Or.inr ⟨w, hs.same hw, by rw [hs.gracious]; exact hw'⟩
    · exact Or.inl ⟨e, ha, hr, h4⟩
  · rw [hs.alive] at hc
    by_cases hce : c = e
    · subst hce
      obtain ⟨q, hq, _, _, _, h5⟩ := id hs
      refine ⟨q, hs.same hq, ?_⟩
      by_cases hx : st.point x = none
      · left
        rw [h5, if_pos ⟨h4, hx⟩]
      · right
        have hux := hup x h4
        rcases h.above x hux (by rw [(ho.up c x (hhas c ha) h4).2]; omega) hx with ⟨d, hd, _, hd2, hd3, _⟩ | ⟨⟨p, hp1, hp2⟩, _⟩
        · exact absurd (ho.single c d x (hhas c ha) (hhas d hd) h4 hd3) (fun hh => hd2 (by simp [hh]))
        · exact ⟨p, hp1, hs.same hp2⟩
    · obtain ⟨q, hq, hq'⟩ := h.follow c x hc h1 (by simp [hce, h2]) h3 h4
      refine ⟨q, hs.same hq, ?_⟩
      rcases hq' with hq' | ⟨p, hp1, hp2⟩
      · exact Or.inl (hs.same hq')
      · exact Or.inr ⟨p, hp1, hs.same hp2⟩

/-- The point of an element is set that had none. -/
theorem tight_set {inp : Input P} {L e : Nat} {todo rem : List Nat} {st st' : State P} {q : P} (h : Tight inp L (e :: todo) st rem)
    (hl : (inp.elem e).layer = L) (hp : L = 0 ∧ (∀ c, st.alive c = true → e ∉ (inp.elem c).parents) ∨ st.point e = none)
    (ha : st'.alive = st.alive) (hpt : st'.point = (st.set e (some q)).point)
    (hg : ∀ x, x ≠ e → st'.gracious x = st.gracious x) (hre : 0 < L → Rests inp st' e) : Tight inp L (e :: todo) st' rem := by
  have hne : ∀ x, x ≠ e → st'.point x = st.point x := fun x hx => by rw [hpt, set_point, if_neg hx]
  refine ⟨fun y hy hly h1 => ?_, fun x hx h1 h2 h3 => ?_, fun c x hc h1 h2 h3 h4 => ?_⟩
  · rw [ha] at hy ⊢
    have hye : y ≠ e := fun hh => by rw [hh] at hly; omega
    rw [hne y hye] at h1
    rcases h.above y hy hly h1 with h2 | ⟨⟨p, h3, h4⟩, h5⟩
    · exact Or.inl h2
    · exact Or.inr ⟨⟨p, h3, by rw [hne y hye]; exact h4⟩, h5⟩
  · rw [ha] at hx ⊢
    by_cases hxe : x = e
    · subst hxe
      exact Or.inr (hre (by omega))
    · rw [hne x hxe] at h3
      rcases h.held x hx h1 h2 h3 with h4 | ⟨w, hw, hw'⟩
      · exact Or.inl h4
      · exact Or.inr ⟨w, by rw [hne x hxe]; exact hw, by rw [hg x hxe]; exact hw'⟩
  · rw [ha] at hc
    have hce : c ≠ e := fun hh => h2 (by simp [hh])
    obtain ⟨v, hv, hv'⟩ := h.follow c x hc h1 h2 h3 h4
    have hxe : x ≠ e := by
      rintro rfl
      rcases hp with hp | hp
      · exact hp.2 c hc h4
      · rw [hp] at hv'
        rcases hv' with hv' | ⟨_, _, hv'⟩ <;> cases hv'
    exact ⟨v, by rw [hne c hce]; exact hv, by rw [hne x hxe]; exact hv'⟩

theorem keeps_tight {inp : Input P} (ho : inp.Ok) (hb : inp.buildplate = true) : Keeps inp (Tight inp) := by
  refine ⟨fun e todo st rem st' rem' h1 h2 h3 h4 => ?_, fun L e todo st rem st' rem' hL h1 h2 h3 h4 => ?_, fun L st rem todo h1 h2 hf h => ?_⟩
  · have he := h1.left e (by simp)
    have hnd := List.nodup_cons.1 h1.nodup
    cases h3 with
    | base _ hs =>
      refine tight_spread ho (st := st.set e (some (inp.first e))) (tight_set (q := inp.first e) h4 he.2.1 (.inl ⟨rfl, fun c hc hce => ?_⟩) rfl rfl (fun _ _ => rfl) (fun h => absurd h (Nat.lt_irrefl _)))
        h1.has he.1 he.2.1 he.2.2 hnd.1 (fun x hx => h1.up e x he.1 he.2.2 hx) hs
      have := not_child ho h1 hc hce
      omega
    | mark h => rw [hb] at h; cases h
    | up _ _ _ _ h => rw [hb] at h; cases h
  · have he := h1.left e (by simp)
    have hnd := List.nodup_cons.1 h1.nodup
    cases h3 with
    | go hs => exact tight_spread ho h4 h1.has he.1 he.2.1 he.2.2 hnd.1 (fun x hx => h1.up e x he.1 he.2.2 hx) hs
    | here hp hs =>
      refine tight_spread ho (st := placeHere inp st e) (tight_set (q := inp.fallback e) h4 he.2.1 (.inr hp) rfl rfl (fun x hx => ?_) (fun _ => ?_))
        h1.has he.1 he.2.1 he.2.2 hnd.1 (fun x hx => h1.up e x he.1 he.2.2 hx) hs
      · show (if x = e then _ else _) = _
        rw [if_neg hx]
      · exact ⟨inp.fallback e, by simp [placeHere, State.set], Or.inr ⟨by simp [placeHere], rfl⟩⟩
    | @rest _ q hp hq _ hs =>
      refine tight_spread ho (st := st.set e (some q)) (tight_set (q := q) h4 he.2.1 (.inr hp) rfl rfl (fun x hx => rfl) (fun _ => ?_))
        h1.has he.1 he.2.1 he.2.2 hnd.1 (fun x hx => h1.up e x he.1 he.2.2 hx) hs
      exact ⟨_, by simp [State.set], Or.inl hq⟩
    | remove hp h5 _ h7 h6 =>
      refine ⟨fun y hy hly h8 => ?_, fun x hx h8 h9 h10 => ?_, fun c x hc h8 h9 h10 h11 => ?_⟩
      · rw [h5] at hy ⊢
        rw [h6] at h8
        split at h8
        · exact absurd rfl h8
        · rename_i hye
          rcases h4.above y hy hly h8 with ⟨c, hc, hc1, hc2, hc3, hc4⟩ | ⟨⟨p, h11, h12⟩, h13⟩
          · exact Or.inl ⟨c, hc, by
              simp only [List.mem_cons, not_or]
              exact ⟨fun hh => hye (hh ▸ hc3), hc1⟩, fun hh => hc2 (List.mem_cons_of_mem _ hh), hc3, hc4⟩
          · exact Or.inr ⟨⟨p, h11, by rw [h6, if_neg hye]; exact h12⟩, h13⟩
      · rw [h5] at hx ⊢
        rw [h6] at h10
        split at h10
        · exact absurd rfl h10
        · rename_i hxe
          rcases h4.held x hx (fun hh => h8 (List.mem_cons_of_mem _ hh)) h9 h10 with ⟨c, hc, hc1, hc2⟩ | ⟨w, hw, hw'⟩
          · exact Or.inl ⟨c, hc, by
              simp only [List.mem_cons, not_or]
              exact ⟨fun hh => hxe (hh ▸ hc2), hc1⟩, hc2⟩
          · exact Or.inr ⟨w, by rw [h6, if_neg hxe]; exact hw, by rw [h7]; exact hw'⟩
      · rw [h5] at hc
        have hce : c ≠ e := fun hh => h8 (by simp [hh])
        obtain ⟨v, hv, hv'⟩ := h4.follow c x hc (fun hh => h8 (List.mem_cons_of_mem _ hh)) (by simp [hce, h9]) h10 h11
        have hc' : c ∉ (inp.elem e).parents := fun hh => by
          have := not_child ho h1 he.1 hh
          omega
        have hx' : x ∉ (inp.elem e).parents := fun hh => hce (ho.single c e x (h1.has c hc) (h1.has e he.1) h11 hh)
        refine ⟨v, by rw [h6, if_neg hc']; exact hv, ?_⟩
        rw [h6, if_neg hx']
        exact hv'
    | up y k q del hp hy0 hch hk hq htop hdel hal =>
      have hlay := chain_layer ho hch (by rw [hy0]; exact h1.has e he.1)
      rw [hy0] at hlay
      -- an element of the chain that has a point is the one on which the branch is placed
      have hmid : ∀ i, i + 1 < k → st.point (y (i + 1)) = none := by
        intro i hi
        apply Classical.byContradiction
        intro hne
        have h5 := (hlay (i + 1) (by omega)).2
        rcases h4.above (y (i + 1)) (hal _ (by omega)) (by omega) hne with ⟨c, hc, _, hc2, hc3, hc4⟩ | ⟨_, h6⟩
        · have hci := chain_below ho hch (by rw [hy0]; exact h1.has e he.1) (by omega) (h1.has c hc) hc3
          have h6 := (hlay i (by omega)).2
          rw [← hci] at h6
          have hi0 : i = 0 := by omega
          subst hi0
          rw [hy0] at hci
          exact hc2 (by simp [hci])
        · have hgo : ∀ j, i + 1 < j → j ≤ k → Relation.TransGen (Next inp) (y (i + 1)) (y j) := by
            intro j
            induction j with
            | zero => intro h; omega
            | succ j ih =>
              intro hj hjk
              by_cases hji : j = i + 1
              · subst hji
                exact .single (hch _ (by omega))
              · exact (ih (by omega) (by omega)).tail (hch j (by omega))
          have := h6 (y k) (hgo k hi (Nat.le_refl _))
          rw [hq] at this
          cases this
      have hcase : ∀ c, c = e ∨ c ∈ del → ∀ x, x ∈ (inp.elem c).parents → x ≠ y k → st.point x = none := by
        intro c hc x hx hxk
        obtain ⟨i, hi1, rfl⟩ : ∃ i, i + 1 < k + 1 ∧ c = y i := by
          rcases hc with rfl | hc
          · exact ⟨0, by omega, hy0.symm⟩
          · obtain ⟨i, _, hi2, hi3⟩ := (hdel c).1 hc
            exact ⟨i, by omega, hi3⟩
        rw [(hch i (by omega)).1] at hx
        have hx : x = y (i + 1) := by simpa using hx
        subst hx
        refine hmid i ?_
        have : i + 1 ≠ k := fun hh => hxk (by rw [hh])
        omega
      have hlk := (hlay k (Nat.le_refl _)).2
      refine ⟨fun z hz hlz h8 => ?_, fun x hx h8 h9 h10 => ?_, fun c x hc h8 h9 h10 h11 => ?_⟩
      · obtain ⟨hz, hzd⟩ := (delete_alive _ _ _).1 hz
        by_cases hzk : z = y k
        · subst hzk
          exact Or.inr ⟨⟨q, hq, by simp [State.set]⟩, htop⟩
        · rw [set_point, if_neg hzk] at h8
          rcases h4.above z hz hlz h8 with ⟨c, hc, hc1, hc2, hc3, hc4⟩ | ⟨⟨p, h11, h12⟩, h13⟩
          · have hcd : ¬ (c = e ∨ c ∈ del) := fun hh => h8 (hcase c hh z hc3 hzk)
            rw [not_or] at hcd
            refine Or.inl ⟨c, (delete_alive _ _ _).2 ⟨hc, hcd.2⟩, ?_, fun hh => hc2 (List.mem_cons_of_mem _ hh), hc3, hc4⟩
            simp only [List.mem_cons, not_or]
            exact ⟨hcd.1, hc1⟩
          · exact Or.inr ⟨⟨p, h11, by rw [set_point, if_neg hzk]; exact h12⟩, h13⟩
      · obtain ⟨hx, hxd⟩ := (delete_alive _ _ _).1 hx
        by_cases hxk : x = y k
        · subst hxk
          exact Or.inr ⟨q, by simp [State.set], Or.inl hq⟩
        · rw [set_point, if_neg hxk] at h10
          rcases h4.held x hx (fun hh => h8 (List.mem_cons_of_mem _ hh)) h9 h10 with ⟨c, hc, hc1, hc2⟩ | ⟨w, hw, hw'⟩
          · have hcd : ¬ (c = e ∨ c ∈ del) := fun hh => h10 (hcase c hh x hc2 hxk)
            rw [not_or] at hcd
            refine Or.inl ⟨c, (delete_alive _ _ _).2 ⟨hc, hcd.2⟩, ?_, hc2⟩
            simp only [List.mem_cons, not_or]
            exact ⟨hcd.1, hc1⟩
          · exact Or.inr ⟨w, by rw [set_point, if_neg hxk]; exact hw, hw'⟩
      · obtain ⟨hc, hcd⟩ := (delete_alive _ _ _).1 hc
        have hce : c ≠ e := fun hh => h8 (by simp [hh])
        obtain ⟨v, hv, hv'⟩ := h4.follow c x hc (fun hh => h8 (List.mem_cons_of_mem _ hh)) (by simp [hce, h9]) h10 h11
        have hck : c ≠ y k := fun hh => by rw [hh] at h10; omega
        refine ⟨v, by rw [set_point, if_neg hck]; exact hv, ?_⟩
        by_cases hxk : x = y k
        · subst hxk
          exact Or.inr ⟨q, hq, by simp [State.set]⟩
        · rw [set_point, if_neg hxk]
          exact hv'
  · refine ⟨fun y hy hly hp => ?_, fun x hx _ h3 h4 => ?_, fun c x hc _ h3 h4 h5 => ?_⟩
    · obtain ⟨hy', hyr⟩ := (delete_alive _ _ _).1 hy
      rcases h.above y hy' (by omega) hp with ⟨c, hc, _, _, hc3, hc4⟩ | h3
      · have := not_child ho h1 hc hc3
        omega
      · exact Or.inr h3
    · obtain ⟨hx, hxr⟩ := (delete_alive _ _ _).1 hx
      rcases h.held x hx hxr h3 h4 with ⟨c, hc, hc1, hc2⟩ | h5
      · exact Or.inl ⟨c, (delete_alive _ _ _).2 ⟨hc, hc1⟩, by simp, hc2⟩
      · exact Or.inr h5
    · have hcl : (inp.elem c).layer ≠ L + 1 := fun hh => h3 (hf c hc hh)
      obtain ⟨hc, hcr⟩ := (delete_alive _ _ _).1 hc
      exact h.follow c x hc hcr (by simp) (by omega) h5

end Verif.Nodes
