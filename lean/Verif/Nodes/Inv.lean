import Verif.Nodes.Contact

/-! # An invariant of the placement of branches -/

namespace Verif.Nodes

variable {P : Type}

/-- What keeps an element from hanging in the air, if `rem` are the elements that will be removed: the branch goes on below, ends there, or ends at the
element above. -/
def Held (inp : Input P) (st : State P) (rem : List Nat) (e : Nat) : Prop :=
  (∃ c, st.alive c = true ∧ c ∉ rem ∧ e ∈ (inp.elem c).parents) ∨ Rests inp st e ∨
    ∃ p ∈ (inp.elem e).parents, ∃ q, inp.placed p = some q ∧ st.point p = some q

/-- While the elements of layer `L` are visited, of which `todo` are left. -/
structure Inv (inp : Input P) (L : Nat) (todo : List Nat) (st : State P) (rem : List Nat) : Prop where
  has : ∀ e, st.alive e = true → inp.Has e
  gone : ∀ e ∈ rem, st.alive e = true ∧ (inp.elem e).layer = L ∧ ∀ c, st.alive c = true → e ∉ (inp.elem c).parents
  up : ∀ e p, st.alive e = true → e ∉ rem → p ∈ (inp.elem e).parents → st.alive p = true
  point : ∀ e, st.alive e = true → e ∉ rem → (inp.elem e).layer ≤ L → e ∉ todo →
    st.point e ≠ none ∧ ∀ p ∈ (inp.elem e).parents, st.point p ≠ none
  left : ∀ e ∈ todo, st.alive e = true ∧ (inp.elem e).layer = L ∧ e ∉ rem
  nodup : todo.Nodup
  held : ∀ e, st.alive e = true → e ∉ rem → 0 < (inp.elem e).layer → st.point e ≠ none → Held inp st rem e

/-- The points that are set from the point of an element. -/
def Spread (inp : Input P) (st : State P) (e : Nat) (st' : State P) : Prop :=
  ∃ q, st.point e = some q ∧ st'.alive = st.alive ∧ st'.toBp = st.toBp ∧ st'.gracious = st.gracious ∧
    ∀ x, st'.point x = if x ∈ (inp.elem e).parents ∧ st.point x = none then some (inp.moved x q) else st.point x

theorem Spread.same {inp : Input P} {st st' : State P} {e : Nat} (h : Spread inp st e st') {x : Nat} {p : P} (hx : st.point x = some p) :
    st'.point x = some p := by
  obtain ⟨q, _, _, _, _, h5⟩ := h
  rw [h5, if_neg (by rw [hx]; simp), hx]

theorem Spread.new {inp : Input P} {st st' : State P} {e : Nat} (h : Spread inp st e st') {x : Nat} (hx : st'.point x ≠ none) :
    st.point x ≠ none ∨ x ∈ (inp.elem e).parents := by
  obtain ⟨q, _, _, _, _, h5⟩ := h
  rw [h5] at hx
  split at hx
  · rename_i h; exact Or.inr h.1
  · exact Or.inl hx

theorem Spread.ne {inp : Input P} {st st' : State P} {e : Nat} (h : Spread inp st e st') {x : Nat} (hx : st.point x ≠ none) :
    st'.point x ≠ none := by
  obtain ⟨v, hv⟩ := Option.ne_none_iff_exists'.1 hx
  rw [h.same hv]
  simp

theorem setPoints_some {inp : Input P} {L e : Nat} {todo rem : List Nat} {st : State P} (h : Inv inp L (e :: todo) st rem)
    (hp : st.point e ≠ none) :
    ∃ st', setPoints inp st e = some st' ∧ Spread inp st e st' ∧ Inv inp L todo st' rem := by
  obtain ⟨ha, hl, hr⟩ := h.left e (by simp)
  obtain ⟨q, hq⟩ := Option.ne_none_iff_exists'.1 hp
  obtain ⟨st', h1, h2, h3, h4, h5⟩ := setParents_some inp q (inp.elem e).parents st fun p hp => h.up e p ha hr hp
  have hs : Spread inp st e st' := ⟨q, hq, h2, h3, h4, h5⟩
  refine ⟨st', ?_, hs, ?_⟩
  · unfold setPoints
    rw [hq]
    exact h1
  · refine ⟨fun x hx => h.has x (h2 ▸ hx), fun x hx => by rw [h2]; exact h.gone x hx, fun x p hx => ?_, fun x hx h6 h7 h8 => ?_,
      fun x hx => by rw [h2]; exact h.left x (List.mem_cons_of_mem _ hx), (List.nodup_cons.1 h.nodup).2, fun x hx h6 h7 h8 => ?_⟩
    · rw [h2] at hx ⊢
      exact h.up x p hx
    · rw [h2] at hx
      by_cases hxe : x = e
      · subst hxe
        refine ⟨hs.ne hp, fun p hp => ?_⟩
        rw [h5]
        split
        · simp
        · rename_i hh
          exact fun h9 => hh ⟨hp, h9⟩
      · have := h.point x hx h6 h7 (by simp [hxe, h8])
        exact ⟨hs.ne this.1, fun p hp => hs.ne (this.2 p hp)⟩
    · rw [h2] at hx
      rcases hs.new h8 with h9 | h9
      · obtain ⟨v, hv⟩ := Option.ne_none_iff_exists'.1 h9
        rcases h.held x hx h6 h7 h9 with ⟨c, hc, hc', hcx⟩ | ⟨w, hw, hw'⟩ | ⟨p, hp, w, hw, hw'⟩
        · exact Or.inl ⟨c, by rw [h2]; exact hc, hc', hcx⟩
        · exact Or.inr (Or.inl ⟨w, hs.same hw, by rw [h4]; exact hw'⟩)
        · exact Or.inr (Or.inr ⟨p, hp, w, hw, hs.same hw'⟩)
      · exact Or.inl ⟨e, by rw [h2]; exact ha, hr, h9⟩

/-- An element that was visited may be visited again. -/
theorem Inv.again {inp : Input P} {L e : Nat} {todo rem : List Nat} {st : State P} (h : Inv inp L todo st rem) (ha : st.alive e = true)
    (hl : (inp.elem e).layer = L) (hr : e ∉ rem) (ht : e ∉ todo) : Inv inp L (e :: todo) st rem :=
  ⟨h.has, h.gone, h.up, fun x hx h1 h2 h3 => h.point x hx h1 h2 fun hh => h3 (List.mem_cons_of_mem _ hh),
    fun x hx => by
      rcases List.mem_cons.1 hx with rfl | hx
      · exact ⟨ha, hl, hr⟩
      · exact h.left x hx,
    List.nodup_cons.2 ⟨ht, h.nodup⟩, h.held⟩

theorem set_point (st : State P) (e x : Nat) (p : Option P) : (st.set e p).point x = if x = e then p else st.point x := rfl

theorem set_ne {st : State P} {x : Nat} (e : Nat) (p : P) (h : st.point x ≠ none) : (st.set e (some p)).point x ≠ none := by
  rw [set_point]
  split
  · simp
  · exact h

theorem not_child {inp : Input P} (ho : inp.Ok) {L : Nat} {todo rem : List Nat} {st : State P} (h : Inv inp L todo st rem) {x e : Nat}
    (hx : st.alive x = true) (hxe : e ∈ (inp.elem x).parents) : (inp.elem x).layer + 1 = (inp.elem e).layer := ((ho.up x e (h.has x hx) hxe).2).symm

/-- An element is placed where it is. -/
theorem inv_here {inp : Input P} (ho : inp.Ok) {L e : Nat} {todo rem : List Nat} {st : State P} (h : Inv inp L todo st rem)
    (he : (inp.elem e).layer = L) (hp : st.point e = none ∨ L = 0) : Inv inp L todo (placeHere inp st e) rem := by
  have hne : ∀ x, st.point x ≠ none → (placeHere inp st e).point x ≠ none := by
    intro x hx
    show (if x = e then _ else _) ≠ none
    split
    · simp
    · exact hx
  refine ⟨h.has, h.gone, h.up, fun x hx h1 h2 h3 => ?_, h.left, h.nodup, fun x hx h1 h2 h3 => ?_⟩
  · have := h.point x hx h1 h2 h3
    exact ⟨hne x this.1, fun p hp => hne p (this.2 p hp)⟩
  · change (if x = e then some (inp.fallback e) else st.point x) ≠ none at h3
    by_cases hxe : x = e
    · subst hxe
      exact Or.inr (Or.inl ⟨inp.fallback x, by simp [placeHere, State.set], Or.inr ⟨by simp [placeHere], rfl⟩⟩)
    · rw [if_neg hxe] at h3
      rcases h.held x hx h1 h2 h3 with ⟨c, hc, hc', hcx⟩ | ⟨w, hw, hw'⟩ | ⟨p, hpx, w, hw, hw'⟩
      · exact Or.inl ⟨c, hc, hc', hcx⟩
      · refine Or.inr (Or.inl ⟨w, ?_, ?_⟩)
        · show (if x = e then _ else _) = _
          rw [if_neg hxe]; exact hw
        · refine hw'.imp id fun hg => ⟨?_, hg.2⟩
          show (if x = e then _ else _) = _
          rw [if_neg hxe]; exact hg.1
      · refine Or.inr (Or.inr ⟨p, hpx, w, hw, ?_⟩)
        show (if p = e then _ else _) = _
        have hpe : p ≠ e := by
          rintro rfl
          rcases hp with hp | hp
          · rw [hp] at hw'; cases hw'
          · have := not_child ho h hx hpx
            omega
        rw [if_neg hpe]
        exact hw'

/-- An element without a point does not come from one that is left. -/
theorem no_child {inp : Input P} (ho : inp.Ok) {L e : Nat} {todo rem : List Nat} {st : State P} (h : Inv inp L todo st rem)
    (he : (inp.elem e).layer = L) (hp : st.point e = none) : ∀ c, st.alive c = true → e ∉ (inp.elem c).parents := by
  intro c hc hce
  have := not_child ho h hc hce
  exact (h.point c hc (fun hr => by have := (h.gone c hr).2.1; omega) (by omega) (fun ht => by have := (h.left c ht).2.1; omega)).2 e hce hp

/-- An element is removed. -/
theorem inv_remove {inp : Input P} (ho : inp.Ok) {L e : Nat} {todo rem : List Nat} {st st' : State P} (h : Inv inp L (e :: todo) st rem)
    (hp : st.point e = none) (h2 : st'.alive = st.alive) (h4 : st'.gracious = st.gracious)
    (h5 : ∀ x, st'.point x = if x ∈ (inp.elem e).parents then none else st.point x) : Inv inp L todo st' (e :: rem) := by
  have he := h.left e (by simp)
  have hnd := List.nodup_cons.1 h.nodup
  refine ⟨fun x hx => h.has x (h2 ▸ hx), fun x hx => ?_, fun x p hx h1 h3 => ?_, fun x hx h1 h3 h6 => ?_, fun x hx => ?_, hnd.2,
    fun x hx h1 h3 h6 => ?_⟩
  · rw [h2]
    rcases List.mem_cons.1 hx with rfl | hx
    · exact ⟨he.1, he.2.1, no_child ho h he.2.1 hp⟩
    · exact h.gone x hx
  · rw [h2] at hx ⊢
    exact h.up x p hx (fun hh => h1 (List.mem_cons_of_mem _ hh)) h3
  · rw [h2] at hx
    have hxne : x ≠ e := fun hh => h1 (by simp [hh])
    have := h.point x hx (fun hh => h1 (List.mem_cons_of_mem _ hh)) h3 (by simp [hxne, h6])
    constructor
    · rw [h5, if_neg]
      · exact this.1
      · intro hxe
        have := not_child ho h he.1 hxe
        omega
    · intro p hpx
      rw [h5, if_neg]
      · exact this.2 p hpx
      · intro hpe
        exact hxne (ho.single x e p (h.has x hx) (h.has e he.1) hpx hpe)
  · rw [h2]
    obtain ⟨a, b, c⟩ := h.left x (List.mem_cons_of_mem _ hx)
    refine ⟨a, b, ?_⟩
    simp only [List.mem_cons, not_or]
    exact ⟨fun hh => hnd.1 (hh ▸ hx), c⟩
  · rw [h2] at hx
    rw [h5] at h6
    split at h6
    · exact absurd rfl h6
    · rename_i hxe
      have hxne : x ≠ e := fun hh => h1 (by simp [hh])
      rcases h.held x hx (fun hh => h1 (List.mem_cons_of_mem _ hh)) h3 h6 with ⟨c, hc, hc', hcx⟩ | ⟨w, hw, hw'⟩ | ⟨p, hpx, w, hw, hw'⟩
      · refine Or.inl ⟨c, by rw [h2]; exact hc, ?_, hcx⟩
        simp only [List.mem_cons, not_or]
        exact ⟨fun hh => hxe (hh ▸ hcx), hc'⟩
      · refine Or.inr (Or.inl ⟨w, by rw [h5, if_neg hxe]; exact hw, by rw [h4]; exact hw'⟩)
      · refine Or.inr (Or.inr ⟨p, hpx, w, hw, ?_⟩)
        rw [h5, if_neg]
        · exact hw'
        · intro hpe
          exact hxne (ho.single x e p (h.has x hx) (h.has e he.1) hpx hpe)

theorem delete_alive (st : State P) (del : List Nat) (x : Nat) : (st.delete del).alive x = true ↔ st.alive x = true ∧ x ∉ del := by
  simp [State.delete]

/-- An element is placed where it can rest. -/
theorem inv_rest {inp : Input P} {L e : Nat} {todo rem : List Nat} {st : State P} (h : Inv inp L todo st rem)
    {p : P} (hp : inp.placed e = some p) : Inv inp L todo (st.set e (some p)) rem := by
  refine ⟨h.has, h.gone, h.up, fun x hx h1 h2 h3 => ?_, h.left, h.nodup, fun x hx h1 h2 h3 => ?_⟩
  · have := h.point x hx h1 h2 h3
    exact ⟨set_ne e p this.1, fun q hq => set_ne e p (this.2 q hq)⟩
  · rw [set_point] at h3
    by_cases hxe : x = e
    · subst hxe
      exact Or.inr (Or.inl ⟨p, by simp [State.set], Or.inl hp⟩)
    · rw [if_neg hxe] at h3
      rcases h.held x hx h1 h2 h3 with ⟨c, hc, hc', hcx⟩ | ⟨w, hw, hw'⟩ | ⟨p', hpx, w, hw, hw'⟩
      · exact Or.inl ⟨c, hc, hc', hcx⟩
      · exact Or.inr (Or.inl ⟨w, by rw [set_point, if_neg hxe]; exact hw, hw'⟩)
      · refine Or.inr (Or.inr ⟨p', hpx, w, hw, ?_⟩)
        rw [set_point]
        split
        · rename_i hpe; rw [← hp, ← hpe]; exact hw
        · exact hw'

/-- An element is placed further up. -/
theorem inv_up {inp : Input P} (ho : inp.Ok) {L : Nat} {todo rem : List Nat} {st : State P} {y : Nat → Nat} {k : Nat} {p : P} {del : List Nat}
    (h : Inv inp L (y 0 :: todo) st rem) (hch : Chain inp y k) (hpl : inp.placed (y k) = some p)
    (hdel : ∀ x, x ∈ del ↔ ∃ i, 1 ≤ i ∧ i + 1 < k ∧ x = y i) (hk : k ≠ 0) (hno : ∀ c, st.alive c = true → y 0 ∉ (inp.elem c).parents) :
    Inv inp L todo ((st.delete del).set (y k) (some p)) (y 0 :: rem) := by
  have he := h.left (y 0) (by simp)
  have hnd := List.nodup_cons.1 h.nodup
  have hlay := chain_layer ho hch (h.has _ he.1)
  have hdl : ∀ x ∈ del, L < (inp.elem x).layer := by
    intro x hx
    obtain ⟨i, h1, h2, rfl⟩ := (hdel x).1 hx
    have := (hlay i (by omega)).2
    omega
  refine ⟨fun x hx => h.has x ((delete_alive _ _ _).1 hx).1, fun x hx => ?_, fun x q hx h1 h3 => ?_, fun x hx h1 h3 h6 => ?_, fun x hx => ?_, hnd.2,
    fun x hx h1 h3 h6 => ?_⟩
  · have : st.alive x = true ∧ (inp.elem x).layer = L ∧ ∀ c, st.alive c = true → x ∉ (inp.elem c).parents := by
      rcases List.mem_cons.1 hx with rfl | hx
      · exact ⟨he.1, he.2.1, hno⟩
      · exact h.gone x hx
    refine ⟨(delete_alive _ _ _).2 ⟨this.1, fun hd => ?_⟩, this.2.1, fun c hc => this.2.2 c ((delete_alive _ _ _).1 hc).1⟩
    have := hdl x hd
    omega
  · obtain ⟨hx, hxd⟩ := (delete_alive _ _ _).1 hx
    refine (delete_alive _ _ _).2 ⟨h.up x q hx (fun hh => h1 (List.mem_cons_of_mem _ hh)) h3, fun hd => ?_⟩
    obtain ⟨i, hi1, hi2, rfl⟩ := (hdel q).1 hd
    obtain ⟨j, rfl⟩ : ∃ j, i = j + 1 := ⟨i - 1, by omega⟩
    have hxj := chain_below ho hch (h.has _ he.1) (i := j) (by omega) (h.has x hx) h3
    by_cases hj : j = 0
    · subst hj
      exact h1 (by simp [hxj])
    · exact hxd ((hdel x).2 ⟨j, by omega, by omega, hxj⟩)
  · obtain ⟨hx, hxd⟩ := (delete_alive _ _ _).1 hx
    have := h.point x hx (fun hh => h1 (List.mem_cons_of_mem _ hh)) h3 (by
      simp only [List.mem_cons, not_or]
      exact ⟨fun hh => h1 (by simp [hh]), h6⟩)
    exact ⟨set_ne _ p this.1, fun q hq => set_ne _ p (this.2 q hq)⟩
  · obtain ⟨a, b, c⟩ := h.left x (List.mem_cons_of_mem _ hx)
    refine ⟨(delete_alive _ _ _).2 ⟨a, fun hd => ?_⟩, b, ?_⟩
    · have := hdl x hd
      omega
    · simp only [List.mem_cons, not_or]
      exact ⟨fun hh => hnd.1 (hh ▸ hx), c⟩
  · obtain ⟨hx, hxd⟩ := (delete_alive _ _ _).1 hx
    by_cases hxk : x = y k
    · subst hxk
      exact Or.inr (Or.inl ⟨p, by simp [State.set], Or.inl hpl⟩)
    · rw [set_point, if_neg hxk] at h6
      have hlast : ∀ i, i + 1 < k → x = y (i + 1) → Held inp ((st.delete del).set (y k) (some p)) (y 0 :: rem) x := by
        intro i hi hxi
        by_cases hik : i + 2 = k
        · refine Or.inr (Or.inr ⟨y k, ?_, p, hpl, by simp [State.set]⟩)
          rw [hxi, (hch (i + 1) (by omega)).1, ← hik]
          simp
        · exact absurd ((hdel x).2 ⟨i + 1, by omega, by omega, hxi⟩) hxd
      rcases h.held x hx (fun hh => h1 (List.mem_cons_of_mem _ hh)) h3 h6 with ⟨c, hc, hc', hcx⟩ | ⟨w, hw, hw'⟩ | ⟨q, hqx, w, hw, hw'⟩
      · by_cases hce : c = y 0
        · have := (hch 0 (by omega)).1
          rw [hce, this] at hcx
          have hx1 : x = y 1 := by simpa using hcx
          by_cases hk1 : k = 1
          · subst hk1
            exact absurd hx1 hxk
          · exact hlast 0 (by omega) hx1
        · by_cases hcd : c ∈ del
          · obtain ⟨i, hi1, hi2, rfl⟩ := (hdel c).1 hcd
            rw [(hch i (by omega)).1] at hcx
            have hx1 : x = y (i + 1) := by simpa using hcx
            exact hlast i (by omega) hx1
          · refine Or.inl ⟨c, (delete_alive _ _ _).2 ⟨hc, hcd⟩, ?_, hcx⟩
            simp only [List.mem_cons, not_or]
            exact ⟨hce, hc'⟩
      · exact Or.inr (Or.inl ⟨w, by rw [set_point, if_neg hxk]; exact hw, hw'⟩)
      · refine Or.inr (Or.inr ⟨q, hqx, w, hw, ?_⟩)
        rw [set_point]
        split
        · rename_i hqk
          rw [← hpl, ← hqk, hw]
        · exact hw'

/-- What happens to an element above the first layer. -/
inductive Step (inp : Input P) (e : Nat) (st : State P) (rem : List Nat) : State P → List Nat → Prop
  | go {st' : State P} : Spread inp st e st' → Step inp e st rem st' rem
  | here {st' : State P} : st.point e = none → Spread inp (placeHere inp st e) e st' → Step inp e st rem st' rem
  | rest {st' : State P} {p : P} : st.point e = none → inp.placed e = some p → (∀ z, Relation.TransGen (Next inp) e z → inp.placed z = none) →
      Spread inp (st.set e (some p)) e st' → Step inp e st rem st' rem
  | remove {st' : State P} : st.point e = none → st'.alive = st.alive → st'.toBp = st.toBp → st'.gracious = st.gracious →
      (∀ x, st'.point x = if x ∈ (inp.elem e).parents then none else st.point x) → Step inp e st rem st' (e :: rem)
  | up (y : Nat → Nat) (k : Nat) (p : P) (del : List Nat) : st.point e = none → y 0 = e → Chain inp y k → k ≠ 0 → inp.placed (y k) = some p →
      (∀ z, Relation.TransGen (Next inp) (y k) z → inp.placed z = none) → (∀ x, x ∈ del ↔ ∃ i, 1 ≤ i ∧ i + 1 < k ∧ x = y i) →
      (∀ i ≤ k, st.alive (y i) = true) → Step inp e st rem ((st.delete del).set (y k) (some p)) (e :: rem)

theorem delete_nil {st : State P} {del : List Nat} (h : ∀ x, x ∉ del) : st.delete del = st := by
  rw [List.eq_nil_iff_forall_not_mem.2 h]
  simp [State.delete]

theorem doElem_some {inp : Input P} (ho : inp.Ok) {L e : Nat} (hL : 0 < L) {todo rem : List Nat} {st : State P} (h : Inv inp L (e :: todo) st rem) :
    ∃ st' rem', doElem inp L (st, rem) e = some (st', rem') ∧ Inv inp L todo st' rem' ∧ Step inp e st rem st' rem' := by
  have he := h.left e (by simp)
  unfold doElem
  dsimp only
  split
  · rename_i q hq
    obtain ⟨st', h1, h2, h3⟩ := setPoints_some h (by rw [hq]; simp)
    exact ⟨st', rem, by rw [h1]; rfl, h3, .go h2⟩
  · rename_i hq
    split
    · obtain ⟨st', h1, h2, h3, h4, h5⟩ := resetParents_some (inp.elem e).parents st fun p hp => h.up e p he.1 he.2.2 hp
      exact ⟨st', e :: rem, by rw [h1]; rfl, inv_remove ho h hq h2 h4 h5, .remove hq h2 h3 h4 h5⟩
    · obtain ⟨r, st1, h1, h2⟩ := contact_some ho h.has he.1 (fun p hp => h.up e p he.1 he.2.2 hp) (fun x p hx hl hp =>
        h.up x p hx (fun hr => by have := (h.gone x hr).2.1; omega) hp)
      rw [he.2.1] at h1 h2
      rw [h1]
      simp only [Option.bind_eq_bind, Option.bind_some]
      cases h2 with
      | keep _ h0 => omega
      | here =>
        obtain ⟨st', h3, h4, h5⟩ := setPoints_some (inv_here ho h he.2.1 (.inl hq)) (by simp [placeHere, State.set])
        exact ⟨st', rem, by simp only [Bool.false_eq_true, if_false]; rw [h3]; rfl, h5, .here hq h4⟩
      | up y k p del hy0 hch hpl htop hdel hal =>
        by_cases hk : k = 0
        · subst hk
          have hd : st.delete del = st := delete_nil fun x hx => by obtain ⟨i, h1, h2, _⟩ := (hdel x).1 hx; omega
          rw [hd, hy0]
          rw [hy0] at hpl htop
          obtain ⟨st', h3, h4, h5⟩ := setPoints_some (inv_rest h hpl) (by simp [State.set])
          exact ⟨st', rem, by simp only [ne_eq, not_true_eq_false, decide_false, Bool.false_eq_true, if_false]; rw [h3]; rfl, h5, .rest hq hpl htop h4⟩
        · refine ⟨_, _, by simp only [ne_eq, hk, not_false_eq_true, decide_true, if_true], ?_, .up y k p del hq hy0 hch hk hpl htop hdel hal⟩
          subst hy0
          exact inv_up ho h hch hpl hdel hk (no_child ho h he.2.1 hq)

/-- The layer is done. -/
theorem Inv.next {inp : Input P} (ho : inp.Ok) {L : Nat} {st : State P} {rem : List Nat} (h : Inv inp L [] st rem) {es : List Nat}
    (hes : inp.layers[L + 1]? = some es ∨ es = [] ∧ inp.layers.length ≤ L + 1) :
    Inv inp (L + 1) (es.filter (st.delete rem).alive) (st.delete rem) [] := by
  have hup : ∀ x p, st.alive x = true → x ∉ rem → p ∈ (inp.elem x).parents → (st.delete rem).alive p = true := fun x p hx hxr h1 =>
    (delete_alive _ _ _).2 ⟨h.up x p hx hxr h1, fun hp => (h.gone p hp).2.2 x hx h1⟩
  refine ⟨fun x hx => h.has x ((delete_alive _ _ _).1 hx).1, by simp, fun x p hx _ h1 => ?_, fun x hx _ h1 h2 => ?_, fun x hx => ?_, ?_,
    fun x hx _ h1 h2 => ?_⟩
  · obtain ⟨hx, hxr⟩ := (delete_alive _ _ _).1 hx
    exact hup x p hx hxr h1
  · have hx0 := hx
    obtain ⟨hx, hxr⟩ := (delete_alive _ _ _).1 hx
    by_cases hl : (inp.elem x).layer = L + 1
    · exfalso
      obtain ⟨es', he1, he2⟩ := has_layer ho (h.has x hx)
      rw [hl] at he1
      rcases hes with hes | hes
      · rw [hes] at he1
        cases he1
        exact h2 (List.mem_filter.2 ⟨he2, hx0⟩)
      · have := has_lt ho (h.has x hx)
        omega
    · exact h.point x hx hxr (by omega) (by simp)
  · obtain ⟨h1, h2⟩ := List.mem_filter.1 hx
    refine ⟨h2, ?_, by simp⟩
    rcases hes with hes | hes
    · exact ho.layer _ _ hes x h1
    · rw [hes.1] at h1; cases h1
  · rcases hes with hes | hes
    · exact (ho.once es (List.mem_iff_getElem?.2 ⟨_, hes⟩)).filter _
    · rw [hes.1]; simp
  · obtain ⟨hx, hxr⟩ := (delete_alive _ _ _).1 hx
    rcases h.held x hx hxr h1 h2 with ⟨c, hc, hc', hcx⟩ | hh | ⟨p, hp, w, hw, hw'⟩
    · exact Or.inl ⟨c, (delete_alive _ _ _).2 ⟨hc, hc'⟩, by simp, hcx⟩
    · exact Or.inr (Or.inl hh)
    · exact Or.inr (Or.inr ⟨p, hp, w, hw, hw'⟩)

/-! ## The first layer -/

theorem inv_mark {inp : Input P} (ho : inp.Ok) {e : Nat} {todo rem : List Nat} {st : State P} (h : Inv inp 0 todo st rem) (ha : st.alive e = true)
    (hl : (inp.elem e).layer = 0) (hr : e ∉ rem) (n : Nat) :
    ∃ st', markUp inp n [e] st = some st' ∧ st'.alive = st.alive ∧ st'.point = st.point ∧ Inv inp 0 todo st' rem := by
  let A : Nat → Prop := Relation.ReflTransGen (fun a b => b ∈ (inp.elem a).parents) e
  have hA : ∀ x, A x → st.alive x = true ∧ x ∉ rem ∧ (x ≠ e → ∃ c, A c ∧ st.alive c = true ∧ c ∉ rem ∧ x ∈ (inp.elem c).parents) := by
    intro x hx
    induction hx with
    | refl => exact ⟨ha, hr, fun hh => absurd rfl hh⟩
    | @tail b c hb hbc ih =>
      have h1 := h.up b c ih.1 ih.2.1 hbc
      have h2 := not_child ho h ih.1 hbc
      exact ⟨h1, fun hc => by have := (h.gone c hc).2.1; omega, fun _ => ⟨b, hb, ih.1, ih.2.1, hbc⟩⟩
  obtain ⟨st', h1, h2, h3, h4⟩ := markUp_some (inp := inp) (A := A) (fun a b ha hb => ha.tail hb) n [e] st (fun x hx => (hA x hx).1)
    (fun x hx => by rw [List.mem_singleton.1 hx])
  refine ⟨st', h1, h2, h3, ⟨fun x hx => h.has x (h2 ▸ hx), fun x hx => by rw [h2]; exact h.gone x hx, fun x p hx => ?_, fun x hx => ?_,
      fun x hx => by rw [h2]; exact h.left x hx, h.nodup, fun x hx h6 h7 h8 => ?_⟩⟩
  · rw [h2] at hx ⊢
    exact h.up x p hx
  · rw [h2] at hx
    rw [h3]
    exact h.point x hx
  · rw [h2] at hx
    rw [h3] at h8
    unfold Held Rests
    rw [h2, h3]
    by_cases hAx : A x
    · obtain ⟨c, _, hc⟩ := (hA x hAx).2.2 (fun hh => by rw [hh, hl] at h7; exact absurd h7 (Nat.lt_irrefl _))
      exact Or.inl ⟨c, hc⟩
    · rw [h4 x hAx]
      exact h.held x hx h6 h7 h8

/-- What happens to an element of the first layer. -/
inductive First (inp : Input P) (e : Nat) (st : State P) (rem : List Nat) : State P → List Nat → Prop
  | base {st' : State P} : inp.buildplate = true → Spread inp (st.set e (some (inp.first e))) e st' → First inp e st rem st' rem
  | mark {st1 st2 st' : State P} : inp.buildplate = false → Spread inp (st.set e (some (inp.first e))) e st1 →
      (st2 = st1 ∨ st2 = placeHere inp st1 e ∨ ∃ p, inp.placed e = some p ∧ st2 = st1.set e (some p)) → st'.alive = st2.alive → st'.point = st2.point → First inp e st rem st' rem
  | up {st1 : State P} (y : Nat → Nat) (k : Nat) (p : P) (del : List Nat) : inp.buildplate = false → Spread inp (st.set e (some (inp.first e))) e st1 →
      inp.placed (y k) = some p → First inp e st rem ((st1.delete del).set (y k) (some p)) (e :: rem)

theorem inv_first {inp : Input P} (ho : inp.Ok) {e : Nat} {todo rem : List Nat} {st : State P} (h : Inv inp 0 (e :: todo) st rem) (p : P) :
    Inv inp 0 (e :: todo) (st.set e (some p)) rem := by
  have he := h.left e (by simp)
  refine ⟨h.has, h.gone, h.up, fun x hx h1 h2 h3 => ?_, h.left, h.nodup, fun x hx h1 h2 h3 => ?_⟩
  · have := h.point x hx h1 h2 h3
    exact ⟨set_ne e p this.1, fun q hq => set_ne e p (this.2 q hq)⟩
  · have hxe : x ≠ e := fun hh => by rw [hh] at h2; omega
    rw [set_point, if_neg hxe] at h3
    rcases h.held x hx h1 h2 h3 with ⟨c, hc, hc', hcx⟩ | ⟨w, hw, hw'⟩ | ⟨p', hpx, w, hw, hw'⟩
    · exact Or.inl ⟨c, hc, hc', hcx⟩
    · exact Or.inr (Or.inl ⟨w, by rw [set_point, if_neg hxe]; exact hw, hw'⟩)
    · refine Or.inr (Or.inr ⟨p', hpx, w, hw, ?_⟩)
      have := not_child ho h hx hpx
      rw [set_point, if_neg (fun hh => by rw [hh] at this; omega)]
      exact hw'

theorem doFirst_some {inp : Input P} (ho : inp.Ok) {e : Nat} {todo rem : List Nat} {st : State P} (h : Inv inp 0 (e :: todo) st rem) :
    ∃ st' rem', doFirst inp (st, rem) e = some (st', rem') ∧ Inv inp 0 todo st' rem' ∧ First inp e st rem st' rem' := by
  have he := h.left e (by simp)
  have hnd := List.nodup_cons.1 h.nodup
  obtain ⟨st1, h1, h2, h3⟩ := setPoints_some (inv_first ho h (inp.first e)) (by simp [State.set])
  have hal : st1.alive = st.alive := h2.choose_spec.2.1
  have he1 : st1.alive e = true := by rw [hal]; exact he.1
  unfold doFirst
  dsimp only
  rw [h1]
  simp only [Option.bind_eq_bind, Option.bind_some]
  split
  · rename_i hb
    exact ⟨st1, rem, rfl, h3, .base hb h2⟩
  · rename_i hb
    have hb : inp.buildplate = false := by simpa using hb
    obtain ⟨r, st2, h4, h5⟩ := contact_some ho h3.has he1 (fun p hp => h3.up e p he1 he.2.2 hp) (fun x p hx hl hp =>
      h3.up x p hx (fun hr => by have := (h3.gone x hr).2.1; omega) hp)
    rw [he.2.1] at h4 h5
    rw [h4]
    simp only [Option.bind_some]
    have hno : ∀ c, st1.alive c = true → e ∉ (inp.elem c).parents := fun c hc hce => by
      have := not_child ho h3 hc hce
      omega
    cases h5 with
    | keep _ _ =>
      obtain ⟨st', h6, h7, h8, h9⟩ := inv_mark ho h3 he1 he.2.1 he.2.2 (inp.layers.length + 1)
      exact ⟨st', rem, by simp only [Bool.false_eq_true, if_false]; rw [h6]; rfl, h9, .mark hb h2 (.inl rfl) h7 h8⟩
    | here =>
      obtain ⟨st', h6, h7, h8, h9⟩ := inv_mark ho (inv_here ho h3 he.2.1 (.inr rfl)) (e := e) he1 he.2.1 he.2.2 (inp.layers.length + 1)
      exact ⟨st', rem, by simp only [Bool.false_eq_true, if_false]; rw [h6]; rfl, h9, .mark hb h2 (.inr (.inl rfl)) h7 h8⟩
    | up y k p del hy0 hch hpl htop hdel hal =>
      by_cases hk : k = 0
      · subst hk
        have hd : st1.delete del = st1 := delete_nil fun x hx => by obtain ⟨i, h1, h2, _⟩ := (hdel x).1 hx; omega
        rw [hd, hy0]
        rw [hy0] at hpl
        obtain ⟨st', h6, h7, h8, h9⟩ := inv_mark ho (inv_rest h3 hpl) (e := e) he1 he.2.1 he.2.2 (inp.layers.length + 1)
        exact ⟨st', rem, by simp only [ne_eq, not_true_eq_false, decide_false, Bool.false_eq_true, if_false]; rw [h6]; rfl, h9,
          .mark hb h2 (.inr (.inr ⟨p, hpl, rfl⟩)) h7 h8⟩
      · refine ⟨_, _, by simp only [ne_eq, hk, not_false_eq_true, decide_true, if_true], ?_, .up y k p del hb h2 hpl⟩
        subst hy0
        exact inv_up ho (h3.again he1 he.2.1 he.2.2 hnd.1) hch hpl hdel hk hno

end Verif.Nodes
