import Verif.Nodes.Inv

/-! # Runs over all layers -/

namespace Verif.Nodes

variable {P : Type}

/-- What is kept by every step. -/
structure Keeps (inp : Input P) (Q : Nat → List Nat → State P → List Nat → Prop) : Prop where
  first : ∀ e todo st rem st' rem', Inv inp 0 (e :: todo) st rem → Inv inp 0 todo st' rem' → First inp e st rem st' rem' → Q 0 (e :: todo) st rem →
    Q 0 todo st' rem'
  step : ∀ L e todo st rem st' rem', 0 < L → Inv inp L (e :: todo) st rem → Inv inp L todo st' rem' → Step inp e st rem st' rem' →
    Q L (e :: todo) st rem → Q L todo st' rem'
  next : ∀ L st rem todo, Inv inp L [] st rem → Inv inp (L + 1) todo (st.delete rem) [] →
    (∀ e, (st.delete rem).alive e = true → (inp.elem e).layer = L + 1 → e ∈ todo) → Q L [] st rem → Q (L + 1) todo (st.delete rem) []

theorem doAll_first {inp : Input P} (ho : inp.Ok) {Q : Nat → List Nat → State P → List Nat → Prop} (hQ : Keeps inp Q) (todo : List Nat) :
    ∀ st rem, Inv inp 0 todo st rem → Q 0 todo st rem →
      ∃ st' rem', doAll (doFirst inp) todo (st, rem) = some (st', rem') ∧ Inv inp 0 [] st' rem' ∧ Q 0 [] st' rem' := by
  induction todo with
  | nil => intro st rem h1 h2; exact ⟨st, rem, rfl, h1, h2⟩
  | cons e todo ih =>
    intro st rem h1 h2
    obtain ⟨st1, rem1, h3, h4, h5⟩ := doFirst_some ho h1
    obtain ⟨st', rem', h6, h7, h8⟩ := ih st1 rem1 h4 (hQ.first e todo st rem st1 rem1 h1 h4 h5 h2)
    exact ⟨st', rem', by rw [doAll, h3]; exact h6, h7, h8⟩

theorem doAll_elem {inp : Input P} (ho : inp.Ok) {Q : Nat → List Nat → State P → List Nat → Prop} (hQ : Keeps inp Q) {L : Nat} (hL : 0 < L)
    (todo : List Nat) : ∀ st rem, Inv inp L todo st rem → Q L todo st rem →
      ∃ st' rem', doAll (doElem inp L) todo (st, rem) = some (st', rem') ∧ Inv inp L [] st' rem' ∧ Q L [] st' rem' := by
  induction todo with
  | nil => intro st rem h1 h2; exact ⟨st, rem, rfl, h1, h2⟩
  | cons e todo ih =>
    intro st rem h1 h2
    obtain ⟨st1, rem1, h3, h4, h5⟩ := doElem_some ho hL h1
    obtain ⟨st', rem', h6, h7, h8⟩ := ih st1 rem1 h4 (hQ.step L e todo st rem st1 rem1 hL h1 h4 h5 h2)
    exact ⟨st', rem', by rw [doAll, h3]; exact h6, h7, h8⟩

theorem doLayers_some {inp : Input P} (ho : inp.Ok) {Q : Nat → List Nat → State P → List Nat → Prop} (hQ : Keeps inp Q) (ess : List (List Nat)) :
    ∀ L st rem, inp.layers.drop (L + 1) = ess → L + 1 ≤ inp.layers.length → Inv inp L [] st rem → Q L [] st rem →
      ∃ st', doLayers inp ess (L + 1) (st.delete rem) = some st' ∧ Inv inp inp.layers.length [] st' [] ∧ Q inp.layers.length [] st' [] := by
  induction ess with
  | nil =>
    intro L st rem h1 hl h2 h3
    have h4 : inp.layers.length = L + 1 := by
      have := List.drop_eq_nil_iff.1 h1
      omega
    have h5 := h2.next ho (es := []) (.inr ⟨rfl, by omega⟩)
    rw [h4]
    exact ⟨st.delete rem, rfl, h5, hQ.next L st rem [] h2 h5 (fun e he hl => by
      have := has_lt ho (h5.has e he)
      omega) h3⟩
  | cons es ess ih =>
    intro L st rem h1 hl h2 h3
    have h4 : inp.layers[L + 1]? = some es := by
      have : (inp.layers.drop (L + 1))[0]? = some es := by rw [h1]; rfl
      rw [List.getElem?_drop] at this
      exact this
    have h5 := h2.next ho (es := es) (.inl h4)
    have h6 := hQ.next L st rem _ h2 h5 (fun e he hl => by
      obtain ⟨es', h1, h2⟩ := has_layer ho (h5.has e he)
      rw [hl, h4] at h1
      cases h1
      exact List.mem_filter.2 ⟨h2, he⟩) h3
    obtain ⟨st1, rem1, h7, h8, h9⟩ := doAll_elem ho hQ (Nat.succ_pos L) _ _ _ h5 h6
    obtain ⟨st', h10, h11⟩ := ih (L + 1) st1 rem1 (by
      have : inp.layers.drop (L + 1 + 1) = (inp.layers.drop (L + 1)).drop 1 := by rw [List.drop_drop]
      rw [this, h1]; rfl) (by
      have := (List.getElem?_eq_some_iff.1 h4).1
      omega) h8 h9
    refine ⟨st', ?_, h11⟩
    rw [doLayers, h7]
    exact h10

theorem inv_start {inp : Input P} (ho : inp.Ok) {st : State P} (hs : Start inp st) {es : List Nat} (hes : inp.layers[0]? = some es) :
    Inv inp 0 (es.filter st.alive) st [] := by
  refine ⟨fun e he => (hs.alive e).1 he, by simp, fun e p he _ hp => (hs.alive p).2 (ho.up e p ((hs.alive e).1 he) hp).1, fun e he _ hl ht => ?_,
    fun e he => ?_, (ho.once es (List.mem_iff_getElem?.2 ⟨_, hes⟩)).filter _, fun e he _ hl hp => ?_⟩
  · obtain ⟨es', h1, h2⟩ := has_layer ho ((hs.alive e).1 he)
    rw [Nat.le_zero.1 hl, hes] at h1
    cases h1
    exact absurd (List.mem_filter.2 ⟨h2, he⟩) ht
  · obtain ⟨h1, h2⟩ := List.mem_filter.1 he
    exact ⟨h2, ho.layer 0 es hes e h1, by simp⟩
  · obtain ⟨q, hq⟩ := Option.ne_none_iff_exists'.1 hp
    obtain ⟨c, hc, hce⟩ := hs.point e q ((hs.alive e).1 he) hl hq
    exact Or.inl ⟨c, (hs.alive c).2 hc, by simp, hce⟩

/-- A run. -/
theorem run {inp : Input P} (ho : inp.Ok) {st : State P} (hs : Start inp st) {Q : Nat → List Nat → State P → List Nat → Prop} (hQ : Keeps inp Q)
    (h0 : ∀ todo, (∀ e, inp.Has e → (inp.elem e).layer = 0 → e ∈ todo) → Q 0 todo st []) (hne : inp.layers ≠ []) :
    ∃ st', createNodes inp st = some st' ∧ Inv inp inp.layers.length [] st' [] ∧ Q inp.layers.length [] st' [] := by
  unfold createNodes
  split
  · rename_i h; exact absurd h hne
  · rename_i es ess hl
    have hes : inp.layers[0]? = some es := by rw [hl]; rfl
    obtain ⟨st1, rem1, h1, h2, h3⟩ := doAll_first ho hQ _ _ _ (inv_start ho hs hes) (h0 _ fun e he h => by
      obtain ⟨es', h1, h2⟩ := has_layer ho he
      rw [h, hes] at h1
      cases h1
      exact List.mem_filter.2 ⟨h2, (hs.alive e).2 he⟩)
    obtain ⟨st', h4, h5⟩ := doLayers_some ho hQ ess 0 st1 rem1 (by rw [hl]; rfl) (by rw [hl]; simp) h2 h3
    refine ⟨st', ?_, h5⟩
    rw [h1]
    exact h4

theorem keeps_true (inp : Input P) : Keeps inp fun _ _ _ _ => True := ⟨fun _ _ _ _ _ _ _ _ _ _ => trivial, fun _ _ _ _ _ _ _ _ _ _ _ _ => trivial,
  fun _ _ _ _ _ _ _ _ => trivial⟩

end Verif.Nodes
