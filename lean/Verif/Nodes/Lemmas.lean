import Verif.Nodes.Spec
import Mathlib.Logic.Relation

/-! # Lemmas on the points of branches -/

namespace Verif.Nodes

variable {P : Type}

theorem has_layer {inp : Input P} (ho : inp.Ok) {e : Nat} (h : inp.Has e) : ∃ es, inp.layers[(inp.elem e).layer]? = some es ∧ e ∈ es := by
  obtain ⟨es, hes, he⟩ := h
  obtain ⟨l, hl⟩ := List.mem_iff_getElem?.1 hes
  have := ho.layer l es hl e he
  exact ⟨es, by rw [this]; exact hl, he⟩

theorem has_lt {inp : Input P} (ho : inp.Ok) {e : Nat} (h : inp.Has e) : (inp.elem e).layer < inp.layers.length := by
  obtain ⟨es, hes, _⟩ := has_layer ho h
  exact (List.getElem?_eq_some_iff.1 hes).1

/-! ## The single steps -/

theorem setParents_some (inp : Input P) (q : P) (ps : List Nat) :
    ∀ st : State P, (∀ p ∈ ps, st.alive p = true) → ∃ st', setParents inp q ps st = some st' ∧ st'.alive = st.alive ∧ st'.toBp = st.toBp ∧
      st'.gracious = st.gracious ∧ ∀ x, st'.point x = if x ∈ ps ∧ st.point x = none then some (inp.moved x q) else st.point x := by
  induction ps with
  | nil => intro st _; exact ⟨st, rfl, rfl, rfl, rfl, fun x => by simp⟩
  | cons p ps ih =>
    intro st h
    unfold setParents
    rw [if_pos (h p (by simp))]
    by_cases hp : (st.point p).isSome
    · rw [if_pos hp]
      obtain ⟨st', h1, h2, h3, h4, h5⟩ := ih st fun x hx => h x (by simp [hx])
      refine ⟨st', h1, h2, h3, h4, fun x => ?_⟩
      rw [h5]
      by_cases hx : x = p
      · subst hx
        rw [Option.isSome_iff_ne_none] at hp
        simp [hp]
      · simp [hx]
    · rw [if_neg hp]
      obtain ⟨st', h1, h2, h3, h4, h5⟩ := ih (st.set p (some (inp.moved p q))) fun x hx => h x (by simp [hx])
      refine ⟨st', h1, h2, h3, h4, fun x => ?_⟩
      rw [h5]
      have hp : st.point p = none := by simpa using hp
      by_cases hx : x = p
      · subst hx
        simp [State.set, hp]
      · simp [State.set, hx]

theorem resetParents_some (ps : List Nat) : ∀ st : State P, (∀ p ∈ ps, st.alive p = true) → ∃ st', resetParents ps st = some st' ∧
    st'.alive = st.alive ∧ st'.toBp = st.toBp ∧ st'.gracious = st.gracious ∧ ∀ x, st'.point x = if x ∈ ps then none else st.point x := by
  induction ps with
  | nil => intro st _; exact ⟨st, rfl, rfl, rfl, rfl, fun x => by simp⟩
  | cons p ps ih =>
    intro st h
    unfold resetParents
    rw [if_pos (h p (by simp))]
    obtain ⟨st', h1, h2, h3, h4, h5⟩ := ih (st.set p none) fun x hx => h x (by simp [hx])
    refine ⟨st', h1, h2, h3, h4, fun x => ?_⟩
    rw [h5]
    by_cases hx : x = p
    · subst hx; simp [State.set]
    · simp [State.set, hx]

theorem markUp_some {inp : Input P} {A : Nat → Prop} (hA : ∀ e p, A e → p ∈ (inp.elem e).parents → A p) (n : Nat) :
    ∀ (es : List Nat) (st : State P), (∀ e, A e → st.alive e = true) → (∀ e ∈ es, A e) → ∃ st', markUp inp n es st = some st' ∧
      st'.alive = st.alive ∧ st'.point = st.point ∧ ∀ x, ¬ A x → st'.gracious x = st.gracious x := by
  induction n with
  | zero => intro es st _ _; exact ⟨st, rfl, rfl, rfl, fun _ _ => rfl⟩
  | succ n ih =>
    intro es st h hes
    unfold markUp
    rw [if_pos (List.all_eq_true.2 fun e he => h e (hes e he))]
    obtain ⟨st', h1, h2, h3, h4⟩ := ih (es.flatMap fun e => (inp.elem e).parents)
      { st with toBp := fun x => es.contains x || st.toBp x, gracious := fun x => es.contains x || st.gracious x } h (by
        intro p hp
        obtain ⟨e, he, hp⟩ := List.mem_flatMap.1 hp
        exact hA e p (hes e he) hp)
    refine ⟨st', h1, h2, h3, fun x hx => ?_⟩
    rw [h4 x hx]
    have : x ∉ es := fun h => hx (hes x h)
    simp [this]

/-- The element that is checked after another one. -/
def Next (inp : Input P) (y z : Nat) : Prop := (inp.elem y).parents = [z] ∧ (inp.elem z).layer ≤ (inp.elem z).nextHeight

/-- Elements that are checked one after the other. -/
def Chain (inp : Input P) (x : Nat → Nat) (k : Nat) : Prop := ∀ i < k, Next inp (x i) (x (i + 1))

theorem look_some {inp : Input P} (ho : inp.Ok) {st : State P} {L : Nat} (hst : ∀ e, st.alive e = true → inp.Has e)
    (hup : ∀ e p, st.alive e = true → L < (inp.elem e).layer → p ∈ (inp.elem e).parents → st.alive p = true) (n : Nat) :
    ∀ e, inp.layers.length < n + (inp.elem e).layer → st.alive e = true → (∀ p ∈ (inp.elem e).parents, st.alive p = true) →
      L ≤ (inp.elem e).layer → ∃ checked, look inp st n e (inp.elem e).layer = some checked := by
  induction n with
  | zero =>
    intro e hn ha _ _
    have := has_lt ho (hst e ha)
    omega
  | succ n ih =>
    intro e hn ha hp hL
    unfold look
    rw [if_pos ha]
    split
    · split
      · rename_i p hpar
        have hpa := hp p (by rw [hpar]; simp)
        have hl := (ho.up e p (hst e ha) (by rw [hpar]; simp)).2
        obtain ⟨c, hc⟩ := ih p (by omega) hpa (fun q hq => hup p q hpa (by omega) hq) (by omega)
        rw [hl] at hc
        rw [hc]
        exact ⟨_, rfl⟩
      · exact ⟨_, rfl⟩
    · exact ⟨_, rfl⟩

/-- What the last element on which a branch can rest is. -/
theorem look_last {inp : Input P} (ho : inp.Ok) {st : State P} (hst : ∀ e, st.alive e = true → inp.Has e) (n : Nat) :
    ∀ e checked, look inp st n e (inp.elem e).layer = some checked →
      (checked = [] ∨ ∃ rest, checked = e :: rest) ∧ (∀ x ∈ checked, st.alive x = true) ∧
      match lastPlaced inp checked with
      | none => ∀ x ∈ checked, inp.placed x = none
      | some (k, x, p) => ∃ y : Nat → Nat, y 0 = e ∧ Chain inp y k ∧ y k = x ∧ inp.placed x = some p ∧ k < checked.length ∧
          (∀ i < checked.length, i ≤ k → checked[i]? = some (y i)) ∧ ∀ z, Relation.TransGen (Next inp) x z → inp.placed z = none := by
  induction n with
  | zero => intro e checked h; cases h
  | succ n ih =>
    intro e checked h
    unfold look at h
    split at h
    · rename_i ha
      split at h
      · split at h
        · rename_i hle p hpar
          obtain ⟨rest, hrest, rfl⟩ := Option.map_eq_some_iff.1 h
          have hl := (ho.up e p (hst e ha) (by rw [hpar]; simp)).2
          rw [← hl] at hrest
          obtain ⟨h1, h2, h3⟩ := ih p rest hrest
          refine ⟨Or.inr ⟨rest, rfl⟩, fun x hx => ?_, ?_⟩
          · rcases List.mem_cons.1 hx with rfl | hx
            · exact ha
            · exact h2 x hx
          · -- whether the next element is checked
            have hnext : rest ≠ [] → Next inp e p := by
              intro hne
              refine ⟨hpar, ?_⟩
              cases n with
              | zero => cases hrest
              | succ n =>
                unfold look at hrest
                split at hrest
                · split at hrest
                  · assumption
                  · exact absurd (Option.some.inj hrest).symm hne
                · cases hrest
            have hnext' : rest = [] → ∀ z, ¬ Next inp e z := by
              rintro rfl z ⟨hz1, hz2⟩
              rw [hpar] at hz1
              obtain rfl : p = z := by simpa using hz1
              cases n with
              | zero => cases hrest
              | succ n =>
                unfold look at hrest
                rw [if_pos hz2] at hrest
                split at hrest
                · split at hrest
                  · obtain ⟨_, _, hh⟩ := Option.map_eq_some_iff.1 hrest
                    cases hh
                  · cases Option.some.inj hrest
                · cases hrest
            unfold lastPlaced
            split at h3
            · rename_i hlast
              rw [hlast]
              dsimp only
              cases hpl : inp.placed e with
              | none =>
                simp only [Option.map_none]
                intro x hx
                rcases List.mem_cons.1 hx with rfl | hx
                · exact hpl
                · exact h3 x hx
              | some q =>
                simp only [Option.map_some]
                refine ⟨fun _ => e, rfl, fun i hi => absurd hi (by omega), rfl, hpl, by simp, fun i _ hi => ?_, fun z hz => ?_⟩
                · obtain rfl : i = 0 := by omega
                  rfl
                · -- all that follow were checked
                  have all : ∀ m (e : Nat) (checked : List Nat), look inp st m e (inp.elem e).layer = some checked → checked ≠ [] →
                      ∀ z, Relation.ReflTransGen (Next inp) e z → z ∈ checked := by
                    intro m
                    induction m with
                    | zero => intro e checked h; cases h
                    | succ m ihm =>
                      intro e checked h hne z hz
                      unfold look at h
                      split at h
                      · rename_i ha
                        split at h
                        · split at h
                          · rename_i p hpar
                            obtain ⟨rest, hrest, rfl⟩ := Option.map_eq_some_iff.1 h
                            rcases Relation.ReflTransGen.cases_head hz with rfl | ⟨w, hw, hz⟩
                            · exact List.mem_cons_self
                            · have hl := (ho.up e p (hst e ha) (by rw [hpar]; simp)).2
                              rw [← hl] at hrest
                              obtain rfl : p = w := by have := hw.1; rw [hpar] at this; simpa using this
                              refine List.mem_cons_of_mem _ (ihm p rest hrest ?_ z hz)
                              rintro rfl
                              cases m with
                              | zero => cases hrest
                              | succ m =>
                                unfold look at hrest
                                rw [if_pos hw.2] at hrest
                                split at hrest
                                · split at hrest
                                  · obtain ⟨_, _, hh⟩ := Option.map_eq_some_iff.1 hrest
                                    cases hh
                                  · cases Option.some.inj hrest
                                · cases hrest
                          · rename_i hpar
                            obtain rfl := Option.some.inj h
                            rcases Relation.ReflTransGen.cases_head hz with rfl | ⟨w, hw, hz⟩
                            · exact List.mem_cons_self
                            · exact absurd hw.1 (hpar w)
                        · exact absurd (Option.some.inj h).symm hne
                      · cases h
                  obtain ⟨w, hw, hz⟩ := Relation.TransGen.head'_iff.1 hz
                  by_cases hr : rest = []
                  · exact absurd hw (hnext' hr w)
                  · obtain rfl : p = w := by have := hw.1; rw [hpar] at this; simpa using this
                    exact h3 z (all n p rest hrest hr z hz)
            · rename_i k x q hlast
              rw [hlast]
              dsimp only
              obtain ⟨y, hy0, hch, hyk, hpl, hlt, hidx, htop⟩ := h3
              refine ⟨fun i => if i = 0 then e else y (i - 1), rfl, fun i hi => ?_, by simpa using hyk, hpl, by simp only [List.length_cons]; omega, fun i hi hik => ?_, htop⟩
              · cases i with
                | zero =>
                  simp only [if_true, Nat.zero_add, Nat.one_ne_zero, if_false, Nat.sub_self, hy0]
                  exact hnext (by rintro rfl; simp at hlt)
                | succ i =>
                  simp only [Nat.add_eq_zero_iff, Nat.one_ne_zero, and_false, if_false, Nat.add_sub_cancel]
                  have := hch i (by omega)
                  simpa using this
              · cases i with
                | zero => rfl
                | succ i =>
                  have := hidx i (by simp only [List.length_cons] at hi; omega) (by omega)
                  simpa using this
        · rename_i hpar
          obtain rfl := Option.some.inj h
          refine ⟨Or.inr ⟨[], rfl⟩, fun x hx => by rw [List.mem_singleton.1 hx]; exact ha, ?_⟩
          unfold lastPlaced lastPlaced
          dsimp only
          cases hpl : inp.placed e with
          | none => simpa using hpl
          | some q =>
            simp only [Option.map_some]
            refine ⟨fun _ => e, rfl, fun i hi => absurd hi (by omega), rfl, hpl, by simp, fun i _ hi => ?_, fun z hz => ?_⟩
            · obtain rfl : i = 0 := by omega
              rfl
            · obtain ⟨w, hw, _⟩ := Relation.TransGen.head'_iff.1 hz
              exact absurd hw.1 (hpar w)
      · obtain rfl := Option.some.inj h
        exact ⟨Or.inl rfl, by simp, by simp [lastPlaced]⟩
    · cases h

end Verif.Nodes
