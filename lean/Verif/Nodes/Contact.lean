import Verif.Nodes.Lemmas

/-! # What `setToModelContact` does -/

namespace Verif.Nodes

variable {P : Type}

/-- The outcomes of `setToModelContact`. -/
inductive Outcome (inp : Input P) (st : State P) (e layer : Nat) : Bool → State P → Prop
  /-- It rests on the build plate. -/
  | keep : inp.buildplate = false → layer = 0 → Outcome inp st e layer false st
  /-- It is placed where it is. -/
  | here : Outcome inp st e layer false (placeHere inp st e)
  /-- It is placed on an element `k` layers further up. -/
  | up (y : Nat → Nat) (k : Nat) (p : P) (del : List Nat) : y 0 = e → Chain inp y k → inp.placed (y k) = some p →
      (∀ z, Relation.TransGen (Next inp) (y k) z → inp.placed z = none) → (∀ x, x ∈ del ↔ ∃ i, 1 ≤ i ∧ i + 1 < k ∧ x = y i) →
      (∀ i ≤ k, st.alive (y i) = true) → Outcome inp st e layer (decide (k ≠ 0)) ((st.delete del).set (y k) (some p))

theorem contact_some {inp : Input P} (ho : inp.Ok) {st : State P} (hst : ∀ e, st.alive e = true → inp.Has e) {e : Nat} (ha : st.alive e = true)
    (hp : ∀ p ∈ (inp.elem e).parents, st.alive p = true)
    (hup : ∀ x p, st.alive x = true → (inp.elem e).layer < (inp.elem x).layer → p ∈ (inp.elem x).parents → st.alive p = true) :
    ∃ r st', contact inp st e (inp.elem e).layer = some (r, st') ∧ Outcome inp st e (inp.elem e).layer r st' := by
  unfold contact
  split
  · obtain ⟨checked, hc⟩ := look_some ho hst hup (inp.layers.length + 1) e (by omega) ha hp (Nat.le_refl _)
    rw [hc]
    refine ⟨(contactAt inp st e (inp.elem e).layer checked).1, (contactAt inp st e (inp.elem e).layer checked).2, rfl, ?_⟩
    generalize hr : contactAt inp st e (inp.elem e).layer checked = r
    obtain ⟨_, hal, h⟩ := look_last ho hst _ e checked hc
    unfold contactAt at hr
    split at hr
    · rename_i hl
      split at hr
      · rename_i h0
        subst hr
        exact .keep h0.1 h0.2
      · subst hr
        exact .here
    · rename_i k x p hl
      rw [hl] at h
      obtain ⟨y, hy0, hch, hyk, hpl, hlt, hidx, htop⟩ := h
      dsimp only at hr
      have hdel : ∀ x, x ∈ (checked.take (k - 1)).drop 1 ↔ ∃ i, 1 ≤ i ∧ i + 1 < k ∧ x = y i := by
        intro x
        constructor
        · intro hx
          obtain ⟨j, hj⟩ := List.mem_iff_getElem?.1 hx
          rw [List.getElem?_drop, List.getElem?_take] at hj
          split at hj
          · rename_i hjk
            rw [hidx (1 + j) (by omega) (by omega)] at hj
            exact ⟨1 + j, by omega, by omega, (Option.some.inj hj).symm⟩
          · cases hj
        · rintro ⟨i, h1, h2, rfl⟩
          refine List.mem_iff_getElem?.2 ⟨i - 1, ?_⟩
          rw [List.getElem?_drop, List.getElem?_take, if_pos (by omega)]
          have : 1 + (i - 1) = i := by omega
          rw [this]
          exact hidx i (by omega) (by omega)
      have halive : ∀ i ≤ k, st.alive (y i) = true := fun i hi => hal _ (List.mem_of_getElem? (hidx i (by omega) hi))
      split at hr
      · rename_i h0
        subst hr
        dsimp only
        have hk : k = 0 := by omega
        have hl0 : (inp.elem e).layer = 0 := by omega
        have : (checked.take (k - 1)).drop 1 = [] := by rw [hk]; simp
        rw [this]
        have e0 : st.delete [] = st := by
          unfold State.delete
          simp
        rw [e0]
        exact .keep h0.1 hl0
      · subst hr
        dsimp only
        rw [← hyk]
        exact .up y k p _ hy0 hch (hyk ▸ hpl) (hyk ▸ htop) hdel halive
  · exact ⟨_, _, rfl, .here⟩

theorem chain_layer {inp : Input P} (ho : inp.Ok) {y : Nat → Nat} {k : Nat} (hc : Chain inp y k) (h0 : inp.Has (y 0)) :
    ∀ i ≤ k, inp.Has (y i) ∧ (inp.elem (y i)).layer = (inp.elem (y 0)).layer + i := by
  intro i
  induction i with
  | zero => intro _; exact ⟨h0, rfl⟩
  | succ i ih =>
    intro hi
    obtain ⟨h1, h2⟩ := ih (by omega)
    obtain ⟨h3, h4⟩ := ho.up (y i) (y (i + 1)) h1 (by rw [(hc i (by omega)).1]; simp)
    exact ⟨h3, by omega⟩

/-- The one below an element of the chain is in the chain. -/
theorem chain_below {inp : Input P} (ho : inp.Ok) {y : Nat → Nat} {k : Nat} (hc : Chain inp y k) (h0 : inp.Has (y 0)) {i : Nat} (hi : i + 1 ≤ k)
    {c : Nat} (hcc : inp.Has c) (h : y (i + 1) ∈ (inp.elem c).parents) : c = y i :=
  ho.single c (y i) _ hcc (chain_layer ho hc h0 i (by omega)).1 h (by rw [(hc i (by omega)).1]; simp)

end Verif.Nodes
