import Verif.Walls.RegionLemmas

/-! # Lemmas on the requirements between insets -/

namespace Verif.Walls

open Verif.Order (Edges)

variable {ws : List Wall}

theorem mem_byInset {odd : Bool} {k i : Nat} : i ∈ byInset ws odd k ↔ ∃ w, ws[i]? = some w ∧ w.odd = odd ∧ w.inset = k := by
  unfold byInset
  rw [List.mem_filter, List.mem_range]
  constructor
  · rintro ⟨h, h'⟩
    rw [List.getElem?_eq_getElem h] at h' ⊢
    simp only [Option.any_some, Bool.and_eq_true, beq_iff_eq] at h'
    exact ⟨_, rfl, h'⟩
  · rintro ⟨w, hw, h1, h2⟩
    refine ⟨(List.getElem?_eq_some_iff.mp hw).1, ?_⟩
    rw [hw]; simp [h1, h2]

theorem le_foldl_max (l : List Nat) (a x : Nat) (h : x ≤ a ∨ ∃ y ∈ l, x ≤ y) : x ≤ l.foldl max a := by
  induction l generalizing a with
  | nil => simpa using h
  | cons b l ih =>
    rw [List.foldl_cons]
    apply ih
    rcases h with h | ⟨y, hy, h⟩
    · left; omega
    · rcases List.mem_cons.mp hy with rfl | hy
      · left; omega
      · exact Or.inr ⟨y, hy, h⟩

theorem lt_insets {w : Wall} (h : w ∈ ws) : w.inset < insets ws w.odd := by
  unfold insets
  apply le_foldl_max
  right
  exact ⟨w.inset + 1, List.mem_map.mpr ⟨w, List.mem_filter.mpr ⟨h, by simp⟩, rfl⟩, by omega⟩

theorem mem_insetOrder {outerToInner : Bool} {a b : Nat} : (a, b) ∈ insetOrder ws outerToInner ↔
    (∃ i j u v, (a, b) = edge outerToInner i j ∧ ws[i]? = some u ∧ ws[j]? = some v ∧ u.odd = false ∧ v.odd = false ∧ v.inset = u.inset + 1) ∨
    ∃ u v, ws[a]? = some u ∧ ws[b]? = some v ∧ u.odd = false ∧ v.odd = true ∧ v.inset = u.inset + 1 := by
  unfold insetOrder
  rw [List.mem_append, List.mem_flatMap, List.mem_flatMap]
  apply or_congr
  · constructor
    · rintro ⟨k, -, h⟩
      obtain ⟨i, hi, h⟩ := List.mem_flatMap.mp h
      obtain ⟨j, hj, h⟩ := List.mem_map.mp h
      obtain ⟨u, hu, hu1, hu2⟩ := mem_byInset.mp hi
      obtain ⟨v, hv, hv1, hv2⟩ := mem_byInset.mp hj
      exact ⟨i, j, u, v, h.symm, hu, hv, hu1, hv1, by omega⟩
    · rintro ⟨i, j, u, v, h, hu, hv, hu1, hv1, h2⟩
      refine ⟨u.inset, ?_, ?_⟩
      · have := lt_insets (List.mem_of_getElem? hv)
        rw [hv1] at this
        rw [List.mem_range]; omega
      · rw [List.mem_flatMap]
        exact ⟨i, mem_byInset.mpr ⟨u, hu, hu1, rfl⟩, List.mem_map.mpr ⟨j, mem_byInset.mpr ⟨v, hv, hv1, h2⟩, h.symm⟩⟩
  · constructor
    · rintro ⟨k, hk, h⟩
      obtain ⟨i, hi, h⟩ := List.mem_flatMap.mp h
      rw [List.mem_range'_1] at hk
      split at h
      · simp at h
      · obtain ⟨j, hj, h⟩ := List.mem_map.mp h
        simp only [Prod.mk.injEq] at h
        obtain ⟨rfl, rfl⟩ := h
        obtain ⟨u, hu, hu1, hu2⟩ := mem_byInset.mp hi
        obtain ⟨v, hv, hv1, hv2⟩ := mem_byInset.mp hj
        exact ⟨v, u, hv, hu, hv1, hu1, by omega⟩
    · rintro ⟨u, v, hu, hv, hu1, hv1, h2⟩
      have l1 := lt_insets (List.mem_of_getElem? hu)
      have l2 := lt_insets (List.mem_of_getElem? hv)
      rw [hu1] at l1
      rw [hv1] at l2
      refine ⟨v.inset, ?_, ?_⟩
      · rw [List.mem_range'_1]; omega
      · rw [List.mem_flatMap]
        refine ⟨b, mem_byInset.mpr ⟨v, hv, hv1, rfl⟩, ?_⟩
        rw [if_neg (by omega)]
        exact List.mem_map.mpr ⟨a, mem_byInset.mpr ⟨u, hu, hu1, by omega⟩, rfl⟩

/-- What a chain of requirements leads to. -/
def Rises (ws : List Wall) (outerToInner : Bool) (a b : Nat) : Prop :=
  ∃ u v, ws[a]? = some u ∧ ws[b]? = some v ∧ u.odd = false ∧ (v.odd = true ∨ v.odd = false ∧ if outerToInner then u.inset < v.inset else v.inset < u.inset)

theorem insetOrder_acyclic (outerToInner : Bool) : Order.Acyclic (insetOrder ws outerToInner) := by
  intro x hx
  have one : ∀ a b, (a, b) ∈ insetOrder ws outerToInner → Rises ws outerToInner a b := by
    intro a b h
    rcases mem_insetOrder.mp h with ⟨i, j, u, v, he, hu, hv, hu1, hv1, h2⟩ | ⟨u, v, hu, hv, hu1, hv1, h2⟩
    · unfold edge at he
      cases outerToInner
      · simp only [Bool.false_eq_true, if_false, Prod.mk.injEq] at he
        obtain ⟨rfl, rfl⟩ := he
        exact ⟨v, u, hv, hu, hv1, Or.inr ⟨hu1, by simp [h2]⟩⟩
      · simp only [if_true, Prod.mk.injEq] at he
        obtain ⟨rfl, rfl⟩ := he
        exact ⟨u, v, hu, hv, hu1, Or.inr ⟨hv1, by simp [h2]⟩⟩
    · exact ⟨u, v, hu, hv, hu1, Or.inl hv1⟩
  have key : ∀ a b, Relation.TransGen (fun a b => (a, b) ∈ insetOrder ws outerToInner) a b → Rises ws outerToInner a b := by
    intro a b h
    induction h with
    | single h => exact one _ _ h
    | tail _ h ih =>
      obtain ⟨u, v, h1, h2, h3, h4⟩ := ih
      obtain ⟨v', w, h5, h6, h7, h8⟩ := one _ _ h
      rw [h2] at h5
      simp only [Option.some.injEq] at h5
      subst h5
      refine ⟨u, w, h1, h6, h3, ?_⟩
      rcases h4 with h4 | ⟨-, h4⟩
      · rw [h4] at h7; simp at h7
      · rcases h8 with h8 | ⟨h8, h9⟩
        · exact Or.inl h8
        · refine Or.inr ⟨h8, ?_⟩
          cases outerToInner
          · simp only [Bool.false_eq_true, if_false] at *; omega
          · simp only [if_true] at *; omega
  obtain ⟨u, v, h1, h2, h3, h4⟩ := key x x hx
  rw [h1] at h2
  simp only [Option.some.injEq] at h2
  subst h2
  rcases h4 with h4 | ⟨-, h4⟩
  · rw [h3] at h4; simp at h4
  · cases outerToInner <;> simp at h4

theorem before_trans {printed : List Nat} {u v w : Nat} (h : Before printed u v) (h' : Before printed v w) : Before printed u w := by
  intro l₁ l₂ e
  obtain ⟨a, b, rfl⟩ := List.append_of_mem (h' l₁ l₂ e)
  rw [List.append_assoc] at e
  have := h a (b ++ w :: l₂) (by rw [e]; simp)
  simp [this]

theorem inDirection_trans {o : Bool} {printed : List Nat} {u v w : Nat} (h : InDirection o printed u v) (h' : InDirection o printed v w) :
    InDirection o printed u w := by
  unfold InDirection at *
  cases o
  · simp only [Bool.false_eq_true, if_false] at *; exact before_trans h' h
  · simp only [if_true] at *; exact before_trans h h'

theorem respects_direction {o : Bool} {printed : List Nat} {es : Edges} (h : Order.Respects es printed) {u v : Nat} (he : edge o u v ∈ es) :
    InDirection o printed u v := by
  unfold InDirection edge at *
  cases o
  · simp only [Bool.false_eq_true, if_false] at *; exact h _ _ he
  · simp only [if_true] at *; exact h _ _ he

theorem direction_chain {o : Bool} {printed : List Nat}
    (h : ∀ i j u v, ws[i]? = some u → ws[j]? = some v → u.odd = false → v.odd = false → v.inset = u.inset + 1 → InDirection o printed i j)
    (n : Nat) : ∀ i j u v, ws[i]? = some u → ws[j]? = some v → u.odd = false → v.odd = false → v.inset = u.inset + n + 1 →
      (∀ k, u.inset < k → k < v.inset → HasInset ws k) → InDirection o printed i j := by
  induction n with
  | zero => intro i j u v hu hv hu1 hv1 hi _; exact h i j u v hu hv hu1 hv1 hi
  | succ n ih =>
    intro i j u v hu hv hu1 hv1 hi hk
    obtain ⟨w, hw, hw1, hw2⟩ := hk (u.inset + n + 1) (by omega) (by omega)
    obtain ⟨m, hm⟩ := List.mem_iff_getElem?.mp hw
    exact inDirection_trans (ih i m u w hu hm hu1 hw1 hw2 (fun k h1 h2 => hk k h1 (by omega))) (h m j w v hm hv hw1 hv1 (by omega))

theorem about_of {env : Order.Env} (hw : AreWalls env ws) {es : Edges} (h : ∀ e ∈ es, e.1 < ws.length ∧ e.2 < ws.length) : Order.About env es := by
  unfold Order.About
  rw [hw.1]
  refine ⟨List.nodup_range, fun e he => ?_⟩
  rw [List.mem_range, List.mem_range]
  exact h e he

end Verif.Walls
