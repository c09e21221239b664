import Verif.FirstLayers.Lemmas

/-! # C125: heights of layers, and empty first ones -/

namespace Verif.FirstLayers

open Spec

/-- **C125 (heights).** The first layer stands on the plate, or above the raft; each other one on the one before, but for the second one above a raft, which is moved down by the overlap. -/
theorem C125_heights (h : Heights) (parts : List Nat) : Stacked h (assign h 0 parts) := by
  constructor
  · intro a ha
    rw [List.head?_eq_getElem?, assign_get] at ha
    obtain ⟨p, _, rfl⟩ := Option.map_eq_some_iff.1 ha
    unfold place ground
    cases h.raft with
    | none => simp
    | some r => obtain ⟨x, y, o⟩ := r; simp; ring
  · intro i a b ha hb
    rw [assign_get] at ha hb
    obtain ⟨p, _, rfl⟩ := Option.map_eq_some_iff.1 ha
    obtain ⟨q, _, rfl⟩ := Option.map_eq_some_iff.1 hb
    unfold place overlap
    cases h.raft with
    | none =>
      simp only [Nat.zero_add, Nat.add_eq_zero_iff, one_ne_zero, and_false, if_false, ite_self, true_and]
      push_cast; ring
    | some r =>
      obtain ⟨x, y, o⟩ := r
      simp only [Nat.zero_add, Nat.add_eq_zero_iff, one_ne_zero, and_false, if_false, true_and]
      split_ifs <;> push_cast <;> ring

/-- **C125 (removing).** Exactly the empty layers at the begin are removed, from all meshes and from the support: nothing is lost, what follows is in the same order, and all of it is moved down by the same height, that of the highest of the removed layers. The new first layer gets the thickness of the old one. -/
theorem C125_removed (meshes : List (List Layer)) (support : List Bool) (total : Nat) (h : ∀ m ∈ meshes, total ≤ m.length) (hs : total ≤ support.length) :
    ∃ (n : Nat) (top : Int) (ms : List (List Layer)), remove meshes support total = some (ms, support.drop n, total - n) ∧ n ≤ total ∧ (∀ i < n, EmptyLayer meshes support i) ∧ (n < total → ¬ EmptyLayer meshes support n) ∧
      (∀ i < n, ∀ m ∈ meshes, ∀ a, m[i]? = some a → a.z ≤ top) ∧ (top = 0 ∨ ∃ i < n, ∃ m ∈ meshes, ∃ a, m[i]? = some a ∧ top = a.z) ∧
      List.Forall₂ (fun m m' => m'.length = m.length - n ∧ ∀ i a, m[n + i]? = some a → ∃ b, m'[i]? = some b ∧ b.parts = a.parts ∧ b.z = a.z - top ∧ (i ≠ 0 → b.thick = a.thick) ∧ (i = 0 → ∀ c, m.head? = some c → b.thick = c.thick)) meshes ms := by
  obtain ⟨n, t, h1, _, h3, h4, h5, h6, h7, h8⟩ := count_ok meshes support total 0 0 (le_refl _) (by simp) (by simp) (.inl rfl)
  rw [Nat.zero_add] at h3 h5
  unfold remove
  rw [h1]
  dsimp only
  by_cases hn : n > 0
  · rw [if_pos hn]
    obtain ⟨ms, g1, g2⟩ := mapM_cut n t meshes (fun m hm => le_trans h3 (h m hm))
    exact ⟨n, t, ms, by simp [g1, show n ≤ support.length by omega], h3, h4, h5, h7, h8, g2⟩
  · rw [if_neg hn]
    have : n = 0 := by omega
    subst this
    have ht : t = 0 := by
      rcases h8 with h8 | ⟨k, hk, _⟩
      · exact h8
      · omega
    subst ht
    refine ⟨0, 0, meshes, by simp, h3, h4, h5, h7, h8, List.forall₂_same.2 ?_⟩
    intro m _
    refine ⟨by simp, ?_⟩
    intro i a ha
    rw [Nat.zero_add] at ha
    refine ⟨a, ha, rfl, by simp, fun _ => rfl, ?_⟩
    rintro rfl c hc
    rw [List.head?_eq_getElem?, ha] at hc
    cases hc
    rfl

/-- **C125 (on the plate).** If all layers have the same thickness and there is no raft, then the result is what there would be without the removed layers: the first one stands on the plate. -/
theorem C125_plate (t : Int) (ht : 0 ≤ t) (parts : List (List Nat)) (support : List Bool) (total : Nat) (h : ∀ m ∈ parts, total ≤ m.length) (hs : total ≤ support.length) :
    ∃ n, remove (parts.map (assign ⟨t, t, none⟩ 0)) support total = some (parts.map (fun p => assign ⟨t, t, none⟩ 0 (p.drop n)), support.drop n, total - n) ∧ n ≤ total ∧
      (∀ i < n, EmptyLayer (parts.map (assign ⟨t, t, none⟩ 0)) support i) ∧ (n < total → ¬ EmptyLayer (parts.map (assign ⟨t, t, none⟩ 0)) support n) := by
  obtain ⟨n, top, ms, h1, h2, h3, h4, h5, h6, h7⟩ := C125_removed (parts.map (assign ⟨t, t, none⟩ 0)) support total (by
    intro m hm
    obtain ⟨p, hp, rfl⟩ := List.mem_map.1 hm
    rw [assign_length]; exact h p hp) hs
  refine ⟨n, ?_, h2, h3, h4⟩
  rw [h1]
  have hms : ms = parts.map (fun p => assign ⟨t, t, none⟩ 0 (p.drop n)) := by
    have hz : ∀ i p, (place ⟨t, t, none⟩ i p) = ⟨t + i * t, t, p⟩ := by
      intro i p; unfold place; simp
    have htop : parts ≠ [] → top = n * t := by
      intro hne
      obtain ⟨p0, hp0⟩ := List.exists_mem_of_ne_nil _ hne
      have up : top ≤ n * t := by
        rcases h6 with h6 | ⟨i, hi, m, hm, a, ha, e⟩
        · rw [h6]; positivity
        · obtain ⟨p, _, rfl⟩ := List.mem_map.1 hm
          rw [assign_get] at ha
          obtain ⟨q, _, rfl⟩ := Option.map_eq_some_iff.1 ha
          rw [e, hz]
          simp only [Nat.zero_add]
          have : ((i : Int) + 1) * t ≤ n * t := mul_le_mul_of_nonneg_right (by exact_mod_cast hi) ht
          linarith
      rcases Nat.eq_zero_or_pos n with h0 | h0
      · subst h0
        rcases h6 with h6 | ⟨i, hi, _⟩
        · rw [h6]; simp
        · omega
      · have hl := h p0 hp0
        obtain ⟨q, hq⟩ : ∃ q, p0[n - 1]? = some q := ⟨_, List.getElem?_eq_getElem (by omega)⟩
        have := h5 (n - 1) (by omega) (assign ⟨t, t, none⟩ 0 p0) (List.mem_map_of_mem hp0) (place ⟨t, t, none⟩ (0 + (n - 1)) q) (by rw [assign_get, hq]; rfl)
        rw [hz] at this
        simp only [Nat.zero_add] at this
        rw [Nat.cast_sub h0] at this
        push_cast at this
        have e : t + ((n : Int) - 1) * t = n * t := by ring
        linarith
    apply List.ext_getElem?
    intro k
    rw [List.getElem?_map]
    cases hk : parts[k]? with
    | none =>
      rw [List.getElem?_eq_none_iff] at hk
      have := h7.length_eq
      rw [List.length_map] at this
      simp only [Option.map_none, List.getElem?_eq_none_iff]
      omega
    | some p =>
      have hpne : parts ≠ [] := by rintro rfl; simp at hk
      have hlen := h7.length_eq
      rw [List.length_map] at hlen
      have hkl := (List.getElem?_eq_some_iff.1 hk).1
      obtain ⟨m', hm'⟩ : ∃ m', ms[k]? = some m' := ⟨_, List.getElem?_eq_getElem (by omega)⟩
      have hrel := h7.get (i := k) (by rw [List.length_map]; exact hkl) (by omega)
      have e1 : (parts.map (assign ⟨t, t, none⟩ 0)).get ⟨k, by rw [List.length_map]; exact hkl⟩ = assign ⟨t, t, none⟩ 0 p := by
        have := (List.getElem?_eq_some_iff.1 hk).2
        simp [this]
      have e2 : ms.get ⟨k, by omega⟩ = m' := (List.getElem?_eq_some_iff.1 hm').2
      rw [e1, e2] at hrel
      rw [hm', Option.map_some]
      congr 1
      apply List.ext_getElem?
      intro i
      rw [assign_get, List.getElem?_drop]
      cases hi : p[n + i]? with
      | none =>
        rw [List.getElem?_eq_none_iff] at hi
        rw [Option.map_none, List.getElem?_eq_none_iff, hrel.1, assign_length]
        omega
      | some q =>
        obtain ⟨b, hb, g1, g2, g3, g4⟩ := hrel.2 i (place ⟨t, t, none⟩ (0 + (n + i)) q) (by rw [assign_get, hi]; rfl)
        rw [hb, Option.map_some]
        congr 1
        rw [hz] at g1 g2 g3
        have hth : b.thick = t := by
          by_cases h0 : i = 0
          · obtain ⟨r, hr⟩ : ∃ r, p[0]? = some r := ⟨_, List.getElem?_eq_getElem (by have := (List.getElem?_eq_some_iff.1 hi).1; omega)⟩
            have := g4 h0 (place ⟨t, t, none⟩ (0 + 0) r) (by rw [List.head?_eq_getElem?, assign_get, hr]; rfl)
            rw [this, hz]
          · exact g3 h0
        rw [hz]
        cases b
        simp only at g1 g2 hth
        simp only [Layer.mk.injEq]
        refine ⟨?_, hth, g1⟩
        rw [g2, htop hpne]
        push_cast
        ring
  rw [hms]

/-- **C125 does not hold if the first layer is thicker.** After removing an empty layer, the new first layer is printed as high as a layer of the normal thickness would be, but with the thickness of the first one: it would begin below the plate. -/
theorem C125_thick_counterexample : ∃ l, remove [assign ⟨300, 100, none⟩ 0 [0, 1]] [false, false] 2 = some ([[l]], [false], 1) ∧ l.z = 100 ∧ l.thick = 300 :=
  ⟨⟨100, 300, 1⟩, by decide +kernel, rfl, rfl⟩

/-- **C125 does not hold with a raft.** The height that is subtracted contains that of the raft, so the model is printed within the raft: here it is 1000 high, and the first layer above it is printed at 100. -/
theorem C125_raft_counterexample : ∃ l m, remove [assign ⟨200, 200, some (1000, 300, 100)⟩ 0 [0, 1, 1]] [false, false, false] 3 = some ([[l, m]], [false, false], 2) ∧ l.z = 100 ∧ m.z = 300 :=
  ⟨⟨100, 200, 1⟩, ⟨300, 200, 1⟩, by decide +kernel, rfl, rfl⟩

end Verif.FirstLayers
