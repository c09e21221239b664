import Verif.Skin.Lemmas
import Verif.Volumes.Lemmas
import Mathlib.Algebra.Order.BigOperators.Group.Finset
import Mathlib.Algebra.BigOperators.Group.Finset.Piecewise

/-! # Lemmas for combined infill layers -/

namespace Verif.Skin

open Verif.Box (AABB)
open Verif.Volumes (Point Region WithinFlat withinFlat_hit times times_append times_one times_zero times_cons)

theorem times_together {p : Point} {rs : List Region} (h : times p rs ≤ 1) : times p [together rs] = times p rs := by
  have zero : ∀ rs : List Region, times p rs = 0 ↔ p ∉ together rs := by
    intro rs
    induction rs with
    | nil => simp [times, together]
    | cons r rs ih =>
      rw [times_cons]
      have hm : p ∈ together (r :: rs) ↔ p ∈ r ∨ p ∈ together rs := by
        unfold together
        simp
      rw [hm]
      by_cases hr : p ∈ r
      · rw [times_one p r hr]
        simp [hr]
      · rw [times_zero p r hr, zero_add, ih]
        simp [hr]
  by_cases ht : p ∈ together rs
  · rw [times_one p _ ht]
    have : times p rs ≠ 0 := fun h => (zero rs).1 h ht
    omega
  · rw [times_zero p _ ht, (zero rs).2 ht]

theorem times_sdiff (p : Point) (r s : Region) (h : p ∈ s → p ∈ r) : times p [r \ s] + times p [s] = times p [r] := by
  by_cases hs : p ∈ s
  · rw [times_one p s hs, times_one p r (h hs), times_zero p _ (fun h => h.2 hs)]
  · rw [times_zero p s hs]
    by_cases hr : p ∈ r
    · rw [times_one p r hr, times_one p (r \ s) ⟨hr, hs⟩]
    · rw [times_zero p r hr, times_zero p _ (fun h => hr h.1)]

theorem times_drop (p : Point) (rs : List Region) (d : Nat) : times p (rs.drop d) ≤ times p rs := by
  induction rs generalizing d with
  | nil => simp
  | cons r rs ih =>
    cases d with
    | zero => simp
    | succ d =>
      rw [List.drop_succ_cons, times_cons]
      have := ih d
      omega

variable (opening : Region → Region) (hopen : ∀ r, opening r ⊆ r) (p : Point)

include hopen in
theorem thicken_spec (box : AABB) (lower : List CombinePart) (r : Region) (hne : ∀ q ∈ lower, q.combine ≠ [])
    (hfresh : p ∈ r → ∀ q ∈ lower, p ∈ q.area → p ∈ q.combine.getD 0 ∅) :
    let x := thicken opening box lower r
    times p x.2.1 + times p [x.1] = times p [r] ∧
    times p (x.2.2.flatMap CombinePart.combine) + times p x.2.1 = times p (lower.flatMap CombinePart.combine) ∧
    (∀ d, 1 ≤ d → (x.2.2.flatMap fun q => q.combine.drop d) = lower.flatMap fun q => q.combine.drop d) ∧
    (∀ q ∈ x.2.2, q.combine ≠ []) ∧
    (p ∉ r → (∀ q ∈ lower, p ∈ q.area → p ∈ q.combine.getD 0 ∅) → ∀ q ∈ x.2.2, p ∈ q.area → p ∈ q.combine.getD 0 ∅) := by
  induction lower generalizing r with
  | nil =>
    dsimp only [thicken]
    simp [times]
  | cons q lower ih =>
    dsimp only
    unfold thicken
    by_cases hh : box.hit q.box = true
    · rw [if_pos hh]
      dsimp only
      have hsub : p ∈ opening (r ∩ q.area) → p ∈ r ∧ p ∈ q.area := fun h => hopen _ h
      obtain ⟨h1, h2, h3, h4, h5⟩ := ih (r \ opening (r ∩ q.area)) (fun q' hq' => hne q' (by simp [hq']))
        (fun h q' hq' => hfresh h.1 q' (by simp [hq']))
      obtain ⟨a, as, ha⟩ : ∃ a as, q.combine = a :: as := by
        cases hc : q.combine with
        | nil => exact absurd hc (hne q (by simp))
        | cons a as => exact ⟨a, as, rfl⟩
      have hmem : p ∈ opening (r ∩ q.area) → p ∈ a := by
        intro h
        have := hfresh (hsub h).1 q (by simp) (hsub h).2
        rw [ha] at this
        exact this
      refine ⟨?_, ?_, ?_, ?_, ?_⟩
      · rw [times_cons]
        have := times_sdiff p r _ (fun h => (hsub h).1)
        omega
      · rw [List.flatMap_cons, List.flatMap_cons, times_append, times_append, times_cons p (opening _)]
        have := times_sdiff p a _ hmem
        simp only [ha, List.set_cons_zero, List.getD_cons_zero]
        rw [times_cons p _ as, times_cons p a as]
        omega
      · intro d hd
        rw [List.flatMap_cons, List.flatMap_cons, h3 d hd]
        obtain ⟨d, rfl⟩ : ∃ e, d = e + 1 := ⟨d - 1, by omega⟩
        simp only [ha, List.set_cons_zero, List.drop_succ_cons]
      · intro q' hq'
        rcases List.mem_cons.1 hq' with rfl | hq'
        · simp [ha]
        · exact h4 q' hq'
      · intro hr hf q' hq' hp
        rcases List.mem_cons.1 hq' with rfl | hq'
        · have := hf q (by simp) hp
          simp only [ha, List.set_cons_zero, List.getD_cons_zero] at this ⊢
          exact ⟨this, fun h => hr (hsub h).1⟩
        · exact h5 (fun h => hr h.1) (fun q' hq' => hf q' (by simp [hq'])) q' hq' hp
    · rw [if_neg hh]
      dsimp only
      obtain ⟨h1, h2, h3, h4, h5⟩ := ih r (fun q' hq' => hne q' (by simp [hq'])) (fun h q' hq' => hfresh h q' (by simp [hq']))
      refine ⟨h1, ?_, ?_, ?_, ?_⟩
      · rw [List.flatMap_cons, List.flatMap_cons, times_append, times_append]
        omega
      · intro d hd
        rw [List.flatMap_cons, List.flatMap_cons, h3 d hd]
      · intro q' hq'
        rcases List.mem_cons.1 hq' with rfl | hq'
        · exact hne q' (by simp)
        · exact h4 q' hq'
      · intro hr hf q' hq' hp
        rcases List.mem_cons.1 hq' with rfl | hq'
        · exact hf q' (by simp) hp
        · exact h5 hr (fun q' hq' => hf q' (by simp [hq'])) q' hq' hp

/-- The last area of a list made thicker. -/
theorem times_thicker (a : List Region) (k : Nat) (hk : 1 ≤ k) (ha : a.length = k) (x : Region) (bs : List Region)
    (h : times p bs + times p [x] = times p [a.getD (k - 1) ∅]) :
    (∀ d, d < k → times p ((a.set (k - 1) x ++ [together bs]).drop d) = times p (a.drop d)) ∧
      times p ((a.set (k - 1) x ++ [together bs]).drop k) = times p bs := by
  have hle : times p bs ≤ 1 := by
    have : times p [a.getD (k - 1) ∅] ≤ 1 := by
      by_cases hm : p ∈ a.getD (k - 1) ∅
      · rw [times_one p _ hm]
      · rw [times_zero p _ hm]
        omega
    omega
  constructor
  · intro d hd
    rw [List.drop_append_of_le_length (by simp; omega), times_append, times_together hle]
    obtain ⟨b, z, rfl⟩ : ∃ b z, a = b ++ [z] := by
      refine ⟨a.dropLast, a.getLast (by intro h; simp [h] at ha; omega), ?_⟩
      rw [List.dropLast_append_getLast]
    simp only [List.length_append, List.length_cons, List.length_nil] at ha
    have hb : k - 1 = b.length := by omega
    have e1 : (b ++ [z]).getD (k - 1) ∅ = z := by
      rw [hb]
      simp
    rw [e1] at h
    have e2 : (b ++ [z]).set (k - 1) x = b ++ [x] := by
      rw [hb]
      simp
    rw [e2, List.drop_append_of_le_length (by omega), List.drop_append_of_le_length (by omega), times_append, times_append]
    omega
  · have e : (a.set (k - 1) x).length = k := by simp [ha]
    rw [List.drop_append_of_le_length (by omega), List.drop_eq_nil_of_le (by omega), List.nil_append, times_together hle]

include hopen in
theorem thickenAll_spec (k : Nat) (hk : 1 ≤ k) (uppers lower : List CombinePart) (hlen : ∀ q ∈ uppers, q.combine.length = k)
    (hone : times p (uppers.flatMap fun q => q.combine.drop (k - 1)) ≤ 1) (hne : ∀ q ∈ lower, q.combine ≠ [])
    (hfresh : times p (uppers.flatMap fun q => q.combine.drop (k - 1)) ≠ 0 → ∀ q ∈ lower, p ∈ q.area → p ∈ q.combine.getD 0 ∅) :
    let y := thickenAll opening k uppers lower
    (∀ q ∈ y.1, q.combine.length = k + 1) ∧
    (∀ d, d < k → times p (y.1.flatMap fun q => q.combine.drop d) = times p (uppers.flatMap fun q => q.combine.drop d)) ∧
    times p (y.2.flatMap CombinePart.combine) + times p (y.1.flatMap fun q => q.combine.drop k) =
      times p (lower.flatMap CombinePart.combine) ∧
    (∀ d, 1 ≤ d → (y.2.flatMap fun q => q.combine.drop d) = lower.flatMap fun q => q.combine.drop d) := by
  induction uppers generalizing lower with
  | nil =>
    dsimp only [thickenAll]
    simp [times]
  | cons q uppers ih =>
    dsimp only
    unfold thickenAll
    dsimp only
    rw [List.flatMap_cons, times_append] at hone hfresh
    have hql := hlen q (by simp)
    have hdrop : q.combine.drop (k - 1) = [q.combine.getD (k - 1) ∅] := by
      have h1 : k - 1 < q.combine.length := by omega
      rw [List.drop_eq_getElem_cons h1, List.drop_eq_nil_of_le (by omega)]
      simp [List.getD_eq_getElem?_getD, List.getElem?_eq_getElem h1]
    rw [hdrop] at hone hfresh
    obtain ⟨h1, h2, h3, h4, h5⟩ := thicken_spec opening hopen p q.box lower (q.combine.getD (k - 1) ∅) hne (by
      intro h
      rw [times_one p _ h] at hfresh
      exact hfresh (by omega))
    obtain ⟨g1, g2, g3, g4⟩ := ih (thicken opening q.box lower (q.combine.getD (k - 1) ∅)).2.2
      (fun q' hq' => hlen q' (by simp [hq'])) (by omega) h4 (by
        intro hn
        refine h5 ?_ (hfresh (by omega))
        intro h
        rw [times_one p _ h] at hone
        omega)
    obtain ⟨t1, t2⟩ := times_thicker p q.combine k hk hql _ _ h1
    refine ⟨?_, ?_, ?_, ?_⟩
    · intro q' hq'
      rcases List.mem_cons.1 hq' with rfl | hq'
      · simp [hql]
      · exact g1 q' hq'
    · intro d hd
      rw [List.flatMap_cons, List.flatMap_cons, times_append, times_append, g2 d hd, t1 d hd]
    · rw [List.flatMap_cons, times_append, t2]
      omega
    · intro d hd
      rw [g4 d hd, h3 d hd]

theorem sum_two (n a b : Nat) (f g : Nat → Nat) (hab : a ≠ b) (ha : a < n) (hb : b < n)
    (h : ∀ i, i ≠ a → i ≠ b → f i = g i) (hs : f a + f b = g a + g b) :
    ∑ i ∈ Finset.range n, f i = ∑ i ∈ Finset.range n, g i := by
  have ha' : a ∈ Finset.range n := by simpa using ha
  have hb' : b ∈ (Finset.range n).erase a := by simp [hb, hab.symm]
  rw [← Finset.add_sum_erase _ f ha', ← Finset.add_sum_erase _ f hb', ← Finset.add_sum_erase _ g ha',
    ← Finset.add_sum_erase _ g hb']
  have : ∑ x ∈ ((Finset.range n).erase a).erase b, f x = ∑ x ∈ ((Finset.range n).erase a).erase b, g x := by
    apply Finset.sum_congr rfl
    intro x hx
    simp only [Finset.mem_erase] at hx
    exact h x hx.2.1 hx.1
  omega

theorem getD_set' {α : Type} (ls : List (List α)) (i j : Nat) (x : List α) (hi : i < ls.length) :
    (ls.set i x).getD j [] = if j = i then x else ls.getD j [] := by
  simp only [List.getD_eq_getElem?_getD, List.getElem?_set]
  by_cases h : i = j
  · subst h
    simp [hi]
  · rw [if_neg h, if_neg (Ne.symm h)]

theorem fresh_flat {m : List CombinePart} (h : ∀ q ∈ m, q.Fresh) : m.flatMap CombinePart.combine = m.map CombinePart.area := by
  induction m with
  | nil => rfl
  | cons q m ih =>
    rw [List.flatMap_cons, List.map_cons, ih fun q' hq' => h q' (by simp [hq']), h q (by simp)]
    rfl

include hopen in
theorem combineLayer_spec (amount first l : Nat) (k : Nat) (hk : 1 ≤ k) (layers : List (List CombinePart))
    (hl : l < layers.length) (hlen : ∀ q ∈ layers.getD l [], q.combine.length = k)
    (hone : times p ((layers.getD l []).flatMap CombinePart.combine) ≤ 1)
    (hfresh : ∀ j, j + k ≤ l → l < j + amount → ∀ q ∈ layers.getD j [], q.Fresh) :
    (∀ m, fills p m (combineLayer opening amount first l k layers) = fills p m layers) ∧
    (combineLayer opening amount first l k layers).length = layers.length ∧
    ∀ j, l < j ∨ j + amount ≤ l → (combineLayer opening amount first l k layers).getD j [] = layers.getD j [] := by
  induction hn : amount - k generalizing k layers with
  | zero =>
    unfold combineLayer
    rw [if_neg (by omega)]
    exact ⟨fun _ => rfl, rfl, fun _ _ => rfl⟩
  | succ n ih =>
    unfold combineLayer
    by_cases hc : k < amount ∧ k ≤ l ∧ first ≤ l - k
    · rw [if_pos hc]
      dsimp only
      obtain ⟨hka, hkl, _⟩ := hc
      have hlo : ∀ q ∈ layers.getD (l - k) [], q.Fresh := hfresh (l - k) (by omega) (by omega)
      have hdle : times p ((layers.getD l []).flatMap fun q => q.combine.drop (k - 1)) ≤ 1 := by
        refine le_trans ?_ hone
        generalize layers.getD l [] = m
        induction m with
        | nil => simp
        | cons q m ihm =>
          rw [List.flatMap_cons, List.flatMap_cons, times_append, times_append]
          have := times_drop p q.combine (k - 1)
          omega
      obtain ⟨h1, h2, h3, h4⟩ := thickenAll_spec opening hopen p k hk (layers.getD l []) (layers.getD (l - k) []) hlen hdle
        (fun q hq => by rw [hlo q hq]; simp) (fun _ q hq hp => by rw [hlo q hq]; exact hp)
      generalize hy : thickenAll opening k (layers.getD l []) (layers.getD (l - k) []) = y at h1 h2 h3 h4 ⊢
      have hgd : ∀ j, ((layers.set l y.1).set (l - k) y.2).getD j [] =
          if j = l - k then y.2 else if j = l then y.1 else layers.getD j [] := by
        intro j
        rw [getD_set' _ _ _ _ (by simp; omega), getD_set' _ _ _ _ hl]
      obtain ⟨i1, i2, i3⟩ := ih (k + 1) (by omega) ((layers.set l y.1).set (l - k) y.2) (by simpa using hl)
        (by rw [hgd, if_neg (by omega), if_pos rfl]; exact h1)
        (by
          rw [hgd, if_neg (by omega), if_pos rfl]
          have := h2 0 (by omega)
          simp only [List.drop_zero] at this
          rw [this]
          exact hone)
        (by
          intro j hj hj'
          rw [hgd, if_neg (by omega), if_neg (by omega)]
          exact hfresh j (by omega) hj')
        (by omega)
      refine ⟨fun m => ?_, by rw [i2]; simp, fun j hj => ?_⟩
      · rw [i1 m]
        unfold fills
        simp only [List.length_set]
        apply sum_two _ l (l - k) _ _ (by omega) hl (by omega)
        · intro i hi hi'
          rw [hgd, if_neg hi', if_neg hi]
        · rw [hgd, hgd, if_neg (by omega), if_pos rfl, if_pos rfl]
          unfold covering
          have hz : ∀ (ms : List CombinePart) (d : Nat), (∀ q ∈ ms, q.combine.length ≤ d) →
              ms.flatMap (fun q => q.combine.drop d) = [] := by
            intro ms d h
            rw [List.flatMap_eq_nil_iff]
            intro q hq
            exact List.drop_eq_nil_of_le (h q hq)
          by_cases hml : m ≤ l
          · rw [if_pos hml, if_pos hml]
            by_cases hmk : m ≤ l - k
            · rw [if_pos hmk, if_pos hmk]
              have e0 : ((layers.getD l []).flatMap fun q => q.combine.drop (l - m)) = [] :=
                hz _ _ fun q hq => by rw [hlen q hq]; omega
              rw [e0]
              rcases Nat.eq_or_lt_of_le hmk with rfl | hlt
              · have e1 : l - (l - k) = k := by omega
                have e2 : l - k - (l - k) = 0 := by omega
                rw [e1, e2]
                simp only [List.drop_zero, times]
                have h3' : times p (y.2.flatMap fun q => q.combine) + times p (y.1.flatMap fun q => q.combine.drop k) =
                  times p ((layers.getD (l - k) []).flatMap fun q => q.combine) := h3
                omega
              · have e1 : (y.1.flatMap fun q => q.combine.drop (l - m)) = [] :=
                  hz _ _ fun q hq => by rw [h1 q hq]; omega
                rw [e1, h4 (l - k - m) (by omega)]
            · rw [if_neg hmk, if_neg hmk, h2 (l - m) (by omega)]
          · rw [if_neg hml, if_neg hml, if_neg (by omega), if_neg (by omega)]
      · rw [i3 j hj, hgd, if_neg (by omega), if_neg (by omega)]
    · rw [if_neg hc]
      exact ⟨fun _ => rfl, rfl, fun _ _ => rfl⟩

include hopen in
theorem combineFrom_spec (amount first last : Nat) (l : Nat) (layers : List (List CombinePart)) (hlast : last < layers.length)
    (hfresh : ∀ j, l < j + amount → ∀ q ∈ layers.getD j [], q.Fresh)
    (hone : ∀ j, l < j + amount → times p ((layers.getD j []).map CombinePart.area) ≤ 1) (m : Nat) :
    fills p m (combineFrom opening amount first last l layers) = fills p m layers := by
  induction hn : last + 1 - l using Nat.strong_induction_on generalizing l layers with
  | _ n ih =>
    unfold combineFrom
    by_cases hc : l ≤ last ∧ 0 < amount
    · rw [if_pos hc]
      obtain ⟨h1, h2, h3⟩ := combineLayer_spec opening hopen p amount first l 1 le_rfl layers (by omega)
        (fun q hq => by rw [hfresh l (by omega) q hq]; simp)
        (by rw [fresh_flat (hfresh l (by omega))]; exact hone l (by omega))
        (fun j _ hj => hfresh j hj)
      rw [ih (last + 1 - (l + amount)) (by omega) (l + amount) _ (by rw [h2]; exact hlast)
        (fun j hj => by rw [h3 j (by omega)]; exact hfresh j (by omega))
        (fun j hj => by rw [h3 j (by omega)]; exact hone j (by omega)) rfl]
      exact h1 m
    · rw [if_neg hc]

theorem fills_fresh (layers : List (List CombinePart)) (hfresh : ∀ j, ∀ q ∈ layers.getD j [], q.Fresh) (m : Nat) :
    fills p m layers = times p ((layers.getD m []).map CombinePart.area) := by
  have hcov : ∀ L, times p (covering m L (layers.getD L [])) =
      if L = m then times p ((layers.getD m []).map CombinePart.area) else 0 := by
    intro L
    unfold covering
    by_cases h : L = m
    · subst h
      rw [if_pos le_rfl, if_pos rfl, Nat.sub_self]
      simp only [List.drop_zero]
      rw [fresh_flat (hfresh L)]
    · rw [if_neg h]
      split
      · have : ((layers.getD L []).flatMap fun q => q.combine.drop (L - m)) = [] := by
          rw [List.flatMap_eq_nil_iff]
          intro q hq
          rw [hfresh L q hq]
          exact List.drop_eq_nil_of_le (by simp; omega)
        rw [this]
        rfl
      · rfl
  unfold fills
  simp only [hcov, Finset.sum_ite_eq']
  split
  · rfl
  · next h =>
    have : layers.getD m [] = [] := by
      rw [List.getD_eq_getElem?_getD, List.getElem?_eq_none (by simpa using h)]
      rfl
    rw [this]
    rfl

/-! ## As thick as possible -/

theorem thicken_thick (box : AABB) (lower : List CombinePart) (r : Region) (hp : p ∈ r)
    (h : ∃ q ∈ lower, box.hit q.box = true ∧ p ∈ q.area) : p ∈ together (thicken id box lower r).2.1 := by
  induction lower generalizing r with
  | nil => obtain ⟨_, h, _⟩ := h; simp at h
  | cons q lower ih =>
    unfold thicken
    obtain ⟨q', hq', hh, ha⟩ := h
    by_cases hb : box.hit q.box = true
    · rw [if_pos hb]
      dsimp only
      by_cases hqa : p ∈ q.area
      · exact ⟨_, List.mem_cons_self, hp, hqa⟩
      · rcases List.mem_cons.1 hq' with rfl | hq'
        · exact absurd ha hqa
        · obtain ⟨r', hr', hpr⟩ := ih (r \ id (r ∩ q.area)) ⟨hp, fun h => hqa h.2⟩ ⟨q', hq', hh, ha⟩
          exact ⟨r', List.mem_cons_of_mem _ hr', hpr⟩
    · rw [if_neg hb]
      dsimp only
      rcases List.mem_cons.1 hq' with rfl | hq'
      · exact absurd hh hb
      · exact ih r hp ⟨q', hq', hh, ha⟩

theorem thicken_areas (box : AABB) (lower : List CombinePart) (r : Region)
    (h : ∃ q ∈ lower, p ∈ q.area ∧ WithinFlat q.box p) :
    ∃ q ∈ (thicken opening box lower r).2.2, p ∈ q.area ∧ WithinFlat q.box p := by
  induction lower generalizing r with
  | nil => obtain ⟨_, h, _⟩ := h; simp at h
  | cons q lower ih =>
    unfold thicken
    obtain ⟨q', hq', ha⟩ := h
    by_cases hb : box.hit q.box = true
    · rw [if_pos hb]
      rcases List.mem_cons.1 hq' with rfl | hq'
      · exact ⟨_, List.mem_cons_self, ha⟩
      · obtain ⟨z, hz, hza⟩ := ih (r \ opening (r ∩ q.area)) ⟨q', hq', ha⟩
        exact ⟨z, List.mem_cons_of_mem _ hz, hza⟩
    · rw [if_neg hb]
      rcases List.mem_cons.1 hq' with rfl | hq'
      · exact ⟨_, List.mem_cons_self, ha⟩
      · obtain ⟨z, hz, hza⟩ := ih r ⟨q', hq', ha⟩
        exact ⟨z, List.mem_cons_of_mem _ hz, hza⟩

theorem thickenAll_thick (k : Nat) (uppers lower : List CombinePart) (hlen : ∀ q ∈ uppers, q.combine.length = k)
    (hu : ∃ q ∈ uppers, p ∈ q.combine.getD (k - 1) ∅ ∧ WithinFlat q.box p)
    (hl : ∃ q ∈ lower, p ∈ q.area ∧ WithinFlat q.box p) :
    ∃ q ∈ (thickenAll id k uppers lower).1, p ∈ q.combine.getD k ∅ ∧ WithinFlat q.box p := by
  induction uppers generalizing lower with
  | nil => obtain ⟨_, h, _⟩ := hu; simp at h
  | cons q uppers ih =>
    unfold thickenAll
    dsimp only
    obtain ⟨q', hq', ha, hb⟩ := hu
    rcases List.mem_cons.1 hq' with rfl | hq'
    · refine ⟨_, List.mem_cons_self, ?_, hb⟩
      obtain ⟨z, hz, hza, hzb⟩ := hl
      have := thicken_thick p q'.box lower _ ha ⟨z, hz, withinFlat_hit hb hzb, hza⟩
      have e := hlen q' (by simp)
      dsimp only
      rw [List.getD_eq_getElem?_getD, List.getElem?_append_right (by simp; omega)]
      simp only [List.length_set, e, Nat.sub_self, List.getElem?_cons_zero, Option.getD_some]
      exact this
    · obtain ⟨z, hz, h⟩ := ih (thicken id q.box lower (q.combine.getD (k - 1) ∅)).2.2
        (fun q' hq' => hlen q' (by simp [hq'])) ⟨q', hq', ha, hb⟩ (thicken_areas id p _ _ _ hl)
      exact ⟨z, List.mem_cons_of_mem _ hz, h⟩

theorem combineLayer_thick (amount first l : Nat) (ham : amount ≤ l + 1) (k : Nat) (hk : 1 ≤ k) (hka : k ≤ amount)
    (layers : List (List CombinePart))
    (hl : l < layers.length) (hlen : ∀ q ∈ layers.getD l [], q.combine.length = k)
    (hone : times p ((layers.getD l []).flatMap CombinePart.combine) ≤ 1)
    (hfresh : ∀ j, j + k ≤ l → l < j + amount → ∀ q ∈ layers.getD j [], q.Fresh)
    (hu : ∃ q ∈ layers.getD l [], p ∈ q.combine.getD (k - 1) ∅ ∧ WithinFlat q.box p)
    (hd : ∀ j, j + k ≤ l → l < j + amount → first ≤ j ∧ ∃ q ∈ layers.getD j [], p ∈ q.area ∧ WithinFlat q.box p) :
    ∃ q ∈ (combineLayer id amount first l k layers).getD l [], p ∈ q.combine.getD (amount - 1) ∅ := by
  induction hn : amount - k generalizing k layers with
  | zero =>
    have : k = amount := by omega
    subst this
    unfold combineLayer
    rw [if_neg (by omega)]
    obtain ⟨q, hq, h, _⟩ := hu
    exact ⟨q, hq, h⟩
  | succ n ih =>
    unfold combineLayer
    rw [if_pos ⟨by omega, by omega, (hd (l - k) (by omega) (by omega)).1⟩]
    dsimp only
    have hlo : ∀ q ∈ layers.getD (l - k) [], q.Fresh := hfresh (l - k) (by omega) (by omega)
    have hdle : times p ((layers.getD l []).flatMap fun q => q.combine.drop (k - 1)) ≤ 1 := by
      refine le_trans ?_ hone
      generalize layers.getD l [] = m
      induction m with
      | nil => simp
      | cons q m ihm =>
        rw [List.flatMap_cons, List.flatMap_cons, times_append, times_append]
        have := times_drop p q.combine (k - 1)
        omega
    obtain ⟨h1, h2, h3, h4⟩ := thickenAll_spec id (fun _ _ h => h) p k hk (layers.getD l []) (layers.getD (l - k) []) hlen
      hdle (fun q hq => by rw [hlo q hq]; simp) (fun _ q hq hp => by rw [hlo q hq]; exact hp)
    have h5 := thickenAll_thick p k (layers.getD l []) (layers.getD (l - k) []) hlen hu (hd (l - k) (by omega) (by omega)).2
    generalize hy : thickenAll id k (layers.getD l []) (layers.getD (l - k) []) = y at h1 h2 h3 h4 h5 ⊢
    have hgd : ∀ j, ((layers.set l y.1).set (l - k) y.2).getD j [] =
        if j = l - k then y.2 else if j = l then y.1 else layers.getD j [] := by
      intro j
      rw [getD_set' _ _ _ _ (by simp; omega), getD_set' _ _ _ _ hl]
    refine ih (k + 1) (by omega) (by omega) ((layers.set l y.1).set (l - k) y.2) (by simpa using hl)
        (by rw [hgd, if_neg (by omega), if_pos rfl]; exact h1)
        (by
          rw [hgd, if_neg (by omega), if_pos rfl]
          have := h2 0 (by omega)
          simp only [List.drop_zero] at this
          rw [this]
          exact hone)
        (by
          intro j hj hj'
          rw [hgd, if_neg (by omega), if_neg (by omega)]
          exact hfresh j (by omega) hj')
        (by
          rw [hgd, if_neg (by omega), if_pos rfl]
          exact h5)
        (by
          intro j hj hj'
          rw [hgd, if_neg (by omega), if_neg (by omega)]
          exact hd j (by omega) hj')
        (by omega)

/-- The blocks above a layer leave it as it is. -/
theorem combineFrom_above (amount first last : Nat) (l : Nat) (layers : List (List CombinePart)) (hlast : last < layers.length)
    (hopen : ∀ r, opening r ⊆ r) (hfresh : ∀ j, l < j + amount → ∀ q ∈ layers.getD j [], q.Fresh)
    (hone : ∀ j, l < j + amount → times p ((layers.getD j []).map CombinePart.area) ≤ 1) (j : Nat) (hj : j + amount ≤ l) :
    (combineFrom opening amount first last l layers).getD j [] = layers.getD j [] := by
  induction hn : last + 1 - l using Nat.strong_induction_on generalizing l layers with
  | _ n ih =>
    unfold combineFrom
    by_cases hc : l ≤ last ∧ 0 < amount
    · rw [if_pos hc]
      obtain ⟨h1, h2, h3⟩ := combineLayer_spec opening hopen p amount first l 1 le_rfl layers (by omega)
        (fun q hq => by rw [hfresh l (by omega) q hq]; simp)
        (by rw [fresh_flat (hfresh l (by omega))]; exact hone l (by omega))
        (fun j _ hj => hfresh j hj)
      rw [ih (last + 1 - (l + amount)) (by omega) (l + amount) _ (by rw [h2]; exact hlast)
        (fun j hj => by rw [h3 j (by omega)]; exact hfresh j (by omega))
        (fun j hj => by rw [h3 j (by omega)]; exact hone j (by omega)) (by omega) rfl]
      exact h3 j (.inr hj)
    · rw [if_neg hc]

theorem combineFrom_thick (amount first last : Nat) (h0 : 0 < amount) (l : Nat) (layers : List (List CombinePart))
    (hlast : last < layers.length)
    (hfresh : ∀ j, l < j + amount → ∀ q ∈ layers.getD j [], q.Fresh)
    (hone : ∀ j, l < j + amount → times p ((layers.getD j []).map CombinePart.area) ≤ 1)
    (L : Nat) (hL : L ≤ last) (hlL : l ≤ L) (hmod : amount ∣ L - l) (hfirst : first + amount ≤ L + 1)
    (hd : ∀ j, j ≤ L → L < j + amount → ∃ q ∈ layers.getD j [], p ∈ q.area ∧ WithinFlat q.box p) :
    ∃ q ∈ (combineFrom id amount first last l layers).getD L [], p ∈ q.combine.getD (amount - 1) ∅ := by
  induction hn : last + 1 - l using Nat.strong_induction_on generalizing l layers with
  | _ n ih =>
    unfold combineFrom
    rw [if_pos ⟨by omega, h0⟩]
    have hone' : times p ((layers.getD l []).flatMap CombinePart.combine) ≤ 1 := by
      rw [fresh_flat (hfresh l (by omega))]; exact hone l (by omega)
    obtain ⟨h1, h2, h3⟩ := combineLayer_spec id (fun _ _ h => h) p amount first l 1 le_rfl layers (by omega)
      (fun q hq => by rw [hfresh l (by omega) q hq]; simp) hone' (fun j _ hj => hfresh j hj)
    rcases Nat.eq_or_lt_of_le hlL with rfl | hlt
    · rw [combineFrom_above id p amount first last (l + amount) _ (by rw [h2]; exact hlast) (fun _ _ h => h)
        (fun j hj => by rw [h3 j (by omega)]; exact hfresh j (by omega))
        (fun j hj => by rw [h3 j (by omega)]; exact hone j (by omega)) l (by omega)]
      refine combineLayer_thick p amount first l (by omega) 1 le_rfl (by omega) layers (by omega)
        (fun q hq => by rw [hfresh l (by omega) q hq]; simp) hone' (fun j _ hj => hfresh j hj) ?_ ?_
      · obtain ⟨q, hq, h, hb⟩ := hd l le_rfl (by omega)
        refine ⟨q, hq, ?_, hb⟩
        rw [hfresh l (by omega) q hq]
        exact h
      · intro j hj hj'
        exact ⟨by omega, hd j (by omega) hj'⟩
    · obtain ⟨t, ht⟩ := hmod
      have ht1 : 1 ≤ t := by
        rcases t with _ | t
        · omega
        · omega
      have hge : l + amount ≤ L := by
        have : amount * 1 ≤ amount * t := Nat.mul_le_mul_left _ ht1
        omega
      refine ih (last + 1 - (l + amount)) (by omega) (l + amount) _ (by rw [h2]; exact hlast)
        (fun j hj => by rw [h3 j (by omega)]; exact hfresh j (by omega))
        (fun j hj => by rw [h3 j (by omega)]; exact hone j (by omega)) hge ⟨t - 1, ?_⟩ ?_ rfl
      · rw [Nat.mul_sub, Nat.mul_one, ← ht]
        omega
      · intro j hj hj'
        rw [h3 j (by omega)]
        exact hd j hj hj'

end Verif.Skin
