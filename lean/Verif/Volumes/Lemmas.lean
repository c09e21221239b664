import Verif.Volumes.Spec
import Mathlib.Tactic.Linarith
import Mathlib.Tactic.ByContra
import Mathlib.Data.Finset.Max
import Mathlib.Data.Prod.Lex
import Mathlib.Order.Interval.Finset.Nat

/-! # Helper lemmas for C65, C66 and C67 -/

namespace Verif.Volumes

open Verif.Box (AABB AABB3D)

theorem put_same (s : Slices) (v l : Nat) (r : Region) : put s v l r v l = r := by simp [put]

theorem put_other (s : Slices) (v l : Nat) (r : Region) (v' l' : Nat) (h : v' ≠ v ∨ l' ≠ l) : put s v l r v' l' = s v' l' := by
  unfold put
  rw [if_neg]
  rintro ⟨rfl, rfl⟩
  rcases h with h | h <;> exact h rfl

theorem within_hit {a b : AABB3D} {p : Point} {z : Int} (ha : Within a p z) (hb : Within b p z) : a.hit b = true := by
  obtain ⟨a1, a2, a3, a4, a5, a6⟩ := ha
  obtain ⟨b1, b2, b3, b4, b5, b6⟩ := hb
  have h1 : b.min.x ≤ a.max.x := by exact_mod_cast b1.trans a2
  have h2 : a.min.x ≤ b.max.x := by exact_mod_cast a1.trans b2
  have h3 : b.min.y ≤ a.max.y := by exact_mod_cast b3.trans a4
  have h4 : a.min.y ≤ b.max.y := by exact_mod_cast a3.trans b4
  unfold AABB3D.hit
  rw [if_neg (by omega)]

theorem withinFlat_hit {a b : AABB} {p : Point} (ha : WithinFlat a p) (hb : WithinFlat b p) : a.hit b = true := by
  obtain ⟨a1, a2, a3, a4⟩ := ha
  obtain ⟨b1, b2, b3, b4⟩ := hb
  have h1 : b.min.x ≤ a.max.x := by exact_mod_cast b1.trans a2
  have h2 : a.min.x ≤ b.max.x := by exact_mod_cast a1.trans b2
  have h3 : b.min.y ≤ a.max.y := by exact_mod_cast b3.trans a4
  have h4 : a.min.y ≤ b.max.y := by exact_mod_cast a3.trans b4
  unfold AABB.hit
  rw [if_neg (by omega), if_neg (by omega), if_neg (by omega), if_neg (by omega)]

/-! ## The order of the volumes -/

section Ranked

variable (ms : Nat → Mesh) (n : Nat)

theorem ranked_perm : (ranked ms n).Perm (List.range n) := List.perm_insertionSort _ _

theorem ranked_length : (ranked ms n).length = n := by
  rw [(ranked_perm ms n).length_eq, List.length_range]

theorem ranked_nodup : (ranked ms n).Nodup := (ranked_perm ms n).nodup_iff.2 List.nodup_range

theorem mem_ranked (v : Nat) : v ∈ ranked ms n ↔ v < n := by
  rw [(ranked_perm ms n).mem_iff, List.mem_range]

instance : Std.Total (fun a b : Nat => (ms a).order ≤ (ms b).order) := ⟨fun _ _ => le_total _ _⟩
instance : IsTrans Nat (fun a b : Nat => (ms a).order ≤ (ms b).order) := ⟨fun _ _ _ => le_trans⟩

theorem ranked_sorted : (ranked ms n).Pairwise fun a b => (ms a).order ≤ (ms b).order := List.pairwise_insertionSort _ _

/-- Earlier in the ranking means a lower order, or the same order and a lower number. -/
theorem ranked_before {i j a b : Nat} (hij : j < i) (ha : (ranked ms n)[i]? = some a) (hb : (ranked ms n)[j]? = some b) :
    (ms b).order < (ms a).order ∨ (ms b).order = (ms a).order ∧ b < a := by
  obtain ⟨hi, ha⟩ := List.getElem?_eq_some_iff.1 ha
  obtain ⟨hj, hb⟩ := List.getElem?_eq_some_iff.1 hb
  have hle : (ms b).order ≤ (ms a).order := by
    have := List.pairwise_iff_getElem.1 (ranked_sorted ms n) j i hj hi hij
    rwa [ha, hb] at this
  rcases lt_or_eq_of_le hle with h | h
  · exact .inl h
  · refine .inr ⟨h, ?_⟩
    by_contra hba
    have hne : a ≠ b := by
      intro he
      have := (ranked_nodup ms n).getElem_inj_iff.1 (show (ranked ms n)[i] = (ranked ms n)[j] by rw [ha, hb, he])
      omega
    have hlt : a < b := by omega
    have hbn : b < n := (mem_ranked ms n b).1 (hb ▸ List.getElem_mem hj)
    have hsub : [a, b].Sublist (List.range n) := by
      have := List.pairwise_iff_getElem.1 (List.pairwise_lt_range (n := n))
      rw [List.sublist_iff_exists_fin_orderEmbedding_get_eq]
      refine ⟨OrderEmbedding.ofStrictMono (fun x => ⟨if x.1 = 0 then a else b, by rw [List.length_range]; split <;> omega⟩) ?_, ?_⟩
      · intro x y hxy
        have hx := x.2
        have hy := y.2
        simp only [List.length_cons, List.length_nil] at hx hy
        have : x.1 < y.1 := hxy
        have h0 : x.1 = 0 := by omega
        have h1 : y.1 = 1 := by omega
        simp only [Fin.mk_lt_mk, h0, h1, if_true]
        simpa using hlt
      · intro x
        have hx := x.2
        simp only [List.length_cons, List.length_nil] at hx
        have : x.1 = 0 ∨ x.1 = 1 := by omega
        obtain ⟨x, hx'⟩ := x
        rcases this with h | h <;> simp only at h <;> subst h <;> simp
    have hs := List.pair_sublist_insertionSort (r := fun a b : Nat => (ms a).order ≤ (ms b).order) (le_of_eq h.symm) hsub
    have hp : (ranked ms n).Pairwise fun x y => ¬ (x = a ∧ y = b) := by
      rw [List.pairwise_iff_getElem]
      rintro x y hx hy hxy ⟨h1, h2⟩
      have e1 := (ranked_nodup ms n).getElem_inj_iff.1 (h1.trans ha.symm)
      have e2 := (ranked_nodup ms n).getElem_inj_iff.1 (h2.trans hb.symm)
      omega
    have := hp.sublist hs
    simp at this

end Ranked

theorem mem_pairs (n i j : Nat) : (i, j) ∈ pairs n ↔ j < i ∧ i < n := by
  unfold pairs
  simp only [List.mem_flatMap, List.mem_range'_1, List.mem_map, List.mem_range, Prod.mk.injEq]
  constructor
  · rintro ⟨a, ⟨_, _⟩, b, hb, rfl, rfl⟩
    omega
  · rintro ⟨h1, h2⟩
    exact ⟨i, by omega, j, h1, rfl, rfl⟩

/-! ## Carving -/

section Carve

variable (ms : Nat → Mesh) (alternate : Bool)

theorem carveLayer_other (a b l : Nat) (s : Slices) (v l' : Nat) (h : l' ≠ l) :
    carveLayer ms alternate a b l s v l' = s v l' := by
  unfold carveLayer
  split <;> exact put_other _ _ _ _ _ _ (.inr h)

theorem carveLayer_congr (a b l : Nat) (s t : Slices) (h : ∀ x, s x l = t x l) (v : Nat) :
    carveLayer ms alternate a b l s v l = carveLayer ms alternate a b l t v l := by
  unfold carveLayer put
  split <;> dsimp only <;> split <;> simp only [h]

/-- What the loop over the layers does on a layer is what its body does there. -/
theorem carve_layers (a b : Nat) : ∀ (ls : List Nat) (s : Slices), ls.Nodup → ∀ v l,
    (ls.foldl (fun s l => carveLayer ms alternate a b l s) s) v l =
      if l ∈ ls then carveLayer ms alternate a b l s v l else s v l := by
  intro ls
  induction ls with
  | nil => intro s _ v l; simp
  | cons k ls ih =>
    intro s hnd v l
    obtain ⟨hk, hnd⟩ := List.nodup_cons.1 hnd
    rw [List.foldl_cons, ih _ hnd]
    by_cases hl : l ∈ ls
    · have hne : l ≠ k := fun h => hk (h ▸ hl)
      rw [if_pos hl, if_pos (by simp [hl])]
      exact carveLayer_congr ms alternate a b l _ _ (fun x => carveLayer_other ms alternate a b k s x l hne) v
    · rw [if_neg hl]
      by_cases hk' : l = k
      · subst hk'; rw [if_pos (by simp)]
      · rw [if_neg (by simp [hl, hk'])]
        exact carveLayer_other ms alternate a b k s v l hk'

/-- Whether the second volume of a pair is the one that gives way. -/
def Swapped (a b l : Nat) : Prop := alternate = true ∧ l % 2 = 0 ∧ (ms a).order = (ms b).order

/-- What is left of a volume after a pair was treated. -/
theorem mem_carvePair {layers a b : Nat} (hab : a ≠ b) (s : Slices) (v : Nat) {l : Nat} (hl : l < layers) (p : Point) :
    p ∈ carvePair ms alternate layers a b s v l ↔ p ∈ s v l ∧
      ¬ (((ms a).carved = true ∧ (ms b).carved = true ∧ (ms a).box.hit (ms b).box = true) ∧
        (Swapped ms alternate a b l ∧ v = b ∧ p ∈ s a l ∨ ¬ Swapped ms alternate a b l ∧ v = a ∧ p ∈ s b l)) := by
  unfold carvePair
  by_cases hc : (ms a).carved = true ∧ (ms b).carved = true ∧ (ms a).box.hit (ms b).box = true
  · rw [if_pos hc, carve_layers ms alternate a b _ _ List.nodup_range, if_pos (List.mem_range.2 hl)]
    unfold carveLayer
    by_cases hs : Swapped ms alternate a b l
    · have hs' := hs
      unfold Swapped at hs'
      rw [if_pos hs']
      by_cases hv : v = b
      · subst hv
        rw [put_same]
        simp [hc, hs]
      · rw [put_other _ _ _ _ _ _ (.inl hv)]
        simp [hs, hv]
    · have hs' := hs
      unfold Swapped at hs'
      rw [if_neg hs']
      by_cases hv : v = a
      · subst hv
        rw [put_same]
        simp [hc, hs]
      · rw [put_other _ _ _ _ _ _ (.inl hv)]
        simp [hs, hv]
  · rw [if_neg hc]
    simp [hc]

theorem carvePair_layer (layers a b : Nat) (s : Slices) (v l : Nat) (hl : layers ≤ l) :
    carvePair ms alternate layers a b s v l = s v l := by
  unfold carvePair
  split
  · rw [carve_layers ms alternate a b _ _ List.nodup_range, if_neg (by simp; omega)]
  · rfl

theorem carvePair_not (layers a b : Nat) (s : Slices) (v l : Nat) (hv : (ms v).carved = false) :
    carvePair ms alternate layers a b s v l = s v l := by
  unfold carvePair
  split
  · rename_i hc
    rw [carve_layers ms alternate a b _ _ List.nodup_range]
    split
    · unfold carveLayer
      have h1 : v ≠ a := by rintro rfl; rw [hv] at hc; exact absurd hc.1 (by simp)
      have h2 : v ≠ b := by rintro rfl; rw [hv] at hc; exact absurd hc.2.1 (by simp)
      split
      · exact put_other _ _ _ _ _ _ (.inl h2)
      · exact put_other _ _ _ _ _ _ (.inl h1)
    · rfl
  · rfl

variable (n layers : Nat)

/-- The loop over some of the pairs. -/
noncomputable def carveSome (ps : List (Nat × Nat)) (s : Slices) : Slices :=
  ps.foldl (fun s ij => carvePair ms alternate layers ((ranked ms n)[ij.1]?.getD 0) ((ranked ms n)[ij.2]?.getD 0) s) s

/-- The volumes of a pair of positions. -/
theorem pair_spec {i j : Nat} (h : (i, j) ∈ pairs n) : ∃ a b, (ranked ms n)[i]? = some a ∧ (ranked ms n)[j]? = some b ∧
    a ≠ b ∧ ((ms b).order < (ms a).order ∨ (ms b).order = (ms a).order ∧ b < a) := by
  obtain ⟨h1, h2⟩ := (mem_pairs n i j).1 h
  have hi : i < (ranked ms n).length := by rw [ranked_length]; exact h2
  have hj : j < (ranked ms n).length := by rw [ranked_length]; omega
  have hb := ranked_before ms n h1 (List.getElem?_eq_getElem hi) (List.getElem?_eq_getElem hj)
  refine ⟨_, _, List.getElem?_eq_getElem hi, List.getElem?_eq_getElem hj, ?_, hb⟩
  intro he
  rw [he] at hb
  omega

/-- Areas only get smaller. -/
theorem carveSome_subset {l : Nat} (hl : l < layers) : ∀ (ps : List (Nat × Nat)), (∀ x ∈ ps, x ∈ pairs n) → ∀ s v,
    carveSome ms alternate n layers ps s v l ⊆ s v l := by
  intro ps
  induction ps with
  | nil => intro _ s v; exact subset_rfl
  | cons x ps ih =>
    intro hps s v p hp
    have := ih (fun y hy => hps y (by simp [hy])) _ v hp
    dsimp only at this
    obtain ⟨a, b, ha, hb, hne, _⟩ := pair_spec ms n (hps x (by simp))
    rw [ha, hb, Option.getD_some, Option.getD_some, mem_carvePair ms alternate hne s v hl] at this
    exact this.1

/-- Whoever loses a point loses it to a better one. -/
theorem carveSome_best {l : Nat} (hl : l < layers) (p : Point) (v : Nat) :
    ∀ (ps : List (Nat × Nat)), (∀ x ∈ ps, x ∈ pairs n) → ∀ s, p ∈ s v l →
      (∀ w < n, (ms w).carved = true → w ≠ v → p ∈ s w l → Better ms alternate l v w) →
      p ∈ carveSome ms alternate n layers ps s v l := by
  intro ps
  induction ps with
  | nil => intro _ s h _; exact h
  | cons x ps ih =>
    intro hps s h hbest
    obtain ⟨a, b, ha, hb, hne, hord⟩ := pair_spec ms n (hps x (by simp))
    have han : a < n := (mem_ranked ms n a).1 (List.mem_of_getElem? ha)
    have hbn : b < n := (mem_ranked ms n b).1 (List.mem_of_getElem? hb)
    have hps' := fun y (hy : y ∈ ps) => hps y (List.mem_cons_of_mem x hy)
    have hstep : ∀ w, p ∈ carvePair ms alternate layers ((ranked ms n)[x.1]?.getD 0) ((ranked ms n)[x.2]?.getD 0) s w l →
        p ∈ s w l := by
      intro w hw
      rw [ha, hb, Option.getD_some, Option.getD_some, mem_carvePair ms alternate hne s w hl] at hw
      exact hw.1
    refine ih hps' _ ?_ fun w hw hc hne' hp => hbest w hw hc hne' (hstep w hp)
    dsimp only
    rw [ha, hb, Option.getD_some, Option.getD_some, mem_carvePair ms alternate hne s v hl]
    refine ⟨h, ?_⟩
    rintro ⟨hc, ⟨hs, rfl, hpa⟩ | ⟨hs, rfl, hpb⟩⟩
    · have := hbest a han hc.1 hne hpa
      obtain ⟨s1, s2, s3⟩ := hs
      unfold Better at this
      rw [if_pos ⟨s1, s2⟩] at this
      omega
    · have := hbest b hbn hc.2.1 (Ne.symm hne) hpb
      unfold Better at this
      by_cases ho : (ms b).order = (ms v).order
      · rw [if_neg (fun hx => hs ⟨hx.1, hx.2, ho.symm⟩)] at this
        omega
      · omega

/-- After a pair was treated, its volumes have no point in common. -/
theorem carveSome_disjoint {l : Nat} (hl : l < layers) (p : Point) {i j a b : Nat} (ha : (ranked ms n)[i]? = some a)
    (hb : (ranked ms n)[j]? = some b) (hca : (ms a).carved = true) (hcb : (ms b).carved = true)
    (hhit : (ms a).box.hit (ms b).box = true) :
    ∀ (ps : List (Nat × Nat)), (∀ x ∈ ps, x ∈ pairs n) → (i, j) ∈ ps → ∀ s,
      ¬ (p ∈ carveSome ms alternate n layers ps s a l ∧ p ∈ carveSome ms alternate n layers ps s b l) := by
  intro ps
  induction ps with
  | nil => intro _ h; cases h
  | cons x ps ih =>
    intro hps hmem s
    have hps' := fun y (hy : y ∈ ps) => hps y (List.mem_cons_of_mem x hy)
    rcases List.mem_cons.1 hmem with rfl | hmem
    · rintro ⟨h1, h2⟩
      have h1 := carveSome_subset ms alternate n layers hl ps hps' _ a h1
      have h2 := carveSome_subset ms alternate n layers hl ps hps' _ b h2
      obtain ⟨a', b', ha', hb', hne, _⟩ := pair_spec ms n (hps (i, j) (by simp))
      rw [ha] at ha'
      rw [hb] at hb'
      cases ha'
      cases hb'
      dsimp only at h1 h2
      rw [ha, hb, Option.getD_some, Option.getD_some] at h1 h2
      rw [mem_carvePair ms alternate hne s _ hl] at h1 h2
      by_cases hs : Swapped ms alternate a b l
      · exact h2.2 ⟨⟨hca, hcb, hhit⟩, .inl ⟨hs, rfl, h1.1⟩⟩
      · exact h1.2 ⟨⟨hca, hcb, hhit⟩, .inr ⟨hs, rfl, h2.1⟩⟩
    · exact ih hps' hmem _

/-- Among the volumes with a point, there is a best one. -/
theorem exists_best (l : Nat) (P : Nat → Prop) (v : Nat) (hv : v < n) (hP : P v) :
    ∃ w < n, P w ∧ ∀ u < n, P u → u ≠ w → Better ms alternate l w u := by
  classical
  have hne : ((Finset.range n).filter P).Nonempty := ⟨v, by simp [hv, hP]⟩
  obtain ⟨w, hw, hmin⟩ := Finset.exists_min_image ((Finset.range n).filter P)
    (fun w => toLex ((ms w).order, if alternate = true ∧ l % 2 = 0 then -(w : Int) else (w : Int))) hne
  simp only [Finset.mem_filter, Finset.mem_range] at hw hmin
  refine ⟨w, hw.1, hw.2, fun u hu hPu huw => ?_⟩
  have := hmin u ⟨hu, hPu⟩
  rw [Prod.Lex.toLex_le_toLex] at this
  unfold Better
  rcases this with h | ⟨h, h'⟩
  · exact .inl h
  · refine .inr ⟨h, ?_⟩
    simp only at h'
    split
    · rename_i hc; rw [if_pos hc, if_pos hc] at h'; omega
    · rename_i hc; rw [if_neg hc, if_neg hc] at h'; omega

theorem Better.asymm {l v w : Nat} (h : Better ms alternate l v w) : ¬ Better ms alternate l w v := by
  unfold Better at *
  split at h <;> rename_i hc
  · rw [if_pos hc]; omega
  · rw [if_neg hc]; omega

end Carve

/-! ## Cutting -/

section Cut

/-- The mesh is cut by a cutting mesh. -/
def Eligible (m : Mesh) : Prop := m.printed = true ∧ m.support = false

theorem cutLoop_spec (ms : Nat → Mesh) (l : Nat) (c : Region) : ∀ (vs : List Nat), vs.Nodup → ∀ (s : Slices) (out : Region),
    (∀ v l', (cutLoop ms l c vs (s, out)).1 v l' =
      {p | p ∈ s v l' ∧ ¬ (l' = l ∧ v ∈ vs ∧ Eligible (ms v) ∧ p ∈ c)}) ∧
    (cutLoop ms l c vs (s, out)).2 = {p | p ∈ out ∨ (p ∈ c ∧ ∃ v ∈ vs, Eligible (ms v) ∧ p ∈ s v l)} := by
  intro vs
  induction vs with
  | nil => intro _ s out; simp [cutLoop]
  | cons v vs ih =>
    intro hnd s out
    obtain ⟨hv, hnd⟩ := List.nodup_cons.1 hnd
    unfold cutLoop
    by_cases he : (ms v).printed = false ∨ (ms v).support = true
    · rw [if_pos he]
      have hne : ¬ Eligible (ms v) := by
        rintro ⟨h1, h2⟩
        rcases he with h | h
        · rw [h1] at h; cases h
        · rw [h2] at h; cases h
      obtain ⟨i1, i2⟩ := ih hnd s out
      refine ⟨fun w l' => ?_, ?_⟩
      · rw [i1]
        ext p
        simp only [Set.mem_ofPred_eq, List.mem_cons]
        constructor
        · rintro ⟨h, hn⟩
          refine ⟨h, fun hx => hn ⟨hx.1, ?_, hx.2.2⟩⟩
          rcases hx.2.1 with rfl | h'
          · exact absurd hx.2.2.1 hne
          · exact h'
        · rintro ⟨h, hn⟩
          exact ⟨h, fun hx => hn ⟨hx.1, .inr hx.2.1, hx.2.2⟩⟩
      · rw [i2]
        ext p
        simp only [Set.mem_ofPred_eq, List.exists_mem_cons_iff]
        tauto
    · rw [if_neg he]
      have hel : Eligible (ms v) := by
        push Not at he
        exact ⟨by simpa using he.1, by simpa using he.2⟩
      obtain ⟨i1, i2⟩ := ih hnd (put s v l (s v l \ c)) (out ∪ (c ∩ s v l))
      refine ⟨fun w l' => ?_, ?_⟩
      · rw [i1]
        ext p
        simp only [Set.mem_ofPred_eq, List.mem_cons]
        by_cases hw : w = v ∧ l' = l
        · obtain ⟨rfl, rfl⟩ := hw
          rw [put_same]
          simp only [Set.mem_sdiff]
          tauto
        · rw [put_other _ _ _ _ _ _ (by tauto)]
          tauto
      · rw [i2]
        ext p
        simp only [Set.mem_ofPred_eq, List.exists_mem_cons_iff, Set.mem_union, Set.mem_inter_iff]
        have : (∃ w ∈ vs, Eligible (ms w) ∧ p ∈ put s v l (s v l \ c) w l) ↔ ∃ w ∈ vs, Eligible (ms w) ∧ p ∈ s w l := by
          constructor
          · rintro ⟨w, hw, h1, h2⟩
            rw [put_other _ _ _ _ _ _ (.inl (show w ≠ v from fun h => hv (h ▸ hw)))] at h2
            exact ⟨w, hw, h1, h2⟩
          · rintro ⟨w, hw, h1, h2⟩
            refine ⟨w, hw, h1, ?_⟩
            rw [put_other _ _ _ _ _ _ (.inl (show w ≠ v from fun h => hv (h ▸ hw)))]
            exact h2
        rw [this]
        tauto

/-- The area that a mesh cuts out on a layer. -/
def cutArea (ms : Nat → Mesh) (all : Nat → Region) (k l : Nat) (s : Slices) : Region :=
  if (ms k).hasExtruder then s k l ∩ all l else s k l

theorem cutLayer_spec (ms : Nat → Mesh) (n : Nat) (all : Nat → Region) (k l : Nat) (s : Slices) (v l' : Nat) (hv : v < n) :
    cutLayer ms n all k l s v l' =
      if l' = l then
        if v = k then {p | p ∈ cutArea ms all k l s ∧ ∃ w < n, Eligible (ms w) ∧ p ∈ s w l}
        else {p | p ∈ s v l ∧ ¬ (Eligible (ms v) ∧ p ∈ cutArea ms all k l s)}
      else s v l' := by
  unfold cutLayer
  obtain ⟨h1, h2⟩ := cutLoop_spec ms l (cutArea ms all k l s) (List.range n) List.nodup_range s ∅
  unfold cutArea at *
  by_cases hl : l' = l
  · subst hl
    rw [if_pos rfl]
    by_cases hk : v = k
    · subst hk
      rw [if_pos rfl, put_same, h2]
      ext p
      simp
    · rw [if_neg hk, put_other _ _ _ _ _ _ (.inl hk), h1]
      ext p
      simp [hv]
  · rw [if_neg hl, put_other _ _ _ _ _ _ (.inr hl), h1]
    ext p
    simp [hl]

theorem cutLayers_spec (ms : Nat → Mesh) (n : Nat) (all : Nat → Region) (k : Nat) (hk : k < n) : ∀ (ls : List Nat), ls.Nodup →
    ∀ (s : Slices) (v l : Nat), v < n →
    (ls.foldl (fun s l => cutLayer ms n all k l s) s) v l = if l ∈ ls then cutLayer ms n all k l s v l else s v l := by
  intro ls
  induction ls with
  | nil => intro _ s v l _; simp
  | cons j ls ih =>
    intro hnd s v l hv
    obtain ⟨hj, hnd⟩ := List.nodup_cons.1 hnd
    rw [List.foldl_cons, ih hnd _ v l hv]
    have e : l ≠ j → ∀ w < n, cutLayer ms n all k j s w l = s w l := by
      intro hne w hw
      rw [cutLayer_spec _ _ _ _ _ _ _ _ hw, if_neg hne]
    by_cases hl : l ∈ ls
    · have hne : l ≠ j := fun h => hj (h ▸ hl)
      rw [if_pos hl, if_pos (by simp [hl]), cutLayer_spec ms n all k l (cutLayer ms n all k j s) v l hv,
        cutLayer_spec ms n all k l s v l hv]
      have ec : cutArea ms all k l (cutLayer ms n all k j s) = cutArea ms all k l s := by
        unfold cutArea
        rw [e hne k hk]
      rw [ec, e hne v hv]
      split
      · split
        · ext p
          simp only [Set.mem_ofPred_eq]
          constructor
          · rintro ⟨h1, w, hw, h2, h3⟩
            rw [e hne w hw] at h3
            exact ⟨h1, w, hw, h2, h3⟩
          · rintro ⟨h1, w, hw, h2, h3⟩
            exact ⟨h1, w, hw, h2, by rw [e hne w hw]; exact h3⟩
        · rfl
      · rfl
    · rw [if_neg hl]
      by_cases hj' : l = j
      · subst hj'; rw [if_pos (by simp)]
      · rw [if_neg (by simp [hl, hj']), e hj' v hv]

variable (ms : Nat → Mesh) (n layers : Nat) (s : Slices)

/-- The cutting mesh is one of the first `k` and covers the point. -/
def Hits (k l : Nat) (p : Point) (w : Nat) : Prop := w < k ∧ (ms w).cutting = true ∧ p ∈ s w l

/-- The state after the first `k` meshes. -/
structure CutInv (k : Nat) (ms' : Nat → Mesh) (s' : Slices) : Prop where
  meshes : ∀ v, ms' v = if v < k ∧ (ms v).cutting = true ∧ (ms v).hasExtruder = true then { ms v with cutting := false } else ms v
  later : ∀ v < n, ∀ l, k ≤ v → (ms v).cutting = true → s' v l = s v l
  other : ∀ v < n, ∀ l, (ms v).cutting = false → ¬ Base (ms v) → s' v l = s v l
  high : ∀ v < n, ∀ l, layers ≤ l → s' v l = s v l
  base : ∀ v < n, ∀ l < layers, Base (ms v) → ∀ p, p ∈ s' v l ↔ p ∈ s v l ∧ ∀ w, ¬ Hits ms s k l p w
  keeps : ∀ v < k, ∀ l < layers, Keeps (ms v) → ∀ p, p ∈ s' v l ↔ p ∈ s v l ∧ (∃ u < n, Base (ms u) ∧ p ∈ s u l) ∧
    ∀ w < v, Keeps (ms w) → p ∉ s w l
  recolour : ∀ v < k, ∀ l < layers, Recolour (ms v) → ∀ p, p ∈ s' v l ↔ p ∈ s v l ∧ (∃ u < n, Base (ms u) ∧ p ∈ s u l) ∧
    ∀ w, Hits ms s k l p w → ¬ Keeps (ms w) ∧ w ≤ v

theorem eligible_iff {k : Nat} {ms' : Nat → Mesh} {s' : Slices} (h : CutInv ms n layers s k ms' s') (v : Nat) :
    Eligible (ms' v) ↔ Base (ms v) ∨ (v < k ∧ Recolour (ms v)) := by
  rw [h.meshes v]
  unfold Eligible Mesh.printed Base Recolour
  split
  · rename_i hc
    simp [hc]
    tauto
  · rename_i hc
    constructor
    · rintro ⟨h1, h2⟩
      simp at h1
      exact .inl ⟨h1.1.1, h1.1.2, h1.2, h2⟩
    · rintro (h | h)
      · simp [h]
      · exact absurd ⟨h.1, h.2.1, h.2.2.1⟩ hc

/-- Some mesh that can be cut has the point exactly if a model had it and no mesh has taken it away for good. -/
theorem holder_iff {k : Nat} {ms' : Nat → Mesh} {s' : Slices} (hk : k ≤ n) (h : CutInv ms n layers s k ms' s') {l : Nat}
    (hl : l < layers) (p : Point) : (∃ w < n, Eligible (ms' w) ∧ p ∈ s' w l) ↔
      (∃ u < n, Base (ms u) ∧ p ∈ s u l) ∧ ∀ w < k, Keeps (ms w) → p ∉ s w l := by
  constructor
  · rintro ⟨w, hw, he, hp⟩
    rcases (eligible_iff ms n layers s h w).1 he with hb | ⟨hwk, hr⟩
    · have := (h.base w hw l hl hb p).1 hp
      exact ⟨⟨w, hw, hb, this.1⟩, fun x hx hxk hpx => this.2 x ⟨hx, hxk.1, hpx⟩⟩
    · have := (h.recolour w hwk l hl hr p).1 hp
      exact ⟨this.2.1, fun x hx hxk hpx => (this.2.2 x ⟨hx, hxk.1, hpx⟩).1 hxk⟩
  · rintro ⟨⟨u, hu, hb, hp⟩, hno⟩
    by_cases hex : ∃ w, Hits ms s k l p w
    · classical
      obtain ⟨w, hw⟩ := hex
      have hne : ((Finset.range k).filter (Hits ms s k l p)).Nonempty := ⟨w, by simp [hw, hw.1]⟩
      obtain ⟨m, hm, hmax⟩ := Finset.exists_max_image _ id hne
      simp only [Finset.mem_filter, Finset.mem_range, id] at hm hmax
      have hrm : Recolour (ms m) := by
        by_contra hr
        exact hno m hm.1 ⟨hm.2.2.1, hr⟩ hm.2.2.2
      refine ⟨m, by omega, (eligible_iff ms n layers s h m).2 (.inr ⟨hm.1, hrm⟩), ?_⟩
      rw [h.recolour m hm.1 l hl hrm p]
      refine ⟨hm.2.2.2, ⟨u, hu, hb, hp⟩, fun x hx => ⟨fun hxk => hno x hx.1 hxk hx.2.2, hmax x ⟨hx.1, hx⟩⟩⟩
    · refine ⟨u, hu, (eligible_iff ms n layers s h u).2 (.inl hb), ?_⟩
      rw [h.base u hu l hl hb p]
      exact ⟨hp, fun w hw => hex ⟨w, hw⟩⟩

theorem cut_start : CutInv ms n layers s 0 ms s := by
  constructor
  · intro v; simp
  · intros; rfl
  · intros; rfl
  · intros; rfl
  · intro v _ l _ _ p
    simp [Hits]
  · intro v h; omega
  · intro v h; omega

theorem cut_skip {k : Nat} {ms' : Nat → Mesh} {s' : Slices} (hc : (ms k).cutting = false)
    (h : CutInv ms n layers s k ms' s') : CutInv ms n layers s (k + 1) ms' s' := by
  have hh : ∀ l p w, Hits ms s (k + 1) l p w ↔ Hits ms s k l p w := by
    intro l p w
    unfold Hits
    constructor
    · rintro ⟨h1, h2, h3⟩
      refine ⟨?_, h2, h3⟩
      have : w ≠ k := by rintro rfl; rw [hc] at h2; cases h2
      omega
    · rintro ⟨h1, h2⟩
      exact ⟨by omega, h2⟩
  constructor
  · intro v
    rw [h.meshes v]
    by_cases hv : v = k
    · subst hv; simp [hc]
    · have : v < k + 1 ↔ v < k := by omega
      simp only [this]
  · intro v hv l hkv; exact h.later v hv l (by omega)
  · exact h.other
  · exact h.high
  · intro v hv l hl hb p
    rw [h.base v hv l hl hb p]
    simp only [hh]
  · intro v hv l hl hkp p
    have : v ≠ k := by rintro rfl; rw [hkp.1] at hc; cases hc
    exact h.keeps v (by omega) l hl hkp p
  · intro v hv l hl hr p
    have : v ≠ k := by rintro rfl; rw [hr.1] at hc; cases hc
    rw [h.recolour v (by omega) l hl hr p]
    simp only [hh]

theorem cut_step {k : Nat} {ms' : Nat → Mesh} {s' : Slices} (hk : k < n) (hc : (ms k).cutting = true)
    (h : CutInv ms n layers s k ms' s') :
    CutInv ms n layers s (k + 1) (release ms' k)
      ((List.range layers).foldl (fun t l => cutLayer ms' n (printable ms n s) k l t) s') := by
  have hsk : ∀ l, s' k l = s k l := fun l => h.later k hk l le_rfl hc
  have hext : (ms' k).hasExtruder = (ms k).hasExtruder := by
    rw [h.meshes k, if_neg (by omega)]
  have hS : ∀ v < n, ∀ l, ((List.range layers).foldl (fun t l => cutLayer ms' n (printable ms n s) k l t) s') v l =
      if l < layers then cutLayer ms' n (printable ms n s) k l s' v l else s' v l := by
    intro v hv l
    rw [cutLayers_spec ms' n _ k hk _ List.nodup_range s' v l hv]
    simp only [List.mem_range]
  generalize (List.range layers).foldl (fun t l => cutLayer ms' n (printable ms n s) k l t) s' = S at hS
  -- the cut area, as far as there is something to cut
  have harea : ∀ l, l < layers → ∀ p, (∃ w < n, Eligible (ms' w) ∧ p ∈ s' w l) →
      (p ∈ cutArea ms' (printable ms n s) k l s' ↔ p ∈ s k l) := by
    intro l hl p hw
    obtain ⟨⟨u, hu, hb, hp⟩, _⟩ := (holder_iff ms n layers s hk.le h hl p).1 hw
    have hpu : p ∈ printable ms n s l := ⟨u, hu, by
      obtain ⟨b1, b2, b3, _⟩ := hb
      simp [Mesh.printed, b1, b2, b3], hp⟩
    unfold cutArea
    rw [hsk]
    split
    · simp [hpu]
    · rfl
  have hSk : ∀ l < layers, ∀ p, p ∈ S k l ↔ p ∈ s k l ∧ (∃ u < n, Base (ms u) ∧ p ∈ s u l) ∧
      ∀ w < k, Keeps (ms w) → p ∉ s w l := by
    intro l hl p
    rw [hS k hk, if_pos hl, cutLayer_spec _ _ _ _ _ _ _ _ hk, if_pos rfl, if_pos rfl]
    simp only [Set.mem_ofPred_eq]
    rw [← holder_iff ms n layers s hk.le h hl p]
    constructor
    · rintro ⟨h1, h2⟩
      exact ⟨(harea l hl p h2).1 h1, h2⟩
    · rintro ⟨h1, h2⟩
      exact ⟨(harea l hl p h2).2 h1, h2⟩
  have hSe : ∀ v < n, v ≠ k → Eligible (ms' v) → ∀ l < layers, ∀ p, p ∈ S v l ↔ p ∈ s' v l ∧ p ∉ s k l := by
    intro v hv hvk he l hl p
    rw [hS v hv, if_pos hl, cutLayer_spec _ _ _ _ _ _ _ _ hv, if_pos rfl, if_neg hvk]
    simp only [Set.mem_ofPred_eq]
    constructor
    · rintro ⟨h1, h2⟩
      exact ⟨h1, fun hp => h2 ⟨he, (harea l hl p ⟨v, hv, he, h1⟩).2 hp⟩⟩
    · rintro ⟨h1, h2⟩
      exact ⟨h1, fun hp => h2 ((harea l hl p ⟨v, hv, he, h1⟩).1 hp.2)⟩
  have hSn : ∀ v < n, v ≠ k → ¬ Eligible (ms' v) → ∀ l, S v l = s' v l := by
    intro v hv hvk he l
    rw [hS v hv]
    split
    · rw [cutLayer_spec _ _ _ _ _ _ _ _ hv, if_pos rfl, if_neg hvk]
      ext p
      simp [he]
    · rfl
  have hit : ∀ l p w, Hits ms s (k + 1) l p w ↔ Hits ms s k l p w ∨ (w = k ∧ p ∈ s k l) := by
    intro l p w
    unfold Hits
    constructor
    · rintro ⟨h1, h2, h3⟩
      by_cases hw : w = k
      · subst hw; exact .inr ⟨rfl, h3⟩
      · exact .inl ⟨by omega, h2, h3⟩
    · rintro (⟨h1, h2⟩ | ⟨rfl, h2⟩)
      · exact ⟨by omega, h2⟩
      · exact ⟨by omega, hc, h2⟩
  have hcut : ∀ v, (ms v).cutting = true → ¬ (v < k ∧ Recolour (ms v)) → ¬ Eligible (ms' v) := by
    intro v hv hr he
    rcases (eligible_iff ms n layers s h v).1 he with hb | hb
    · rw [hb.1] at hv; cases hv
    · exact hr hb
  constructor
  · intro v
    unfold release
    rw [hext]
    by_cases hv : v = k
    · subst hv
      have hm : ms' v = ms v := by rw [h.meshes v, if_neg (by omega)]
      rw [hm]
      by_cases he : (ms v).hasExtruder = true
      · rw [if_pos ⟨rfl, he⟩, if_pos ⟨by omega, hc, he⟩]
      · rw [if_neg (fun hx => he hx.2), if_neg (fun hx => he hx.2.2)]
    · rw [if_neg (fun hx => hv hx.1), h.meshes v]
      have : v < k + 1 ↔ v < k := by omega
      simp only [this]
  · intro v hv l hkv hcv
    rw [hSn v hv (by omega) (hcut v hcv (by omega))]
    exact h.later v hv l (by omega) hcv
  · intro v hv l hcv hb
    have hvk : v ≠ k := by rintro rfl; rw [hc] at hcv; cases hcv
    rw [hSn v hv hvk]
    · exact h.other v hv l hcv hb
    · intro he
      rcases (eligible_iff ms n layers s h v).1 he with hb' | hb'
      · exact hb hb'
      · rw [hb'.2.1] at hcv; cases hcv
  · intro v hv l hl
    rw [hS v hv, if_neg (by omega)]
    exact h.high v hv l hl
  · intro v hv l hl hb p
    have hvk : v ≠ k := by rintro rfl; rw [hb.1] at hc; cases hc
    rw [hSe v hv hvk ((eligible_iff ms n layers s h v).2 (.inl hb)) l hl, h.base v hv l hl hb p]
    simp only [hit]
    constructor
    · rintro ⟨⟨h1, h2⟩, h3⟩
      refine ⟨h1, fun w hw => ?_⟩
      rcases hw with hw | hw
      · exact h2 w hw
      · exact h3 hw.2
    · rintro ⟨h1, h2⟩
      exact ⟨⟨h1, fun w hw => h2 w (.inl hw)⟩, fun hp => h2 k (.inr ⟨rfl, hp⟩)⟩
  · intro v hv l hl hkp p
    by_cases hvk : v = k
    · subst hvk
      exact hSk l hl p
    · rw [hSn v (by omega) hvk (hcut v hkp.1 (fun hx => hkp.2 hx.2))]
      exact h.keeps v (by omega) l hl hkp p
  · intro v hv l hl hr p
    by_cases hvk : v = k
    · subst hvk
      rw [hSk l hl p]
      simp only [hit]
      constructor
      · rintro ⟨h1, h2, h3⟩
        refine ⟨h1, h2, fun w hw => ?_⟩
        rcases hw with hw | ⟨rfl, _⟩
        · exact ⟨fun hx => h3 w hw.1 hx hw.2.2, hw.1.le⟩
        · exact ⟨fun hx => hx.2 hr, le_rfl⟩
      · rintro ⟨h1, h2, h3⟩
        exact ⟨h1, h2, fun w hw hx hp => (h3 w (.inl ⟨hw, hx.1, hp⟩)).1 hx⟩
    · have hv' : v < k := by omega
      rw [hSe v (by omega) hvk ((eligible_iff ms n layers s h v).2 (.inr ⟨hv', hr⟩)) l hl, h.recolour v hv' l hl hr p]
      simp only [hit]
      constructor
      · rintro ⟨⟨h1, h2, h3⟩, h4⟩
        refine ⟨h1, h2, fun w hw => ?_⟩
        rcases hw with hw | ⟨rfl, hp⟩
        · exact h3 w hw
        · exact absurd hp h4
      · rintro ⟨h1, h2, h3⟩
        refine ⟨⟨h1, h2, fun w hw => h3 w (.inl hw)⟩, fun hp => ?_⟩
        have := (h3 k (.inr ⟨rfl, hp⟩)).2
        omega

theorem cutFrom_inv : ∀ (m k : Nat), k + m = n → ∀ ms' s', CutInv ms n layers s k ms' s' →
    CutInv ms n layers s n (cutFrom n layers (printable ms n s) (List.range' k m) (ms', s')).1
      (cutFrom n layers (printable ms n s) (List.range' k m) (ms', s')).2 := by
  intro m
  induction m with
  | zero =>
    intro k hk ms' s' h
    have : k = n := by omega
    subst this
    exact h
  | succ m ih =>
    intro k hk ms' s' h
    rw [List.range'_succ]
    unfold cutFrom
    have hcut : (ms' k).cutting = (ms k).cutting := by rw [h.meshes k, if_neg (by omega)]
    by_cases hc : (ms k).cutting = false
    · rw [if_pos (by rw [hcut]; exact hc)]
      exact ih (k + 1) (by omega) ms' s' (cut_skip ms n layers s hc h)
    · rw [if_neg (by rw [hcut]; exact hc)]
      exact ih (k + 1) (by omega) _ _ (cut_step ms n layers s (by omega) (by simpa using hc) h)

theorem cut_inv : CutInv ms n layers s n (cut ms n layers s).1 (cut ms n layers s).2 := by
  have := cutFrom_inv ms n layers s n 0 (by omega) ms s (cut_start ms n layers s)
  rw [← List.range_eq_range'] at this
  exact this

end Cut

/-! ## Infill meshes -/

theorem times_append (p : Point) (a b : List Region) : times p (a ++ b) = times p a + times p b := by
  induction a with
  | nil => simp [times]
  | cons r rs ih => rw [List.cons_append, times, times, ih]; omega

theorem times_one (p : Point) (r : Region) (h : p ∈ r) : times p [r] = 1 := by
  rw [times, times, if_pos h]

theorem times_zero (p : Point) (r : Region) (h : p ∉ r) : times p [r] = 0 := by
  rw [times, times, if_neg h]

theorem times_cons (p : Point) (r : Region) (rs : List Region) : times p (r :: rs) = times p [r] + times p rs :=
  times_append p [r] rs

theorem claim_spec (box : AABB) : ∀ (ps : List Part), (∀ q ∈ ps, q.Ok) → ∀ (own : Region), (∀ x ∈ own, WithinFlat box x) →
    (claim box ps own).2 = own \ outlineOf ps ∧
      ∀ p, times p (claim box ps own).1 + times p [(claim box ps own).2] = times p [own] := by
  intro ps
  induction ps with
  | nil =>
    intro _ own _
    refine ⟨?_, fun p => ?_⟩
    · ext x; simp [claim, outlineOf]
    · show 0 + times p [own] = times p [own]
      omega
  | cons q ps ih =>
    intro hps own hown
    have hq := hps q (by simp)
    unfold claim
    by_cases hh : q.box.hit box = false
    · rw [if_pos hh]
      obtain ⟨i1, i2⟩ := ih (fun r hr => hps r (by simp [hr])) own hown
      refine ⟨?_, i2⟩
      rw [i1]
      ext x
      simp only [Set.mem_sdiff, outlineOf, Set.mem_ofPred_eq, List.exists_mem_cons_iff, not_or]
      constructor
      · rintro ⟨h1, h2⟩
        refine ⟨h1, fun hx => ?_, h2⟩
        rw [withinFlat_hit (hq.1 x hx) (hown x h1)] at hh
        cases hh
      · rintro ⟨h1, h2, h3⟩
        exact ⟨h1, h3⟩
    · rw [if_neg hh]
      obtain ⟨i1, i2⟩ := ih (fun r hr => hps r (by simp [hr])) (own \ q.outline) (fun x hx => hown x hx.1)
      refine ⟨?_, fun p => ?_⟩
      · dsimp only
        rw [i1]
        ext x
        simp only [Set.mem_sdiff, outlineOf, Set.mem_ofPred_eq, List.exists_mem_cons_iff, not_or]
        tauto
      · have := i2 p
        dsimp only
        rw [times_cons]
        by_cases h1 : p ∈ own <;> by_cases h2 : p ∈ q.outline
        · rw [times_zero p (own \ q.outline) (fun h => h.2 h2)] at this
          rw [times_one p (q.outline ∩ own) ⟨h2, h1⟩, times_one p own h1]
          omega
        · rw [times_one p (own \ q.outline) ⟨h1, h2⟩] at this
          rw [times_zero p (q.outline ∩ own) (fun h => h2 h.1), times_one p own h1]
          omega
        · rw [times_zero p (own \ q.outline) (fun h => h.2 h2)] at this
          rw [times_zero p (q.outline ∩ own) (fun h => h1 h.2), times_zero p own h1]
          omega
        · rw [times_zero p (own \ q.outline) (fun h => h1 h.1)] at this
          rw [times_zero p (q.outline ∩ own) (fun h => h2 h.1), times_zero p own h1]
          omega

theorem claimParts_spec (ps : List Part) (hps : ∀ q ∈ ps, q.Ok) : ∀ (m : List Part), (∀ q ∈ m, q.Ok) →
    (claimParts ps m).2 = m.map (fun q => { q with own := q.own \ outlineOf ps }) ∧
      ∀ p, times p (claimParts ps m).1 + times p ((claimParts ps m).2.map Part.own) = times p (m.map Part.own) := by
  intro m
  induction m with
  | nil => intro _; exact ⟨rfl, fun p => by simp [claimParts, times]⟩
  | cons q m ih =>
    intro hm
    obtain ⟨i1, i2⟩ := ih (fun r hr => hm r (by simp [hr]))
    obtain ⟨c1, c2⟩ := claim_spec q.box ps hps q.own (hm q (by simp)).2
    unfold claimParts
    dsimp only
    refine ⟨?_, fun p => ?_⟩
    · rw [i1, c1, List.map_cons]
    · have h1 := i2 p
      have h2 := c2 p
      rw [times_append, List.map_cons, List.map_cons, times_cons, times_cons p q.own]
      dsimp only
      omega

theorem claimMeshes_spec (ps : List Part) (hps : ∀ q ∈ ps, q.Ok) : ∀ (ms : List (List Part)), (∀ m ∈ ms, ∀ q ∈ m, q.Ok) →
    (claimMeshes ps ms).2 = ms.map (fun m => m.map fun q => { q with own := q.own \ outlineOf ps }) ∧
      ∀ p, times p (claimMeshes ps ms).1 + times p (infills (claimMeshes ps ms).2) = times p (infills ms) := by
  intro ms
  induction ms with
  | nil => intro _; exact ⟨rfl, fun p => by simp [claimMeshes, times, infills]⟩
  | cons m ms ih =>
    intro hms
    obtain ⟨i1, i2⟩ := ih (fun r hr => hms r (by simp [hr]))
    obtain ⟨c1, c2⟩ := claimParts_spec ps hps m (hms m (by simp))
    unfold claimMeshes
    dsimp only
    refine ⟨?_, fun p => ?_⟩
    · rw [i1, c1, List.map_cons]
    · have h1 := i2 p
      have h2 := c2 p
      simp only [infills, List.flatten_cons, List.map_append, times_append] at *
      omega

theorem times_owns (p : Point) (m : List Part) (h : ∀ q ∈ m, p ∈ q.own → p ∈ q.outline) :
    times p (m.map Part.own) ≤ times p (m.map Part.outline) := by
  induction m with
  | nil => simp [times]
  | cons q m ih =>
    have := ih (fun r hr => h r (by simp [hr]))
    simp only [List.map_cons, times]
    by_cases h1 : p ∈ q.own
    · rw [if_pos h1, if_pos (h q (by simp) h1)]; omega
    · rw [if_neg h1]; split <;> omega

end Verif.Volumes
