import Verif.Support.Lemmas

/-! # The support interface (C77) -/

namespace Verif.Support

open Verif.Volumes (Point Region times times_cons times_append times_one times_zero)

theorem times_pos {p : Point} {rs : List Region} : 0 < times p rs ↔ p ∈ solid rs := by
  induction rs with
  | nil =>
    constructor
    · intro h; simp [times] at h
    · rintro ⟨r, hr, _⟩; cases hr
  | cons r rs ih =>
    rw [times_cons]
    by_cases h : p ∈ r
    · rw [times_one p r h]
      exact ⟨fun _ => ⟨r, List.mem_cons_self, h⟩, fun _ => by omega⟩
    · rw [times_zero p r h, Nat.zero_add, ih]
      constructor
      · rintro ⟨x, hx, hp⟩; exact ⟨x, List.mem_cons_of_mem _ hx, hp⟩
      · rintro ⟨x, hx, hp⟩
        rcases List.mem_cons.1 hx with rfl | hx
        · exact absurd hp h
        · exact ⟨x, hx, hp⟩

theorem times_nil (p : Point) : times p [] = 0 := rfl

theorem solid_append {p : Point} {a b : List Region} : p ∈ solid (a ++ b) ↔ p ∈ solid a ∨ p ∈ solid b := by
  simp only [solid, Set.mem_ofPred_eq, List.mem_append, or_and_right, exists_or]

theorem solid_single {p : Point} {r : Region} : p ∈ solid [r] ↔ p ∈ r := by
  simp [solid]

section
variable {ops : Ops} {keep : Rat} (ok : ops.Ok keep)
include ok

theorem interface_subset (width offset : Int) (area : Rat) (model support : Region) :
    interface ops width offset area model support ⊆ support := by
  unfold interface
  dsimp only
  have key : ∀ r : Region, r ⊆ support →
      (if offset = 0 then r else if offset > 0 then ops.offset offset r ∩ support else ops.offset offset r) ⊆ support := by
    intro r hr
    split
    · exact hr
    · split
      · exact fun _ h => h.2
      · have := ok.shrink (-offset) r (by omega)
        rw [Int.neg_neg] at this
        exact fun _ h => hr (this h)
  split
  · exact fun _ h => key _ (fun _ h => h.2) (ok.small _ _ h)
  · exact key _ fun _ h => h.2

/-- Where the model is there is interface, unless small areas of it are removed or it is made smaller. -/
theorem interface_model {width offset : Int} {area : Rat} {model support : Region} (hw : 0 ≤ width) (ho : 0 ≤ offset)
    (ha : area ≤ 0) {p : Point} (hm : p ∈ model) (hs : p ∈ support) :
    p ∈ interface ops width offset area model support := by
  unfold interface
  dsimp only
  rw [if_neg (not_lt.2 ha)]
  have h1 : p ∈ ops.offset width (ops.offset (width.tdiv 2) support ∩ model) ∩ support :=
    ⟨grow_self ok hw _ ⟨grow_self ok (Int.tdiv_nonneg hw (by decide)) _ hs, hm⟩, hs⟩
  split
  · exact h1
  · rw [if_pos (by omega)]
    exact ⟨grow_self ok ho _ h1, hs⟩

/-- How two stages of the division are related on a layer. -/
structure Later (n l : Nat) (p : Point) (s t : Split) : Prop where
  areas : p ∈ t.areas l → p ∈ s.areas l
  roofs : p ∈ solid (s.roofs l) → p ∈ solid (t.roofs l)
  bottoms : p ∈ solid (s.bottoms l) → p ∈ solid (t.bottoms l)
  once : times p (s.areas l :: (s.roofs l ++ s.bottoms l)) ≤ 1 → times p (t.areas l :: (t.roofs l ++ t.bottoms l)) ≤ 1
  inside : p ∉ s.areas l → p ∈ solid (t.roofs l ++ t.bottoms l) → p ∈ solid (s.roofs l ++ s.bottoms l)

omit ok in
theorem Later.refl (n l : Nat) (p : Point) (s : Split) : Later n l p s s := ⟨id, id, id, id, fun _ h => h⟩

omit ok in
theorem Later.trans {n l : Nat} {p : Point} {s t u : Split} (h1 : Later n l p s t) (h2 : Later n l p t u) : Later n l p s u :=
  ⟨h1.areas ∘ h2.areas, h2.roofs ∘ h1.roofs, h2.bottoms ∘ h1.bottoms, h2.once ∘ h1.once,
    fun ha h => h1.inside ha (h2.inside (fun h' => ha (h1.areas h')) h)⟩

theorem addRoof_later (m : Interface) (n l : Nat) (p : Point) (s : Split) : Later n l p s (addRoof ops m n s) := by
  unfold addRoof
  dsimp only
  split
  · exact Later.refl n l p s
  · have hsub := interface_subset ok m.roofWidth m.roofOffset m.roofArea
      (outlines m.own (l + m.roofGap) (min (n - 1) (l + m.roofLayers + m.roofGap))) (s.areas l)
    change roofOn ops m n s.areas l ⊆ s.areas l at hsub
    constructor <;> dsimp only
    · intro h
      have := h.1
      split at this
      · exact this.1
      · exact this
    · intro h
      split
      · exact solid_append.2 (.inl h)
      · exact h
    · exact id
    · intro h
      rw [times_cons, times_append] at *
      by_cases hl : l < n - m.roofGap
      · simp only [hl, if_true]
        rw [times_append]
        by_cases hr : p ∈ roofOn ops m n s.areas l
        · rw [times_one p _ hr, times_zero p _ fun h' => h'.1.2 hr]
          rw [times_one p _ (hsub hr)] at h
          omega
        · rw [times_zero p _ hr]
          by_cases ha : p ∈ s.areas l
          · rw [times_one p _ ha] at h
            have : times p [(s.areas l \ roofOn ops m n s.areas l) \ capped m n (fun l => if l < n - m.roofGap then
                s.roofs l ++ [roofOn ops m n s.areas l] else s.roofs l) l] ≤ 1 := by
              by_cases hx : p ∈ (s.areas l \ roofOn ops m n s.areas l) \ capped m n (fun l => if l < n - m.roofGap then
                s.roofs l ++ [roofOn ops m n s.areas l] else s.roofs l) l
              · rw [times_one p _ hx]
              · rw [times_zero p _ hx]; omega
            omega
          · rw [times_zero p _ fun h' => ha h'.1.1]
            rw [times_zero p _ ha] at h
            omega
      · simp only [hl, if_false]
        by_cases ha : p ∈ s.areas l
        · rw [times_one p _ ha] at h
          have : times p [s.areas l \ capped m n (fun l => if l < n - m.roofGap then
                s.roofs l ++ [roofOn ops m n s.areas l] else s.roofs l) l] ≤ 1 := by
            by_cases hx : p ∈ s.areas l \ capped m n (fun l => if l < n - m.roofGap then
                s.roofs l ++ [roofOn ops m n s.areas l] else s.roofs l) l
            · rw [times_one p _ hx]
            · rw [times_zero p _ hx]; omega
          omega
        · rw [times_zero p _ fun h' => ha h'.1]
          rw [times_zero p _ ha] at h
          omega
    · intro ha h
      rw [solid_append] at *
      rcases h with h | h
      · split at h
        · rcases solid_append.1 h with h | h
          · exact .inl h
          · exact absurd (hsub (solid_single.1 h)) ha
        · exact .inl h
      · exact .inr h

theorem addBottom_later (m : Interface) (n l : Nat) (p : Point) (s : Split) : Later n l p s (addBottom ops m n s) := by
  unfold addBottom
  split
  · exact Later.refl n l p s
  · have hsub := interface_subset ok m.bottomWidth m.bottomOffset m.bottomArea
      (outlines m.own (l - m.bottomLayers - m.bottomGap) (l - m.bottomGap)) (s.areas l)
    change bottomOn ops m s.areas l ⊆ s.areas l at hsub
    constructor <;> dsimp only
    · intro h
      split at h
      · exact h.1
      · exact h
    · exact id
    · intro h
      split
      · exact solid_append.2 (.inl h)
      · exact h
    · intro h
      rw [times_cons, times_append] at *
      by_cases hl : m.bottomGap ≤ l ∧ l < n
      · simp only [hl, and_self, if_true]
        rw [times_append]
        by_cases hr : p ∈ bottomOn ops m s.areas l
        · rw [times_one p _ hr, times_zero p _ fun h' => h'.2 hr]
          rw [times_one p _ (hsub hr)] at h
          omega
        · rw [times_zero p _ hr]
          by_cases ha : p ∈ s.areas l
          · rw [times_one p _ ha] at h
            have hx : p ∈ s.areas l \ bottomOn ops m s.areas l := ⟨ha, hr⟩
            rw [times_one p _ hx]
            omega
          · rw [times_zero p _ fun h' => ha h'.1]
            rw [times_zero p _ ha] at h
            omega
      · simp only [hl, if_false]
        exact h
    · intro ha h
      rw [solid_append] at *
      rcases h with h | h
      · exact .inl h
      · split at h
        · rcases solid_append.1 h with h | h
          · exact .inr h
          · exact absurd (hsub (solid_single.1 h)) ha
        · exact .inr h

theorem addInterface_later (m : Interface) (n l : Nat) (p : Point) (s : Split) :
    Later n l p s (addInterface ops n s m) := by
  unfold addInterface
  dsimp only
  have h1 : Later n l p s (if m.roof then addRoof ops m n s else s) := by
    split
    · exact addRoof_later ok m n l p s
    · exact Later.refl n l p s
  split
  · exact h1.trans (addBottom_later ok m n l p _)
  · exact h1

theorem fold_later (n l : Nat) (p : Point) : ∀ (ms : List Interface) (s : Split),
    Later n l p s (ms.foldl (addInterface ops n) s)
  | [], s => Later.refl n l p s
  | m :: ms, s => by
    rw [List.foldl_cons]
    exact (addInterface_later ok m n l p s).trans (fold_later n l p ms _)

/-- C77. On every layer a point is printed at most once: as one part of the support infill, as roof or as bottom. -/
theorem C77_once (islands : Region → List Region) (hi : IslandsOk islands) (n : Nat) (areas overhang : Nat → Region)
    (ms : List Interface) (l : Nat) (p : Point) :
    times p (parts islands n (split ops n areas ms).areas overhang l ++ (split ops n areas ms).roofs l ++
      (split ops n areas ms).bottoms l) ≤ 1 := by
  have h := (fold_later ok n l p ms ⟨areas, fun _ => [], fun _ => []⟩).once (by
    dsimp only
    rw [List.append_nil]
    by_cases h : p ∈ areas l
    · rw [times_one p _ h]
    · rw [times_zero p _ h]; omega)
  change times p ((split ops n areas ms).areas l :: ((split ops n areas ms).roofs l ++ (split ops n areas ms).bottoms l)) ≤ 1
    at h
  set s := split ops n areas ms
  rw [times_cons, times_append] at h
  rw [times_append, times_append]
  have : times p (parts islands n s.areas overhang l) ≤ times p [s.areas l] := by
    unfold parts
    split
    · rw [times_append, hi, hi]
      by_cases h1 : p ∈ s.areas l <;> by_cases h2 : p ∈ overhang l
      · rw [times_one p (s.areas l ∩ overhang l) ⟨h1, h2⟩, times_zero p _ fun h' => h'.2 h2, times_one p _ h1]
      · rw [times_zero p _ fun h' => h2 h'.2, times_one p (s.areas l \ overhang l) ⟨h1, h2⟩, times_one p _ h1]
      · rw [times_zero p _ fun h' => h1 h'.1, times_zero p _ fun h' => h1 h'.1, times_zero p _ h1]
      · rw [times_zero p _ fun h' => h1 h'.1, times_zero p _ fun h' => h1 h'.1, times_zero p _ h1]
    · exact Nat.zero_le _
  omega

/-- C77. The interface and the infill are where support was found to be needed, and nowhere else. -/
theorem C77_inside (islands : Region → List Region) (hi : IslandsOk islands) (n : Nat) (areas overhang : Nat → Region)
    (ms : List Interface) (l : Nat) (p : Point)
    (h : p ∈ solid (parts islands n (split ops n areas ms).areas overhang l ++ (split ops n areas ms).roofs l ++
      (split ops n areas ms).bottoms l)) : p ∈ areas l := by
  have hl := fold_later ok n l p ms ⟨areas, fun _ => [], fun _ => []⟩
  change Later n l p _ (split ops n areas ms) at hl
  by_contra hc
  rw [List.append_assoc, solid_append] at h
  rcases h with h | h
  · refine hc (hl.areas ?_)
    unfold parts at h
    split at h
    · rcases solid_append.1 h with h | h
      · rw [← times_pos, hi, times_pos, solid_single] at h
        exact h.1
      · rw [← times_pos, hi, times_pos, solid_single] at h
        exact h.1
    · obtain ⟨_, h, _⟩ := h; cases h
  · obtain ⟨_, h, _⟩ := hl.inside hc h
    cases h

/-- C77. All of the support is printed, except for what is above a roof, where a model must be close. -/
theorem C77_cover (islands : Region → List Region) (hi : IslandsOk islands) (n : Nat) (areas overhang : Nat → Region)
    (ms : List Interface) (l : Nat) (hl : l + 1 < n) (p : Point) (h : p ∈ areas l) :
    p ∈ solid (parts islands n (split ops n areas ms).areas overhang l ++ (split ops n areas ms).roofs l ++
      (split ops n areas ms).bottoms l) ∨
    ∃ m ∈ ms, ∃ k, 1 ≤ k ∧ k ≤ l ∧ l < k + m.roofLayers + m.roofGap + 5 ∧ p ∈ solid ((split ops n areas ms).roofs k) := by
  have key : ∀ (ms : List Interface) (s : Split),
      p ∈ s.areas l ∨ p ∈ solid (s.roofs l ++ s.bottoms l) →
      let t := ms.foldl (addInterface ops n) s
      (p ∈ t.areas l ∨ p ∈ solid (t.roofs l ++ t.bottoms l)) ∨
        ∃ m ∈ ms, ∃ k, 1 ≤ k ∧ k ≤ l ∧ l < k + m.roofLayers + m.roofGap + 5 ∧ p ∈ solid (t.roofs k) := by
    intro ms
    induction ms with
    | nil => intro s h; exact .inl h
    | cons m ms ih =>
      intro s hs
      dsimp only
      rw [List.foldl_cons]
      -- the roof of the mesh
      have h1 : (p ∈ (if m.roof then addRoof ops m n s else s).areas l ∨
          p ∈ solid ((if m.roof then addRoof ops m n s else s).roofs l ++ (if m.roof then addRoof ops m n s else s).bottoms l)) ∨
          ∃ k, 1 ≤ k ∧ k ≤ l ∧ l < k + m.roofLayers + m.roofGap + 5 ∧
            p ∈ solid ((if m.roof then addRoof ops m n s else s).roofs k) := by
        split
        · have hlat := addRoof_later ok m n l p s
          rcases hs with hs | hs
          · unfold addRoof
            split
            · exact .inl (.inl hs)
            · dsimp only
              by_cases hcap : p ∈ capped m n (fun l => if l < n - m.roofGap then s.roofs l ++ [roofOn ops m n s.areas l]
                  else s.roofs l) l
              · obtain ⟨k, g1, g2, g3, g4, g5⟩ := hcap
                exact .inr ⟨k, g1, g3, by omega, g5⟩
              · left
                by_cases hln : l < n - m.roofGap
                · simp only [hln, if_true]
                  by_cases hr : p ∈ roofOn ops m n s.areas l
                  · right
                    rw [solid_append, solid_append]
                    exact .inl (.inr (solid_single.2 hr))
                  · exact .inl ⟨⟨hs, hr⟩, hcap⟩
                · simp only [hln, if_false]
                  exact .inl ⟨hs, hcap⟩
          · rw [solid_append] at hs
            left
            right
            rw [solid_append]
            exact hs.imp hlat.roofs hlat.bottoms
        · exact .inl hs
      -- the bottom of the mesh
      have h2 : ∀ s : Split, (p ∈ s.areas l ∨ p ∈ solid (s.roofs l ++ s.bottoms l)) →
          p ∈ (if m.bottom then addBottom ops m n s else s).areas l ∨
          p ∈ solid ((if m.bottom then addBottom ops m n s else s).roofs l ++
            (if m.bottom then addBottom ops m n s else s).bottoms l) := by
        intro s hs
        split
        · have hlat := addBottom_later ok m n l p s
          rcases hs with hs | hs
          · unfold addBottom
            split
            · exact .inl hs
            · dsimp only
              by_cases hln : m.bottomGap ≤ l ∧ l < n
              · simp only [hln, and_self, if_true]
                by_cases hr : p ∈ bottomOn ops m s.areas l
                · right
                  rw [solid_append, solid_append]
                  exact .inr (.inr (solid_single.2 hr))
                · exact .inl ⟨hs, hr⟩
              · simp only [hln, if_false]
                exact .inl hs
          · rw [solid_append] at hs
            right
            rw [solid_append]
            exact hs.imp hlat.roofs hlat.bottoms
        · exact hs
      rcases h1 with h1 | ⟨k, g1, g2, g3, g4⟩
      · rcases ih (addInterface ops n s m) (h2 _ h1) with h | ⟨m', hm', h⟩
        · exact .inl h
        · exact .inr ⟨m', List.mem_cons_of_mem _ hm', h⟩
      · right
        refine ⟨m, List.mem_cons_self, k, g1, g2, g3, (fold_later ok n k p ms _).roofs ?_⟩
        unfold addInterface
        dsimp only
        split
        · exact (addBottom_later ok m n k p _).roofs g4
        · exact g4
  rcases key ms ⟨areas, fun _ => [], fun _ => []⟩ (.inl h) with h | h
  · left
    change p ∈ (split ops n areas ms).areas l ∨ p ∈ solid ((split ops n areas ms).roofs l ++ (split ops n areas ms).bottoms l)
      at h
    rw [List.append_assoc, solid_append]
    rcases h with h | h
    · left
      unfold parts
      rw [if_pos hl, solid_append, ← times_pos, ← times_pos, hi, hi, times_pos, times_pos, solid_single, solid_single]
      by_cases h2 : p ∈ overhang l
      · exact .inl ⟨h, h2⟩
      · exact .inr ⟨h, h2⟩
    · exact .inr h
  · exact .inr h

/-- C77. Support that is left as infill is not close below a mesh with roofs: these take the distance below the mesh that
is set and the number of layers that is set. Small roofs may be left out, and so may parts of roofs that are made smaller. -/
theorem C77_roof_partial (n : Nat) (areas : Nat → Region) (ms : List Interface) (m : Interface) (hm : m ∈ ms)
    (hr : m.roof = true) (hw : 0 ≤ m.roofWidth) (ho : 0 ≤ m.roofOffset) (ha : m.roofArea ≤ 0) (h0 : 0 < m.roofLayers)
    (l : Nat) (p : Point) (h : p ∈ (split ops n areas ms).areas l) :
    ∀ k, l + m.roofGap ≤ k → k ≤ l + m.roofGap + m.roofLayers → k < n → p ∉ m.own k := by
  intro k h1 h2 h3 hk
  obtain ⟨pre, post, rfl⟩ := List.append_of_mem hm
  unfold split at h
  rw [List.foldl_append, List.foldl_cons] at h
  set s := pre.foldl (addInterface ops n) ⟨areas, fun _ => [], fun _ => []⟩
  have h4 := (fold_later ok n l p post _).areas h
  unfold addInterface at h4
  dsimp only at h4
  rw [if_pos hr] at h4
  have h5 : p ∈ (addRoof ops m n s).areas l := by
    split at h4
    · exact (addBottom_later ok m n l p _).areas h4
    · exact h4
  have h6 := (addRoof_later ok m n l p s).areas h5
  unfold addRoof at h5
  rw [if_neg (by omega)] at h5
  dsimp only at h5
  have h7 := h5.1
  rw [if_pos (by omega)] at h7
  exact h7.2 (interface_model ok hw ho ha ⟨k, h1, by omega, hk⟩ h6)

/-- C77. Support that is left as infill is not close above a mesh with support bottoms. -/
theorem C77_bottom_partial (n : Nat) (areas : Nat → Region) (ms : List Interface) (m : Interface) (hm : m ∈ ms)
    (hr : m.bottom = true) (hw : 0 ≤ m.bottomWidth) (ho : 0 ≤ m.bottomOffset) (ha : m.bottomArea ≤ 0)
    (h0 : 0 < m.bottomLayers) (l : Nat) (hl : l < n) (p : Point) (h : p ∈ (split ops n areas ms).areas l) :
    ∀ k, k + m.bottomGap ≤ l → l ≤ k + m.bottomGap + m.bottomLayers → p ∉ m.own k := by
  intro k h1 h2 hk
  obtain ⟨pre, post, rfl⟩ := List.append_of_mem hm
  unfold split at h
  rw [List.foldl_append, List.foldl_cons] at h
  set s := pre.foldl (addInterface ops n) ⟨areas, fun _ => [], fun _ => []⟩
  have h4 := (fold_later ok n l p post _).areas h
  unfold addInterface at h4
  dsimp only at h4
  rw [if_pos hr] at h4
  set t := if m.roof = true then addRoof ops m n s else s
  have h6 := (addBottom_later ok m n l p t).areas h4
  unfold addBottom at h4
  rw [if_neg (by omega)] at h4
  dsimp only at h4
  rw [if_pos (by omega)] at h4
  exact h4.2 (interface_model ok hw ho ha ⟨k, by omega, by omega, hk⟩ h6)

end

end Verif.Support
