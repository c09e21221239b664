import Verif.Skin.Lemmas

/-! # Skin and infill areas (C68 to C70) -/

namespace Verif.Skin

open Verif.Box (AABB)
open Verif.Volumes (Point Region WithinFlat)

/-! ## C68: skin and infill -/

section Areas

variable (ops : Ops) (hops : ops.Ok) (c : Config) (layers : List (List Part)) (l : Nat) (q : Part)

/-- Skin and infill do not overlap. -/
theorem C68_disjoint (hops : ops.Ok) : (partAreas ops c layers l q).1 ∩ (partAreas ops c layers l q).2 = ∅ := by
  ext p
  simp only [Set.mem_inter_iff, Set.mem_empty_iff_false, iff_false]
  rintro ⟨h1, h2⟩
  unfold partAreas areas at h1 h2
  dsimp only at h1 h2
  have h2' : p ∈ (q.inner \ ops.small (rawSkin ops c (outlineOn layers q.box) layers.length l q.inner)) \
      gapFill ops c.lineWidth (ops.small (rawSkin ops c (outlineOn layers q.box) layers.length l q.inner))
        (q.inner \ ops.small (rawSkin ops c (outlineOn layers q.box) layers.length l q.inner)) := by
    split at h2
    · exact hops.small _ h2
    · exact h2
  rcases h1 with h1 | h1
  · exact h2'.1.2 h1
  · exact h2'.2 h1

/-- Everything inside the walls is skin or infill, except for small areas that would be infill. -/
theorem C68_cover (p : Point) (hp : p ∈ q.inner) : p ∈ (partAreas ops c layers l q).1 ∨ p ∈ (partAreas ops c layers l q).2 ∨
    (c.infill = true ∧ p ∉ ops.small (q.inner \ (partAreas ops c layers l q).1)) := by
  unfold partAreas areas
  dsimp only
  generalize hs : ops.small (rawSkin ops c (outlineOn layers q.box) layers.length l q.inner) = s
  generalize hg : gapFill ops c.lineWidth s (q.inner \ s) = g
  by_cases h1 : p ∈ s ∪ g
  · exact .inl h1
  · right
    have e : q.inner \ (s ∪ g) = (q.inner \ s) \ g := by
      ext x
      simp only [Set.mem_sdiff, Set.mem_union, not_or, and_assoc]
    rw [e]
    have h2 : p ∈ (q.inner \ s) \ g := ⟨⟨hp, fun h => h1 (.inl h)⟩, fun h => h1 (.inr h)⟩
    cases c.infill with
    | false => left; simpa using h2
    | true =>
      by_cases h3 : p ∈ ops.small ((q.inner \ s) \ g)
      · left; simpa using h3
      · right; exact ⟨rfl, h3⟩

/-- Infill is inside the walls. -/
theorem C68_inside (hops : ops.Ok) : (partAreas ops c layers l q).2 ⊆ q.inner := by
  unfold partAreas areas
  dsimp only
  split
  · exact fun x hx => (hops.small _ hx).1.1
  · exact fun x hx => hx.1.1

/-- No infill is less than the number of top layers below a surface, or less than the number of bottom layers above one,
except where the whole exposed area there is too small. Missing: settings that remove thin skin (`skin_preshrink`),
shrink it or ignore gaps, which are there to allow this. -/
theorem C68_hidden_partial (hops : ops.Ok) (hmesh : MeshOk layers) (hq : q ∈ layers.getD l []) (hg : c.gaps = false)
    (ht : c.topPreshrink = 0) (hb : c.bottomPreshrink = 0) (hte : 0 ≤ c.topExpand) (hbe : 0 ≤ c.bottomExpand) (p : Point)
    (hp : p ∈ (partAreas ops c layers l q).2) :
    p ∉ ops.small (q.inner ∩ Exposed c.top c.bottom c.initialBottom layers l) := by
  intro hin
  have hsub := rawSkin_sup ops hops c layers l q hmesh hq hg ht hb hte hbe
  have hskin := hops.smallMono _ _ hsub hin
  unfold partAreas areas at hp
  dsimp only at hp
  have hp' : p ∈ (q.inner \ ops.small (rawSkin ops c (outlineOn layers q.box) layers.length l q.inner)) \
      gapFill ops c.lineWidth (ops.small (rawSkin ops c (outlineOn layers q.box) layers.length l q.inner))
        (q.inner \ ops.small (rawSkin ops c (outlineOn layers q.box) layers.length l q.inner)) := by
    split at hp
    · exact hops.small _ hp
    · exact hp
  exact hp'.1.2 hskin

/-- Without expansion, skin is only made where a surface is so near, and in gaps next to that. -/
theorem C68_needed_partial (hops : ops.Ok) (hmesh : MeshOk layers) (hq : q ∈ layers.getD l []) (hg : c.gaps = false)
    (hm : c.minInfill = false) (hte : c.topExpand = 0) (hbe : c.bottomExpand = 0) (ht : c.topPreshrink = 0)
    (hb : c.bottomPreshrink = 0) (p : Point) (hp : p ∈ (partAreas ops c layers l q).1) :
    p ∈ q.inner ∩ Exposed c.top c.bottom c.initialBottom layers l ∨
      p ∈ nearGaps ops c.lineWidth q.inner (ops.small (q.inner ∩ Exposed c.top c.bottom c.initialBottom layers l)) := by
  have hsub := rawSkin_sub ops c layers l q hmesh hq hg hm hte hbe ht hb
  have heq := hsub.antisymm (rawSkin_sup ops hops c layers l q hmesh hq hg ht hb hte.ge hbe.ge)
  unfold partAreas areas at hp
  dsimp only at hp
  rcases hp with hp | hp
  · exact .inl (hsub (hops.small _ hp))
  · right
    rw [← heq]
    exact hp

end Areas

/-! ## C69: roofing and flooring -/

section Fill

variable (ops : Ops) (c : FillConfig) (layers : List (List Part)) (l : Nat) (q : Part) (outline : Region)

/-- Every point of the skin is printed as normal skin, roofing or flooring, whatever the overlap is and whether thin
areas are merged. Missing: points with air somewhere above them within the roofing layers, and below them within the
flooring layers but not directly below them, if there are both roofing and flooring
(`C69_hole_counterexample`). -/
theorem C69_cover_partial (hops : ops.Ok) (hmesh : MeshOk layers) (hq : q ∈ layers.getD l []) (hg : c.gaps = false)
    (ho : 0 ≤ c.overlap) (p : Point) (hp : p ∈ outline) (hin : p ∈ q.outline) (hplate : p ∈ c.plate)
    (h : c.hasRoofing = true → c.hasFlooring = true → 0 < l →
      SolidAbove layers l c.roofing p ∨ SolidBelow layers l c.flooring p ∨ ¬ Solid layers (l - 1) p) :
    p ∈ (fill ops c (outlineOn layers q.box) l outline).skin ∨ p ∈ (fill ops c (outlineOn layers q.box) l outline).roofing ∨
      p ∈ (fill ops c (outlineOn layers q.box) l outline).flooring := by
  apply fill_cover ops hops c ho
  unfold divide
  dsimp only
  generalize hA : (if c.hasRoofing then filledAbove c (outlineOn layers q.box) l else c.plate) = A
  generalize hB : (if c.hasFlooring then filledBelow c (outlineOn layers q.box) l else c.plate) = B
  generalize hR : (if c.hasRoofing then (if c.expansion > 0 then
    ops.offset c.expansion ((outline ∩ B) \ A) ∩ (outline ∩ B) else (outline ∩ B) \ A) else ∅) = R
  by_cases hpB : p ∈ B
  · by_cases hpR : p ∈ R
    · exact .inr (.inl hpR)
    · exact .inl ⟨⟨hp, hpR⟩, hpB⟩
  · right; right
    cases hf : c.hasFlooring with
    | false =>
      rw [hf] at hB
      exact absurd (hB ▸ hplate) hpB
    | true =>
      rw [hf, if_pos rfl] at hB
      have hf0 : 0 < c.flooring := by
        simp only [FillConfig.hasFlooring, Bool.and_eq_true, decide_eq_true_eq] at hf
        exact hf.1
      have hB' : ¬ SolidBelow layers l c.flooring p := by
        rw [← mem_filledBelow c hg hmesh hq hin hf0 hplate, hB]
        exact hpB
      have hl : 0 < l := by
        by_contra h0
        exact hB' (.inl (by omega))
      rw [if_pos rfl]
      refine ⟨⟨hp, ?_⟩, hpB⟩
      cases hr : c.hasRoofing with
      | false =>
        rw [hr] at hA
        exact hA ▸ hplate
      | true =>
        rw [hr, if_pos rfl] at hA
        have hr0 : 0 < c.roofing := by
          simp only [FillConfig.hasRoofing, Bool.and_eq_true, decide_eq_true_eq] at hr
          exact hr.1
        rw [← hA, mem_filledAbove c hg hmesh hq hin hr0]
        rcases h hr hf hl with h | h | h
        · exact .inl h
        · exact absurd h hB'
        · exact .inr ⟨hl, h⟩

/-- With at most one layer of flooring, all of the skin is printed. -/
theorem C69_cover_single (hops : ops.Ok) (hmesh : MeshOk layers) (hq : q ∈ layers.getD l []) (hg : c.gaps = false)
    (ho : 0 ≤ c.overlap) (hfl : c.flooring ≤ 1) (p : Point) (hp : p ∈ outline) (hin : p ∈ q.outline) (hplate : p ∈ c.plate) :
    p ∈ (fill ops c (outlineOn layers q.box) l outline).skin ∨ p ∈ (fill ops c (outlineOn layers q.box) l outline).roofing ∨
      p ∈ (fill ops c (outlineOn layers q.box) l outline).flooring := by
  refine C69_cover_partial ops c layers l q outline hops hmesh hq hg ho p hp hin hplate (fun _ _ _ => ?_)
  by_cases h : Solid layers (l - 1) p
  · refine .inr (.inl (.inr fun k hk1 hk2 => ?_))
    have : k = 1 := by omega
    rwa [this]
  · exact .inr (.inr h)

/-- No point is printed as roofing and as flooring, and without overlap none is printed twice. -/
theorem C69_disjoint (hops : ops.Ok) (f : Nat → Region) (p : Point) :
    ¬ (p ∈ (fill ops c f l outline).roofing ∧ p ∈ (fill ops c f l outline).flooring) ∧
      (c.overlap = 0 → ¬ (p ∈ (fill ops c f l outline).skin ∧ p ∈ (fill ops c f l outline).roofing) ∧
        ¬ (p ∈ (fill ops c f l outline).skin ∧ p ∈ (fill ops c f l outline).flooring)) := by
  unfold fill
  dsimp only
  refine ⟨fun h => h.2.2 h.1, fun h0 => ?_⟩
  rw [h0]
  exact ⟨fun h => h.1.1.2 (hops.shrink 0 _ le_rfl h.2), fun h => h.1.2 (hops.shrink 0 _ le_rfl h.2.1)⟩

/-- Roofing is the skin with air above within the roofing layers and not directly below, and not with air below within
the flooring layers if there is flooring. Without expansion, overlap and merging. -/
theorem C69_roofing (hops : ops.Ok) (hmesh : MeshOk layers) (hq : q ∈ layers.getD l []) (hg : c.gaps = false)
    (ho : c.overlap = 0) (he : c.expansion = 0) (hm : c.merge = 0) (p : Point) (hp : p ∈ outline) (hin : p ∈ q.outline)
    (hplate : p ∈ c.plate) : p ∈ (fill ops c (outlineOn layers q.box) l outline).roofing ↔
      c.hasRoofing = true ∧ ¬ SolidAbove layers l c.roofing p ∧ (0 < l → Solid layers (l - 1) p) ∧
        (c.hasFlooring = true → SolidBelow layers l c.flooring p) := by
  have e : p ∈ (fill ops c (outlineOn layers q.box) l outline).roofing ↔
      p ∈ (divide ops c (outlineOn layers q.box) l outline).roofing := by
    unfold fill
    dsimp only
    rw [ho, hm]
    simp only [gt_iff_lt, lt_self_iff_false, if_false]
    exact ⟨fun h => hops.shrink 0 _ le_rfl h, fun h => hops.grow 0 _ le_rfl h⟩
  rw [e]
  unfold divide
  dsimp only
  rw [he]
  simp only [gt_iff_lt, lt_self_iff_false, if_false]
  cases hr : c.hasRoofing with
  | false => simp
  | true =>
    have hr0 : 0 < c.roofing := by
      simp only [FillConfig.hasRoofing, Bool.and_eq_true, decide_eq_true_eq] at hr
      exact hr.1
    simp only [if_true, true_and]
    have hB : p ∈ (if c.hasFlooring = true then filledBelow c (outlineOn layers q.box) l else c.plate) ↔
        (c.hasFlooring = true → SolidBelow layers l c.flooring p) := by
      cases hf : c.hasFlooring with
      | false => simp [hplate]
      | true =>
        have hf0 : 0 < c.flooring := by
          simp only [FillConfig.hasFlooring, Bool.and_eq_true, decide_eq_true_eq] at hf
          exact hf.1
        simp only [if_true, true_imp_iff]
        exact mem_filledBelow c hg hmesh hq hin hf0 hplate
    rw [Set.mem_sdiff, Set.mem_inter_iff, hB, mem_filledAbove c hg hmesh hq hin hr0]
    constructor
    · rintro ⟨⟨_, h1⟩, h2⟩
      refine ⟨fun h => h2 (.inl h), fun hl => ?_, h1⟩
      by_contra h3
      exact h2 (.inr ⟨hl, h3⟩)
    · rintro ⟨h1, h2, h3⟩
      refine ⟨⟨hp, h3⟩, ?_⟩
      rintro (h | h)
      · exact h1 h
      · exact h.2 (h2 h.1)

/-- Flooring is the skin with air below within the flooring layers, if there is roofing only without air above within
the roofing layers unless it is directly above air. Without overlap and merging. -/
theorem C69_flooring (hops : ops.Ok) (hmesh : MeshOk layers) (hq : q ∈ layers.getD l []) (hg : c.gaps = false)
    (ho : c.overlap = 0) (hm : c.merge = 0) (p : Point) (hp : p ∈ outline) (hin : p ∈ q.outline)
    (hplate : p ∈ c.plate) : p ∈ (fill ops c (outlineOn layers q.box) l outline).flooring ↔
      c.hasFlooring = true ∧ ¬ SolidBelow layers l c.flooring p ∧
        (c.hasRoofing = true → SolidAbove layers l c.roofing p ∨ ¬ Solid layers (l - 1) p) := by
  have hdiv : ∀ r, r = divide ops c (outlineOn layers q.box) l outline → p ∈ r.flooring → p ∉ r.roofing := by
    rintro r rfl h1 h2
    unfold divide at h1 h2
    dsimp only at h1 h2
    cases hf : c.hasFlooring with
    | false => rw [hf] at h1; exact h1.elim
    | true =>
      cases hr : c.hasRoofing with
      | false => rw [hr] at h2; exact h2.elim
      | true =>
        rw [hr, hf] at h1
        rw [hr, hf] at h2
        simp only [if_true] at h1 h2
        refine h1.2 ?_
        split at h2
        · exact h2.2.2
        · exact h2.1.2
  have e : p ∈ (fill ops c (outlineOn layers q.box) l outline).flooring ↔
      p ∈ (divide ops c (outlineOn layers q.box) l outline).flooring := by
    unfold fill
    dsimp only
    rw [ho, hm]
    simp only [gt_iff_lt, lt_self_iff_false, if_false]
    exact ⟨fun h => hops.shrink 0 _ le_rfl h.1,
      fun h => ⟨hops.grow 0 _ le_rfl h, fun h' => hdiv _ rfl h (hops.shrink 0 _ le_rfl h')⟩⟩
  rw [e]
  unfold divide
  dsimp only
  cases hf : c.hasFlooring with
  | false => simp
  | true =>
    have hf0 : 0 < c.flooring := by
      simp only [FillConfig.hasFlooring, Bool.and_eq_true, decide_eq_true_eq] at hf
      exact hf.1
    simp only [if_true, true_and]
    rw [Set.mem_sdiff, Set.mem_inter_iff, mem_filledBelow c hg hmesh hq hin hf0 hplate]
    cases hr : c.hasRoofing with
    | false => simp [hp, hplate]
    | true =>
      have hr0 : 0 < c.roofing := by
        simp only [FillConfig.hasRoofing, Bool.and_eq_true, decide_eq_true_eq] at hr
        exact hr.1
      simp only [if_true, true_imp_iff]
      rw [mem_filledAbove c hg hmesh hq hin hr0]
      constructor
      · rintro ⟨⟨_, h1⟩, h2⟩
        refine ⟨h2, ?_⟩
        rcases h1 with h1 | h1
        · exact .inl h1
        · exact .inr h1.2
      · rintro ⟨h1, h2⟩
        refine ⟨⟨hp, ?_⟩, h1⟩
        rcases h2 with h2 | h2
        · exact .inl h2
        · refine .inr ⟨?_, h2⟩
          by_contra h0
          exact h1 (.inl (by omega))

end Fill

/-! ## C70: surfaces to avoid in travel moves -/

/-- The top surface is what has nothing on the layer above, and on the first layer all of the part is bottom surface.
Missing: the bottom surface of the other layers, which is computed from the layer above
(`C70_bottom_counterexample`). -/
theorem C70_surfaces_partial (layers : List (List Part)) (hmesh : MeshOk layers) (l : Nat) (q : Part)
    (hq : q ∈ layers.getD l []) (p : Point) :
    (p ∈ (outerSurfaces (outlineOn layers q.box) l q.outline).1 ↔ p ∈ q.outline ∧ ¬ Solid layers (l + 1) p) ∧
      (l = 0 → (p ∈ (outerSurfaces (outlineOn layers q.box) l q.outline).2 ↔ p ∈ q.outline)) := by
  constructor
  · unfold outerSurfaces
    rw [Set.mem_sdiff]
    constructor
    · rintro ⟨h1, h2⟩
      exact ⟨h1, fun h => h2 ((outlineOn_iff hmesh hq _ h1).2 h)⟩
    · rintro ⟨h1, h2⟩
      exact ⟨h1, fun h => h2 (outlineOn_solid h)⟩
  · rintro rfl
    rfl

end Verif.Skin
