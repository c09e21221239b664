import Verif.Skin.Spec
import Verif.Volumes.Lemmas

/-! # Lemmas for skin and infill areas -/

namespace Verif.Skin

open Verif.Box (AABB)
open Verif.Volumes (Point Region WithinFlat withinFlat_hit)

theorem mem_meet (f : Nat → Region) (p : Point) : ∀ (ls : List Nat) (r : Region),
    p ∈ meet f r ls ↔ p ∈ r ∧ ∀ l ∈ ls, p ∈ f l := by
  intro ls
  induction ls with
  | nil => intro r; simp [meet]
  | cons a ls ih =>
    intro r
    show p ∈ meet f (r ∩ f a) ls ↔ _
    rw [ih]
    simp only [Set.mem_inter_iff, List.mem_cons, forall_eq_or_imp, and_assoc]

theorem outlineOn_iff {layers : List (List Part)} (h : MeshOk layers) {l : Nat} {q : Part} (hq : q ∈ layers.getD l []) (k : Nat)
    {p : Point} (hp : p ∈ q.outline) : p ∈ outlineOn layers q.box k ↔ Solid layers k p := by
  have mem : ∀ {k : Nat} {r : Part}, r ∈ layers.getD k [] → ∃ m ∈ layers, r ∈ m := by
    intro k r hr
    rw [List.getD_eq_getElem?_getD] at hr
    cases hk : layers[k]? with
    | none => rw [hk] at hr; simp at hr
    | some m =>
      rw [hk] at hr
      exact ⟨m, List.mem_of_getElem? hk, hr⟩
  constructor
  · rintro ⟨r, hr, _, hp⟩
    exact ⟨r, hr, hp⟩
  · rintro ⟨r, hr, hpr⟩
    obtain ⟨m, hm, hqm⟩ := mem hq
    obtain ⟨m', hm', hrm⟩ := mem hr
    exact ⟨r, hr, withinFlat_hit ((h m hm q hqm).2 p hp) ((h m' hm' r hrm).2 p hpr), hpr⟩

theorem outlineOn_solid {layers : List (List Part)} {box : AABB} {k : Nat} {p : Point} (h : p ∈ outlineOn layers box k) :
    Solid layers k p := by
  obtain ⟨q, hq, _, hp⟩ := h
  exact ⟨q, hq, hp⟩

theorem mem_of_getD {layers : List (List Part)} {l : Nat} {q : Part} (hq : q ∈ layers.getD l []) :
    ∃ m ∈ layers, q ∈ m := by
  rw [List.getD_eq_getElem?_getD] at hq
  cases hk : layers[l]? with
  | none => rw [hk] at hq; simp at hq
  | some m =>
    rw [hk] at hq
    exact ⟨m, List.mem_of_getElem? hk, hq⟩

/-- What is not solid below is in the bottom skin. -/
theorem mem_bottomSkin (ops : Ops) (hops : ops.Ok) (c : Config) (hg : c.gaps = false) (f : Nat → Region) (l : Nat)
    (down : Region) (p : Point) (hp : p ∈ down)
    (h : l < c.initialBottom ∨ ∃ k, 1 ≤ k ∧ k ≤ c.bottom ∧ k ≤ l ∧ p ∉ f (l - k)) : p ∈ bottomSkin ops c f l down := by
  unfold bottomSkin
  split
  · exact hp
  · split
    · exact hp
    · next h1 h2 =>
      obtain ⟨k, hk1, hkb, hkl, hpf⟩ := h.resolve_left h2
      dsimp only
      simp only [hg, Bool.false_eq_true, if_false]
      refine ⟨hp, fun hsolid => ?_⟩
      have hm : p ∈ meet f (f (l - c.bottom)) (List.range' (l - c.bottom + 1) (l - (l - c.bottom + 1))) := by
        split at hsolid
        · exact hops.smallInfill _ hsolid
        · exact hsolid
      rw [mem_meet] at hm
      by_cases he : l - k = l - c.bottom
      · exact hpf (he ▸ hm.1)
      · refine hpf (hm.2 (l - k) ?_)
        rw [List.mem_range']
        exact ⟨l - k - (l - c.bottom + 1), by omega, by omega⟩

theorem mem_topSkin (ops : Ops) (hops : ops.Ok) (c : Config) (hg : c.gaps = false) (f : Nat → Region) (n l : Nat)
    (up : Region) (p : Point) (hp : p ∈ up)
    (h : ∃ k, 1 ≤ k ∧ k ≤ c.top ∧ p ∉ f (l + k)) : p ∈ topSkin ops c f n l up := by
  unfold topSkin
  split
  · exact hp
  · obtain ⟨k, hk1, hkt, hpf⟩ := h
    dsimp only
    simp only [hg, Bool.false_eq_true, if_false]
    refine ⟨hp, fun hsolid => ?_⟩
    have hm : p ∈ meet f (f (l + c.top)) (List.range' (l + 1) (c.top - 1)) := by
      split at hsolid
      · exact hops.smallInfill _ hsolid
      · exact hsolid
    rw [mem_meet] at hm
    by_cases he : k = c.top
    · exact hpf (he ▸ hm.1)
    · refine hpf (hm.2 (l + k) ?_)
      rw [List.mem_range']
      exact ⟨k - 1, by omega, by omega⟩

theorem bottomSkin_sub (ops : Ops) (c : Config) (f : Nat → Region) (l : Nat) (down : Region) :
    bottomSkin ops c f l down ⊆ down := by
  unfold bottomSkin
  split
  · exact le_rfl
  · split
    · exact le_rfl
    · exact fun x hx => hx.1

theorem topSkin_sub (ops : Ops) (c : Config) (f : Nat → Region) (n l : Nat) (up : Region) : topSkin ops c f n l up ⊆ up := by
  unfold topSkin
  split
  · exact le_rfl
  · exact fun x hx => hx.1

/-- And only that, without a minimum area of infill. -/
theorem bottomSkin_exposed (ops : Ops) (c : Config) (hg : c.gaps = false) (hm : c.minInfill = false) (f : Nat → Region)
    (l : Nat) (down : Region) (p : Point) (hb : c.bottom > 0 ∨ l < c.initialBottom) (h : p ∈ bottomSkin ops c f l down)
    (hself : p ∈ f l) : l < c.initialBottom ∨ ∃ k, 1 ≤ k ∧ k ≤ c.bottom ∧ k ≤ l ∧ p ∉ f (l - k) := by
  by_contra hn
  push Not at hn
  obtain ⟨h1, h2⟩ := hn
  unfold bottomSkin at h
  rw [if_neg (by omega), if_neg (by omega)] at h
  dsimp only at h
  rw [if_neg (by simp [hm]), if_neg (by simp [hg])] at h
  refine h.2 ((mem_meet _ _ _ _).2 ⟨?_, fun a ha => ?_⟩)
  · by_cases hl : l = 0
    · subst hl
      simpa using hself
    · have := h2 (min l c.bottom) (by omega) (by omega) (by omega)
      have e : l - min l c.bottom = l - c.bottom := by omega
      rwa [e] at this
  · obtain ⟨i, hi, rfl⟩ := List.mem_range'.1 ha
    have := h2 (l - (l - c.bottom + 1 + 1 * i)) (by omega) (by omega) (by omega)
    have e : l - (l - (l - c.bottom + 1 + 1 * i)) = l - c.bottom + 1 + 1 * i := by omega
    rwa [e] at this

theorem topSkin_exposed (ops : Ops) (c : Config) (hg : c.gaps = false) (hm : c.minInfill = false) (f : Nat → Region)
    (n l : Nat) (up : Region) (p : Point) (ht : c.top > 0)
    (hf : ∀ k, n ≤ k → p ∉ f k) (h : p ∈ topSkin ops c f n l up) : ∃ k, 1 ≤ k ∧ k ≤ c.top ∧ p ∉ f (l + k) := by
  by_contra hno
  push Not at hno
  unfold topSkin at h
  split at h
  · next h1 =>
    exact hf (l + c.top) (by omega) (hno c.top ht le_rfl)
  · dsimp only at h
    rw [if_neg (by simp [hm]), if_neg (by simp [hg])] at h
    refine h.2 ((mem_meet _ _ _ _).2 ⟨hno _ ht le_rfl, fun a ha => ?_⟩)
    obtain ⟨i, hi, rfl⟩ := List.mem_range'.1 ha
    have := hno (1 + i) (by omega) (by omega)
    have e : l + (1 + i) = l + 1 + 1 * i := by omega
    rwa [e] at this

theorem expand_grow (ops : Ops) (hops : ops.Ok) (w d : Int) (hd : 0 ≤ d) (r : Region) : r ⊆ expand ops w d r := by
  unfold expand
  split
  · exact le_rfl
  · split
    · exact Set.subset_union_left
    · exact hops.grow d r hd

theorem shrinkBottom_keeps (ops : Ops) (hops : ops.Ok) (w d : Int) (original r : Region) (p : Point) (hp : p ∈ r)
    (ho : p ∈ original) : p ∈ shrinkBottom ops w d 0 original r := by
  unfold shrinkBottom
  have h1 : p ∈ ops.miter 0 (ops.miter 0 r) :=
    hops.miterGrow 0 _ le_rfl (hops.miterGrow 0 _ le_rfl hp)
  dsimp only
  have : p ∈ (if (0 : Int) > 0 ∨ w = 0 ∧ d ≠ 0 then ops.miter ((0 : Int).tdiv 2) (ops.miter ((-(0 : Int)).tdiv 2) r) ∩ r else r) := by
    split
    · exact ⟨h1, hp⟩
    · exact hp
  split
  · exact ⟨this, ho⟩
  · exact this

theorem shrinkTop_keeps (ops : Ops) (hops : ops.Ok) (w d : Int) (original r : Region) (p : Point) (hp : p ∈ r)
    (ho : p ∈ original) : p ∈ shrinkTop ops w d 0 original r := by
  unfold shrinkTop
  have h1 : p ∈ ops.miter 0 (ops.miter 0 r) :=
    hops.miterGrow 0 _ le_rfl (hops.miterGrow 0 _ le_rfl hp)
  dsimp only
  have : p ∈ (if (0 : Int) > 0 ∨ w = 0 ∧ d ≠ 0 then ops.miter ((0 : Int).tdiv 2) (ops.miter ((-(0 : Int)).tdiv 2) r) else r) := by
    split
    · exact h1
    · exact hp
  split
  · exact ⟨this, ho⟩
  · exact this

/-- Everything exposed is in the skin, if it is not made smaller. -/
theorem rawSkin_sup (ops : Ops) (hops : ops.Ok) (c : Config) (layers : List (List Part)) (l : Nat) (q : Part)
    (hmesh : MeshOk layers) (hq : q ∈ layers.getD l []) (hg : c.gaps = false) (ht : c.topPreshrink = 0)
    (hb : c.bottomPreshrink = 0) (hte : 0 ≤ c.topExpand) (hbe : 0 ≤ c.bottomExpand) :
    q.inner ∩ Exposed c.top c.bottom c.initialBottom layers l ⊆
      rawSkin ops c (outlineOn layers q.box) layers.length l q.inner := by
  obtain ⟨m, hm, hqm⟩ := mem_of_getD hq
  rintro x ⟨hx, he⟩
  have hxo := (hmesh m hm q hqm).1 hx
  have hsolid := fun k => outlineOn_iff hmesh hq k hxo
  unfold rawSkin
  dsimp only
  rw [ht, hb]
  rcases he with he | ⟨k, h1, h2, h3⟩ | ⟨k, h1, h2, h3, h4⟩
  · right
    refine shrinkBottom_keeps ops hops _ _ _ _ _ (expand_grow ops hops _ _ hbe _ ?_) hx
    rw [if_pos (.inr he)]
    exact mem_bottomSkin ops hops c hg _ _ _ _ hx (.inl he)
  · left
    refine shrinkTop_keeps ops hops _ _ _ _ _ (expand_grow ops hops _ _ hte _ ?_) hx
    rw [if_pos (by omega)]
    exact mem_topSkin ops hops c hg _ _ _ _ _ hx ⟨k, h1, h2, fun h => h3 ((hsolid _).1 h)⟩
  · right
    refine shrinkBottom_keeps ops hops _ _ _ _ _ (expand_grow ops hops _ _ hbe _ ?_) hx
    rw [if_pos (.inl (by omega))]
    exact mem_bottomSkin ops hops c hg _ _ _ _ hx (.inr ⟨k, h1, h2, h3, fun h => h4 ((hsolid _).1 h)⟩)

/-- And only that, if it is not made larger. -/
theorem rawSkin_sub (ops : Ops) (c : Config) (layers : List (List Part)) (l : Nat) (q : Part)
    (hmesh : MeshOk layers) (hq : q ∈ layers.getD l []) (hg : c.gaps = false) (hm : c.minInfill = false)
    (hte : c.topExpand = 0) (hbe : c.bottomExpand = 0) (ht : c.topPreshrink = 0) (hb : c.bottomPreshrink = 0) :
    rawSkin ops c (outlineOn layers q.box) layers.length l q.inner ⊆
      q.inner ∩ Exposed c.top c.bottom c.initialBottom layers l := by
  obtain ⟨m, hmm, hqm⟩ := mem_of_getD hq
  intro x hx
  unfold rawSkin at hx
  dsimp only at hx
  rw [ht, hb, hte, hbe] at hx
  have es : ∀ w (r : Region), shrinkBottom ops w 0 0 q.inner r = r ∧ shrinkTop ops w 0 0 q.inner r = r ∧ expand ops w 0 r = r := by
    intro w r
    simp [shrinkBottom, shrinkTop, expand]
  rw [(es _ _).1, (es _ _).2.1, (es _ _).2.2, (es _ _).2.2] at hx
  rcases hx with hx | hx
  · have hin := topSkin_sub _ _ _ _ _ _ hx
    by_cases h0 : c.top > 0
    · rw [if_pos h0] at hin
      have hxo := (hmesh m hmm q hqm).1 hin
      have hsolid := fun k => outlineOn_iff hmesh hq k hxo
      obtain ⟨k, h1, h2, h3⟩ := topSkin_exposed ops c hg hm _ _ _ _ _ h0
        (fun k hk hf => by
          obtain ⟨r, hr, _⟩ := (hsolid k).1 hf
          rw [List.getD_eq_getElem?_getD, List.getElem?_eq_none hk] at hr
          cases hr) hx
      exact ⟨hin, .inr (.inl ⟨k, h1, h2, fun h => h3 ((hsolid _).2 h)⟩)⟩
    · rw [if_neg h0] at hin
      exact hin.elim
  · have hin := bottomSkin_sub _ _ _ _ _ hx
    by_cases h0 : c.bottom > 0 ∨ l < c.initialBottom
    · rw [if_pos h0] at hin
      have hxo := (hmesh m hmm q hqm).1 hin
      have hsolid := fun k => outlineOn_iff hmesh hq k hxo
      rcases bottomSkin_exposed ops c hg hm _ _ _ _ h0 hx ((hsolid l).2 ⟨q, hq, hxo⟩) with h | ⟨k, h1, h2, h3, h4⟩
      · exact ⟨hin, .inl h⟩
      · exact ⟨hin, .inr (.inr ⟨k, h1, h2, h3, fun h => h4 ((hsolid _).2 h)⟩)⟩
    · rw [if_neg h0] at hin
      exact hin.elim

/-! ## Roofing and flooring -/

theorem mem_filledAbove (c : FillConfig) (hg : c.gaps = false) {layers : List (List Part)} (hmesh : MeshOk layers) {l : Nat}
    {q : Part} (hq : q ∈ layers.getD l []) {p : Point} (hp : p ∈ q.outline) (hr : 0 < c.roofing) :
    p ∈ filledAbove c (outlineOn layers q.box) l ↔
      SolidAbove layers l c.roofing p ∨ (0 < l ∧ ¬ Solid layers (l - 1) p) := by
  have hsolid := fun k => outlineOn_iff hmesh hq k hp
  have h1 : p ∈ meet (outlineOn layers q.box) (outlineOn layers q.box (l + c.roofing)) (List.range' (l + 1) (c.roofing - 1)) ↔
      SolidAbove layers l c.roofing p := by
    rw [mem_meet]
    constructor
    · rintro ⟨ha, hb⟩ k hk1 hk2
      by_cases he : k = c.roofing
      · rw [he]; exact (hsolid _).1 ha
      · refine (hsolid _).1 (hb (l + k) ?_)
        rw [List.mem_range']
        exact ⟨k - 1, by omega, by omega⟩
    · intro h
      refine ⟨(hsolid _).2 (h _ hr le_rfl), fun a ha => ?_⟩
      obtain ⟨i, hi, rfl⟩ := List.mem_range'.1 ha
      have := h (1 + i) (by omega) (by omega)
      have e : l + (1 + i) = l + 1 + 1 * i := by omega
      rw [e] at this
      exact (hsolid _).2 this
  have hself : p ∈ outlineOn layers q.box l := (hsolid l).2 ⟨q, hq, hp⟩
  unfold filledAbove
  simp only [hg, Bool.false_eq_true, if_false]
  by_cases hl : l > 0
  · rw [if_pos hl, Set.mem_union, h1, Set.mem_sdiff, hsolid (l - 1)]
    constructor
    · rintro (h | h)
      · exact .inl h
      · exact .inr ⟨hl, h.2⟩
    · rintro (h | h)
      · exact .inl h
      · exact .inr ⟨hself, h.2⟩
  · rw [if_neg hl, h1]
    constructor
    · exact .inl
    · rintro (h | h)
      · exact h
      · exact absurd h.1 hl

theorem mem_filledBelow (c : FillConfig) (hg : c.gaps = false) {layers : List (List Part)} (hmesh : MeshOk layers) {l : Nat}
    {q : Part} (hq : q ∈ layers.getD l []) {p : Point} (hp : p ∈ q.outline) (hf : 0 < c.flooring) (hplate : p ∈ c.plate) :
    p ∈ filledBelow c (outlineOn layers q.box) l ↔ SolidBelow layers l c.flooring p := by
  have hsolid := fun k => outlineOn_iff hmesh hq k hp
  unfold filledBelow SolidBelow
  by_cases hl : l < c.flooring
  · rw [if_pos hl]
    simp [hl, hplate]
  · rw [if_neg hl]
    simp only [hg, Bool.false_eq_true, if_false]
    rw [mem_meet]
    constructor
    · rintro ⟨ha, hb⟩
      right
      intro k hk1 hk2
      by_cases he : k = c.flooring
      · rw [he]; exact (hsolid _).1 ha
      · refine (hsolid _).1 (hb (l - k) ?_)
        rw [List.mem_range']
        exact ⟨l - k - (l - c.flooring + 1), by omega, by omega⟩
    · intro h
      have h := h.resolve_left hl
      refine ⟨(hsolid _).2 (h _ hf le_rfl), fun a ha => ?_⟩
      obtain ⟨i, hi, rfl⟩ := List.mem_range'.1 ha
      have := h (l - (l - c.flooring + 1 + 1 * i)) (by omega) (by omega)
      have e : l - (l - (l - c.flooring + 1 + 1 * i)) = l - c.flooring + 1 + 1 * i := by omega
      rw [e] at this
      exact (hsolid _).2 this

theorem mergeThin_cover (ops : Ops) (d : Int) (a b : Region) (p : Point) (h : p ∈ a ∨ p ∈ b) :
    p ∈ (mergeThin ops d a b).1 ∨ p ∈ (mergeThin ops d a b).2 := by
  unfold mergeThin
  split
  · exact h
  · dsimp only
    split
    · exact h
    · split
      · exact h
      · by_cases hg : p ∈ ops.offset EPSILON (ops.offset d a ∩ ops.thin b)
        · exact .inl (.inr hg)
        · rcases h with h | h
          · exact .inl (.inl h)
          · exact .inr ⟨h, hg⟩

theorem mergeThin_source (ops : Ops) (d : Int) (a b : Region) : a ⊆ (mergeThin ops d a b).1 := by
  intro p h
  unfold mergeThin
  split
  · exact h
  · dsimp only
    split
    · exact h
    · split
      · exact h
      · exact .inl h

theorem fill_cover (ops : Ops) (hops : ops.Ok) (c : FillConfig) (ho : 0 ≤ c.overlap) (f : Nat → Region) (l : Nat)
    (outline : Region) (p : Point)
    (h : p ∈ (divide ops c f l outline).skin ∨ p ∈ (divide ops c f l outline).roofing ∨
      p ∈ (divide ops c f l outline).flooring) :
    p ∈ (fill ops c f l outline).skin ∨ p ∈ (fill ops c f l outline).roofing ∨ p ∈ (fill ops c f l outline).flooring := by
  have key : ∀ r : Fill, (p ∈ r.skin ∨ p ∈ r.roofing ∨ p ∈ r.flooring) →
      (p ∈ (ops.offset c.overlap r.skin \ r.roofing) \ r.flooring ∨ p ∈ ops.offset c.overlap r.roofing ∨
        p ∈ ops.offset c.overlap r.flooring \ ops.offset c.overlap r.roofing) := by
    intro r h
    by_cases h1 : p ∈ ops.offset c.overlap r.roofing
    · exact .inr (.inl h1)
    · have h1' : p ∉ r.roofing := fun hx => h1 (hops.grow _ _ ho hx)
      by_cases h2 : p ∈ r.flooring
      · exact .inr (.inr ⟨hops.grow _ _ ho h2, h1⟩)
      · rcases h with h | h | h
        · exact .inl ⟨⟨hops.grow _ _ ho h, h1'⟩, h2⟩
        · exact absurd h h1'
        · exact absurd h h2
  unfold fill
  dsimp only
  by_cases hm : c.merge > 0
  · simp only [hm, if_true]
    generalize divide ops c f l outline = r at h ⊢
    refine key ⟨(mergeThin ops c.merge (mergeThin ops c.merge r.skin r.roofing).1 r.flooring).1,
      (mergeThin ops c.merge r.skin r.roofing).2,
      (mergeThin ops c.merge (mergeThin ops c.merge r.skin r.roofing).1 r.flooring).2⟩ ?_
    dsimp only
    by_cases h3 : p ∈ r.flooring
    · rcases mergeThin_cover ops c.merge (mergeThin ops c.merge r.skin r.roofing).1 r.flooring p (.inr h3) with h | h
      · exact .inl h
      · exact .inr (.inr h)
    · have h' : p ∈ r.skin ∨ p ∈ r.roofing := by
        rcases h with h | h | h
        · exact .inl h
        · exact .inr h
        · exact absurd h h3
      rcases mergeThin_cover ops c.merge r.skin r.roofing p h' with h | h
      · exact .inl (mergeThin_source _ _ _ _ h)
      · exact .inr (.inl h)
  · simp only [hm, if_false]
    exact key _ h

end Verif.Skin
