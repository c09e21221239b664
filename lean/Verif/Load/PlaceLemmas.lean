import Verif.Load.PlaceSpec
import Mathlib.Tactic.Linarith
import Mathlib.Tactic.Ring
import Mathlib.Algebra.Order.Floor.Ring

namespace Verif.Load

open Verif.Slicer (P3)

theorem half_tdiv (n : Int) : Half (n.tdiv 2) n := by
  unfold Half
  rw [abs_le]
  rcases Int.le_total 0 n with h | h
  · rw [Int.tdiv_eq_ediv_of_nonneg h]; omega
  · have : n.tdiv 2 = -((-n) / 2) := by
      rw [← Int.tdiv_eq_ediv_of_nonneg (by omega), Int.neg_tdiv, neg_neg]
    rw [this]; omega

theorem trunc_close (x : Rat) : Close (trunc x) x := by
  unfold Close trunc
  rw [abs_lt]
  split
  · exact ⟨by have := Int.lt_floor_add_one x; linarith, by have := Int.floor_le x; linarith⟩
  · exact ⟨by have := Int.le_ceil x; linarith, by have := Int.ceil_lt_add_one x; linarith⟩

theorem trunc_mono {x y : Rat} (h : x ≤ y) : trunc x ≤ trunc y := by
  unfold trunc
  split_ifs with h1 h2 h2
  · exact Int.floor_le_floor h
  · exact absurd (le_trans h1 h) h2
  · exact le_trans (Int.ceil_le.mpr (by simpa using le_of_lt (not_le.mp h1))) (Int.floor_nonneg.mpr h2)
  · exact Int.ceil_le_ceil h

theorem trunc_int (n : Int) : trunc (n : Rat) = n := by
  unfold trunc
  rw [Int.floor_intCast, Int.ceil_intCast, ite_self]

theorem plus_zero (p : P3) : plus p ⟨0, 0, 0⟩ = p := by
  unfold plus
  simp only [add_zero]

theorem translate_eq (m : Part) (o : P3) :
    m.translate o = { m with points := m.points.map fun p => plus p o, lo := plus m.lo o, hi := plus m.hi o } := by
  unfold Part.translate
  split
  · rename_i h
    subst h
    simp only [plus_zero, List.map_id']
  · rfl

theorem span_map {xs : List Int} {lo hi : Int} (h : Span xs lo hi) (f : Int → Int) (hf : ∀ a b, a ≤ b → f a ≤ f b) :
    Span (xs.map f) (f lo) (f hi) := by
  refine ⟨?_, List.mem_map_of_mem h.2.1, List.mem_map_of_mem h.2.2⟩
  intro y hy
  obtain ⟨x, hx, rfl⟩ := List.mem_map.mp hy
  exact ⟨hf _ _ (h.1 x hx).1, hf _ _ (h.1 x hx).2⟩

/-- A map that treats the coordinates apart keeps bounding boxes. -/
theorem isBox_map {ps : List P3} {lo hi : P3} (h : IsBox ps lo hi) (f g k : Int → Int)
    (hf : ∀ a b, a ≤ b → f a ≤ f b) (hg : ∀ a b, a ≤ b → g a ≤ g b) (hk : ∀ a b, a ≤ b → k a ≤ k b) (F : P3 → P3)
    (hF : ∀ p, F p = ⟨f p.x, g p.y, k p.z⟩) : IsBox (ps.map F) (F lo) (F hi) := by
  obtain ⟨h1, h2, h3⟩ := h
  have h1' := span_map h1 f hf
  have h2' := span_map h2 g hg
  have h3' := span_map h3 k hk
  rw [List.map_map] at h1' h2' h3'
  unfold IsBox
  rw [List.map_map, List.map_map, List.map_map, hF, hF]
  refine ⟨?_, ?_, ?_⟩
  · convert h1' using 2; funext p; simp only [Function.comp, hF]
  · convert h2' using 2; funext p; simp only [Function.comp, hF]
  · convert h3' using 2; funext p; simp only [Function.comp, hF]

theorem translate_box (m : Part) (o : P3) (h : IsBox m.points m.lo m.hi) :
    IsBox (m.translate o).points (m.translate o).lo (m.translate o).hi := by
  rw [translate_eq]
  exact isBox_map h (· + o.x) (· + o.y) (· + o.z) (fun a b h => by omega) (fun a b h => by omega)
    (fun a b h => by omega) _ fun p => rfl

theorem applyInt_scale (x y z : Rat) (o p : P3) :
    (scaleMatrix x y z o).applyInt p =
      ⟨trunc (x * p.x + (x - 1) * -o.x), trunc (y * p.y + (y - 1) * -o.y), trunc (z * p.z + (z - 1) * -o.z)⟩ := by
  unfold Matrix.applyInt scaleMatrix Row.apply
  dsimp only
  congr 2 <;> ring

theorem transform_box (m : Part) (x y z : Rat) (o : P3) (hx : 0 ≤ x) (hy : 0 ≤ y) (hz : 0 ≤ z)
    (h : IsBox m.points m.lo m.hi) :
    IsBox (m.transform (scaleMatrix x y z o)).points (m.transform (scaleMatrix x y z o)).lo
      (m.transform (scaleMatrix x y z o)).hi := by
  have mono : ∀ (f d : Rat), 0 ≤ f → ∀ a b : Int, a ≤ b → trunc (f * a + d) ≤ trunc (f * b + d) := by
    intro f d hf a b hab
    apply trunc_mono
    have : (a : Rat) ≤ b := by exact_mod_cast hab
    have := mul_le_mul_of_nonneg_left this hf
    linarith
  exact isBox_map h (fun a => trunc (x * a + (x - 1) * -o.x)) (fun a => trunc (y * a + (y - 1) * -o.y))
    (fun a => trunc (z * a + (z - 1) * -o.z)) (mono x _ hx) (mono y _ hy) (mono z _ hz) _ (applyInt_scale x y z o)

/-! ## The bounding box of the group -/

theorem foldl_min (l : List Int) (a : Int) :
    l.foldl min a ≤ a ∧ (∀ x ∈ l, l.foldl min a ≤ x) ∧ (l.foldl min a = a ∨ l.foldl min a ∈ l) := by
  induction l generalizing a with
  | nil => exact ⟨le_rfl, (fun _ h => by cases h), Or.inl rfl⟩
  | cons b l ih =>
    rw [List.foldl_cons]
    obtain ⟨h1, h2, h3⟩ := ih (min a b)
    refine ⟨le_trans h1 (min_le_left _ _), ?_, ?_⟩
    · intro x hx
      rcases List.mem_cons.mp hx with rfl | hx
      · exact le_trans h1 (min_le_right _ _)
      · exact h2 x hx
    · rcases h3 with h3 | h3
      · rcases min_choice a b with h | h
        · exact Or.inl (h3.trans h)
        · exact Or.inr (by rw [h3, h]; exact List.mem_cons_self)
      · exact Or.inr (List.mem_cons_of_mem _ h3)

theorem foldl_max (l : List Int) (a : Int) :
    a ≤ l.foldl max a ∧ (∀ x ∈ l, x ≤ l.foldl max a) ∧ (l.foldl max a = a ∨ l.foldl max a ∈ l) := by
  induction l generalizing a with
  | nil => exact ⟨le_rfl, (fun _ h => by cases h), Or.inl rfl⟩
  | cons b l ih =>
    rw [List.foldl_cons]
    obtain ⟨h1, h2, h3⟩ := ih (max a b)
    refine ⟨le_trans (le_max_left _ _) h1, ?_, ?_⟩
    · intro x hx
      rcases List.mem_cons.mp hx with rfl | hx
      · exact le_trans (le_max_right _ _) h1
      · exact h2 x hx
    · rcases h3 with h3 | h3
      · rcases max_choice a b with h | h
        · exact Or.inl (h3.trans h)
        · exact Or.inr (by rw [h3, h]; exact List.mem_cons_self)
      · exact Or.inr (List.mem_cons_of_mem _ h3)

theorem foldl_min_mem (l : List Int) (a : Int) (hne : l ≠ []) (ha : ∀ x ∈ l, x ≤ a) : l.foldl min a ∈ l := by
  obtain ⟨h1, h2, h3⟩ := foldl_min l a
  rcases h3 with h3 | h3
  · obtain ⟨b, hb⟩ := List.exists_mem_of_ne_nil l hne
    have := h2 b hb
    have := ha b hb
    have e : l.foldl min a = b := by omega
    rw [e]; exact hb
  · exact h3

theorem foldl_max_mem (l : List Int) (a : Int) (hne : l ≠ []) (ha : ∀ x ∈ l, a ≤ x) : l.foldl max a ∈ l := by
  obtain ⟨h1, h2, h3⟩ := foldl_max l a
  rcases h3 with h3 | h3
  · obtain ⟨b, hb⟩ := List.exists_mem_of_ne_nil l hne
    have := h2 b hb
    have := ha b hb
    have e : l.foldl max a = b := by omega
    rw [e]; exact hb
  · exact h3

/-- Boxes joined: one coordinate. -/
theorem span_join {α : Type} (ms : List α) (xs : α → List Int) (lo hi : α → Int) (a b : Int) (hne : ms ≠ [])
    (h : ∀ m ∈ ms, Span (xs m) (lo m) (hi m)) (ha : ∀ m ∈ ms, ∀ x ∈ xs m, x ≤ a) (hb : ∀ m ∈ ms, ∀ x ∈ xs m, b ≤ x) :
    Span (ms.flatMap xs) ((ms.map lo).foldl min a) ((ms.map hi).foldl max b) := by
  have hlo : (ms.map lo).foldl min a ∈ ms.map lo := by
    apply foldl_min_mem
    · simpa using hne
    · intro x hx
      obtain ⟨m, hm, rfl⟩ := List.mem_map.mp hx
      exact ha m hm _ (h m hm).2.1
  have hhi : (ms.map hi).foldl max b ∈ ms.map hi := by
    apply foldl_max_mem
    · simpa using hne
    · intro x hx
      obtain ⟨m, hm, rfl⟩ := List.mem_map.mp hx
      exact hb m hm _ (h m hm).2.2
  refine ⟨?_, ?_, ?_⟩
  · intro x hx
    obtain ⟨m, hm, hx⟩ := List.mem_flatMap.mp hx
    exact ⟨le_trans ((foldl_min _ a).2.1 _ (List.mem_map_of_mem hm)) ((h m hm).1 x hx).1,
      le_trans ((h m hm).1 x hx).2 ((foldl_max _ b).2.1 _ (List.mem_map_of_mem hm))⟩
  · obtain ⟨m, hm, e⟩ := List.mem_map.mp hlo
    rw [← e]
    exact List.mem_flatMap.mpr ⟨m, hm, (h m hm).2.1⟩
  · obtain ⟨m, hm, e⟩ := List.mem_map.mp hhi
    rw [← e]
    exact List.mem_flatMap.mpr ⟨m, hm, (h m hm).2.2⟩

theorem foldl_lo (ms : List Part) (r : P3) :
    ms.foldl (fun r m => (⟨min r.x m.lo.x, min r.y m.lo.y, min r.z m.lo.z⟩ : P3)) r =
      ⟨(ms.map fun m => m.lo.x).foldl min r.x, (ms.map fun m => m.lo.y).foldl min r.y, (ms.map fun m => m.lo.z).foldl min r.z⟩ := by
  induction ms generalizing r with
  | nil => rfl
  | cons m ms ih => rw [List.foldl_cons, ih]; rfl

theorem foldl_hi (ms : List Part) (r : P3) :
    ms.foldl (fun r m => (⟨max r.x m.hi.x, max r.y m.hi.y, max r.z m.hi.z⟩ : P3)) r =
      ⟨(ms.map fun m => m.hi.x).foldl max r.x, (ms.map fun m => m.hi.y).foldl max r.y, (ms.map fun m => m.hi.z).foldl max r.z⟩ := by
  induction ms generalizing r with
  | nil => rfl
  | cons m ms ih => rw [List.foldl_cons, ih]; rfl

theorem group_box (parts : List Part) (hm : ∃ m ∈ parts, m.isModel = true) (h : ∀ m ∈ parts, IsBox m.points m.lo m.hi)
    (hs : ∀ m ∈ parts, ∀ p ∈ m.points, Small p) :
    IsBox ((parts.filter fun m => m.isModel).flatMap Part.points) (groupMin parts) (groupMax parts) := by
  have hne : parts ≠ [] := by rintro rfl; obtain ⟨m, h, _⟩ := hm; cases h
  have hne' : parts.filter (fun m => m.isModel) ≠ [] := by
    obtain ⟨m, h1, h2⟩ := hm
    exact List.ne_nil_of_mem (List.mem_filter.mpr ⟨h1, h2⟩)
  have hmem : ∀ m ∈ parts.filter (fun m => m.isModel), m ∈ parts := fun m h => (List.mem_filter.mp h).1
  unfold groupMin groupMax
  rw [if_neg hne, if_neg hne, foldl_lo, foldl_hi]
  have key : ∀ f : P3 → Int, (∀ p, Small p → f p ≤ 2 ^ 63 - 1 ∧ -2 ^ 31 ≤ f p) → (∀ m ∈ parts, Span (m.points.map f) (f m.lo) (f m.hi)) →
      Span ((((parts.filter fun m => m.isModel).flatMap Part.points)).map f)
        (((parts.filter fun m => m.isModel).map fun m => f m.lo).foldl min (2 ^ 63 - 1))
        (((parts.filter fun m => m.isModel).map fun m => f m.hi).foldl max (-2 ^ 31)) := by
    intro f hf hspan
    rw [List.map_flatMap]
    refine span_join _ (fun m => m.points.map f) (fun m => f m.lo) (fun m => f m.hi) _ _ hne' (fun m hm => hspan m (hmem m hm)) ?_ ?_
    · intro m hm x hx
      obtain ⟨p, hp, rfl⟩ := List.mem_map.mp hx
      exact (hf p (hs m (hmem m hm) p hp)).1
    · intro m hm x hx
      obtain ⟨p, hp, rfl⟩ := List.mem_map.mp hx
      exact (hf p (hs m (hmem m hm) p hp)).2
  refine ⟨key P3.x ?_ fun m hm => (h m hm).1, key P3.y ?_ fun m hm => (h m hm).2.1, key P3.z ?_ fun m hm => (h m hm).2.2⟩
  · rintro p ⟨h1, h2, h3⟩; omega
  · rintro p ⟨h1, h2, h3⟩; omega
  · rintro p ⟨h1, h2, h3⟩; omega

theorem plateOffset_origin (s : Plate) : Origin s (plateOffset s) := by
  unfold Origin plateOffset
  split
  · rfl
  · exact ⟨half_tdiv _, half_tdiv _, rfl⟩

theorem partOffset_moved (m : Part) (o : P3) : Moved o m (plus (partOffset m) o) := by
  unfold Moved partOffset
  split
  · have h1 := half_tdiv (m.hi.x - m.lo.x)
    have h2 := half_tdiv (m.hi.y - m.lo.y)
    unfold Half plus at *
    rw [abs_le] at *
    refine ⟨?_, ?_, ?_⟩
    · dsimp only; omega
    · rw [abs_le]; dsimp only; omega
    · dsimp only; omega
  · rfl

theorem modelPoints_eq (s : Plate) (parts : List Part) :
    ((parts.map fun m => m.translate (plus (partOffset m) (plateOffset s))).filter fun m => m.isModel).flatMap Part.points =
      modelPoints parts (parts.map fun m => plus (partOffset m) (plateOffset s)) := by
  unfold modelPoints
  induction parts with
  | nil => rfl
  | cons m ms ih =>
    rw [List.map_cons, List.map_cons, List.zip_cons_cons, List.filter_cons, List.filter_cons]
    have e : (m.translate (plus (partOffset m) (plateOffset s))).isModel = m.isModel := by rw [translate_eq]
    rw [e]
    by_cases h : m.isModel = true
    · rw [if_pos h, if_pos h, List.flatMap_cons, List.flatMap_cons, ih, translate_eq]
    · rw [if_neg h, if_neg h, ih]

end Verif.Load
