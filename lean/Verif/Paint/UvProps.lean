import Verif.Paint.UvLemmas
import Verif.Grid.Props

/-! # The texture coordinates of a place of a sliced model: C141 -/

namespace Verif.Paint

open Verif.Grid (Pt dist2 Lookup pointGrid C38_nearest)
open UvSpec

/-- A sliced segment whose two ends have texture coordinates. -/
def Textured (segments : List Sliced) (a b : Pt) (u v : ℚ × ℚ) : Prop := ⟨a, b, some u, some v⟩ ∈ segments

/-- An end of such a segment. -/
def TexturedEnd (segments : List Sliced) (a : Pt) (u : ℚ × ℚ) : Prop :=
  ∃ b v, Textured segments a b u v ∨ Textured segments b a v u

theorem mem_keep (segments : List Sliced) (s : Seg) :
    s ∈ keep segments ↔ Textured segments s.start s.stop s.uvStart s.uvEnd := by
  unfold keep Textured
  rw [List.mem_filterMap]
  constructor
  · rintro ⟨x, hx, h⟩
    obtain ⟨a, b, u, v⟩ := x
    rcases u with _ | u
    · cases h
    · rcases v with _ | v
      · cases h
      · cases h; exact hx
  · intro h
    exact ⟨_, h, rfl⟩

theorem mem_located (segments : List Sliced) (e : Pt × (ℚ × ℚ)) :
    e ∈ located (keep segments) ↔ TexturedEnd segments e.1 e.2 := by
  unfold located TexturedEnd
  rw [List.mem_flatMap]
  constructor
  · rintro ⟨s, hs, h⟩
    rw [mem_keep] at hs
    rcases List.mem_cons.1 h with h | h
    · subst h; exact ⟨_, _, Or.inl hs⟩
    · rw [List.mem_singleton] at h; subst h; exact ⟨_, _, Or.inr hs⟩
  · rintro ⟨b, v, h | h⟩
    · exact ⟨⟨e.1, b, e.2, v⟩, (mem_keep _ _).2 h, by simp⟩
    · exact ⟨⟨b, e.1, v, e.2⟩, (mem_keep _ _).2 h, by simp⟩

variable (round : ℚ → ℤ) (segments : List Sliced) (look : Pt → List (Pt × (ℚ × ℚ)))

/-- **C141.** If an end with texture coordinates is less than 1000 away, the coordinates are those of an end that is
nearest. -/
theorem C141_end (hl : Lookup (pointGrid 1000 Prod.fst (located (keep segments))) look) (p a : Pt) (u : ℚ × ℚ)
    (ha : TexturedEnd segments a u) (hd : dist2 a p < 1000 ^ 2) :
    ∃ b v, closestUV round look (keep segments) p = some v ∧ TexturedEnd segments b v ∧
      ∀ c w, TexturedEnd segments c w → dist2 b p ≤ dist2 c p := by
  have h := C38_nearest 1000 (by decide) Prod.fst (located (keep segments)) look hl p 1000 (by decide) (fun _ => true)
  unfold closestUV
  generalize Verif.Grid.getNearest 1000 look Prod.fst p 1000 (fun _ => true) = res at h ⊢
  rcases res with _ | e
  · have := h (a, u) ((mem_located _ _).2 ha) rfl
    simp only at this
    omega
  · obtain ⟨h1, _, _, h4⟩ := h
    exact ⟨e.1, e.2, rfl, (mem_located _ _).1 h1, fun c w hc => h4 (c, w) ((mem_located _ _).2 hc) rfl⟩

/-- **C141.** Otherwise, the coordinates are those of the place of a segment that is nearest: they are between those of
its ends as the place is between its ends, no place of that segment is nearer, and no place of another one is nearer by
more than two units. -/
theorem C141_segment (hround : ∀ q, |(round q : ℚ) - q| ≤ 1 / 2)
    (hl : Lookup (pointGrid 1000 Prod.fst (located (keep segments))) look) (p : Pt)
    (hfar : ∀ a u, TexturedEnd segments a u → 1000 ^ 2 ≤ dist2 a p) (a b : Pt) (u v : ℚ × ℚ)
    (hs : Textured segments a b u v) (hab : a ≠ b) :
    ∃ a' b' u' v' f, Textured segments a' b' u' v' ∧ a' ≠ b' ∧ 0 ≤ f ∧ f ≤ 1 ∧
      closestUV round look (keep segments) p = some (between u'.1 v'.1 f, between u'.2 v'.2 f) ∧
      (∀ t, 0 ≤ t → t ≤ 1 → away p a' b' f ≤ away p a' b' t) ∧
      ∀ c d x y, Textured segments c d x y → c ≠ d → ∀ t, 0 ≤ t → t ≤ 1 → ∀ r, 0 ≤ r →
        away p c d t ≤ r ^ 2 → away p a' b' f ≤ (r + 2) ^ 2 := by
  have h := C38_nearest 1000 (by decide) Prod.fst (located (keep segments)) look hl p 1000 (by decide) (fun _ => true)
  unfold closestUV
  generalize Verif.Grid.getNearest 1000 look Prod.fst p 1000 (fun _ => true) = res at h ⊢
  rcases res with _ | e
  swap
  · have := hfar e.1 e.2 ((mem_located _ _).1 h.1)
    have := h.2.2.1
    omega
  have hscan := scan_ok round p (keep segments)
  simp only
  generalize (keep segments).foldl (scanStep round p) none = best at hscan ⊢
  rcases best with _ | best
  · obtain ⟨_, _, hm, _⟩ := measure_ok round hround p ⟨a, b, u, v⟩ hab
    rw [hscan ⟨a, b, u, v⟩ ((mem_keep _ _).2 hs)] at hm
    cases hm
  · obtain ⟨⟨s, hsm, f, hm, huv⟩, hmin⟩ := hscan
    have hne : s.start ≠ s.stop := by
      intro he
      unfold measure at hm
      rw [if_pos he] at hm
      cases hm
    obtain ⟨d', f', hm', h0, h1, hbest, hr⟩ := measure_ok round hround p s hne
    rw [hm'] at hm
    cases hm
    refine ⟨s.start, s.stop, s.uvStart, s.uvEnd, f, (mem_keep _ _).1 hsm, hne, h0, h1, ?_, hbest, ?_⟩
    · rw [Option.map_some, huv]
      unfold lerp between
      rw [mul_comm f, mul_comm f]
    · intro c d x y hc hcd t ht0 ht1 r hr0 hra
      obtain ⟨d2, f2, hm2, _, _, hbest2, hr2⟩ := measure_ok round hround p ⟨c, d, x, y⟩ hcd
      have e1 : (d2 : ℚ) ≤ (r + 1) ^ 2 := (hr2 r hr0).1 (le_trans (hbest2 t ht0 ht1) hra)
      have e2 : ((best.1 : ℤ) : ℚ) ≤ d2 := by exact_mod_cast hmin ⟨c, d, x, y⟩ ((mem_keep _ _).2 hc) d2 f2 hm2
      have e3 := (hr (r + 1) (by linarith)).2 (le_trans e2 e1)
      refine le_trans e3 (le_of_eq ?_)
      ring

/-- **C141.** There are no coordinates exactly if no end with coordinates is near and no segment with coordinates has a
length. -/
theorem C141_none (hround : ∀ q, |(round q : ℚ) - q| ≤ 1 / 2)
    (hl : Lookup (pointGrid 1000 Prod.fst (located (keep segments))) look) (p : Pt) :
    closestUV round look (keep segments) p = none ↔
      (∀ a u, TexturedEnd segments a u → 1000 ^ 2 ≤ dist2 a p) ∧ ∀ a b u v, Textured segments a b u v → a = b := by
  constructor
  · intro hn
    have hfar : ∀ a u, TexturedEnd segments a u → 1000 ^ 2 ≤ dist2 a p := by
      intro a u ha
      by_contra hc
      obtain ⟨b, v, h, _⟩ := C141_end round segments look hl p a u ha (not_le.1 hc)
      rw [hn] at h
      cases h
    refine ⟨hfar, ?_⟩
    intro a b u v hs
    by_contra hab
    obtain ⟨_, _, _, _, _, _, _, _, _, h, _⟩ := C141_segment round segments look hround hl p hfar a b u v hs hab
    rw [hn] at h
    cases h
  · rintro ⟨hfar, hdeg⟩
    have h := C38_nearest 1000 (by decide) Prod.fst (located (keep segments)) look hl p 1000 (by decide) (fun _ => true)
    unfold closestUV
    generalize Verif.Grid.getNearest 1000 look Prod.fst p 1000 (fun _ => true) = res at h ⊢
    rcases res with _ | e
    · have hscan := scan_ok round p (keep segments)
      simp only
      generalize (keep segments).foldl (scanStep round p) none = best at hscan ⊢
      rcases best with _ | best
      · rfl
      · obtain ⟨⟨s, hsm, f, hm, _⟩, _⟩ := hscan
        unfold measure at hm
        rw [if_pos (hdeg _ _ _ _ ((mem_keep _ _).1 hsm))] at hm
        cases hm
    · have := hfar e.1 e.2 ((mem_located _ _).1 h.1)
      have := h.2.2.1
      omega

/-- Two segments with coordinates, one without. -/
def slicedSample : List Sliced :=
  [⟨⟨0, 0⟩, ⟨10000, 0⟩, some (0, 0), some (1, 0)⟩, ⟨⟨10000, 0⟩, ⟨10000, 10000⟩, some (1, 0), some (1, 1)⟩,
    ⟨⟨10000, 10000⟩, ⟨0, 0⟩, none, some (0, 0)⟩]

/-- The grid that the constructor makes of them. -/
def lookSample : Pt → List (Pt × (ℚ × ℚ)) :=
  Verif.Grid.inOrder (pointGrid 1000 Prod.fst (located (keep slicedSample)))

/-- A case of the hypotheses: rounding to the nearest integer, a place near an end, and one that is not. -/
example : (∀ q : ℚ, |((⌊q + 1 / 2⌋ : ℤ) : ℚ) - q| ≤ 1 / 2) ∧
    Lookup (pointGrid 1000 Prod.fst (located (keep slicedSample))) lookSample ∧
    Textured slicedSample ⟨0, 0⟩ ⟨10000, 0⟩ (0, 0) (1, 0) ∧
    closestUV (fun q => ⌊q + 1 / 2⌋) lookSample (keep slicedSample) ⟨9900, 10⟩ = some (1, 0) ∧
    closestUV (fun q => ⌊q + 1 / 2⌋) lookSample (keep slicedSample) ⟨2500, 10⟩ = some (1 / 4, 0) := by
  refine ⟨?_, Verif.Grid.inOrder_lookup _, ?_, ?_, ?_⟩
  · intro q
    have h1 := Int.floor_le (q + 1 / 2)
    have h2 := Int.lt_floor_add_one (q + 1 / 2)
    rw [abs_le]
    constructor <;> linarith
  · simp [Textured, slicedSample]
  · decide +kernel
  · decide +kernel

end Verif.Paint
