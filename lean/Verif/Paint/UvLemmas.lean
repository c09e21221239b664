import Verif.Paint.UvModel
import Verif.Paint.UvSpec
import Mathlib.Tactic.Linarith
import Mathlib.Tactic.Ring
import Mathlib.Tactic.FieldSimp
import Mathlib.Tactic.Positivity
import Mathlib.Tactic.LinearCombination

/-! # Lemmas about the texture coordinates of a place -/

namespace Verif.Paint

open Verif.Grid (Pt dist2)
open UvSpec

/-- A point that is moved by half a unit in each coordinate gets at most one unit further away. -/
theorem moved (a b u v r : ℚ) (hr : 0 ≤ r) (h : a ^ 2 + b ^ 2 ≤ r ^ 2) (hu : |u| ≤ 1 / 2) (hv : |v| ≤ 1 / 2) :
    (a + u) ^ 2 + (b + v) ^ 2 ≤ (r + 1) ^ 2 := by
  have ha : |a| ≤ r := abs_le_of_sq_le_sq (by nlinarith [sq_nonneg b]) hr
  have hb : |b| ≤ r := abs_le_of_sq_le_sq (by nlinarith [sq_nonneg a]) hr
  have h1 : a * u ≤ r * (1 / 2) := by
    calc a * u ≤ |a * u| := le_abs_self _
      _ = |a| * |u| := abs_mul _ _
      _ ≤ _ := mul_le_mul ha hu (abs_nonneg _) hr
  have h2 : b * v ≤ r * (1 / 2) := by
    calc b * v ≤ |b * v| := le_abs_self _
      _ = |b| * |v| := abs_mul _ _
      _ ≤ _ := mul_le_mul hb hv (abs_nonneg _) hr
  have h3 : u ^ 2 ≤ 1 / 4 := by have := sq_le_sq' (abs_le.1 hu).1 (abs_le.1 hu).2; linarith
  have h4 : v ^ 2 ≤ 1 / 4 := by have := sq_le_sq' (abs_le.1 hv).1 (abs_le.1 hv).2; linarith
  nlinarith

theorem dist2_pos (a b : Pt) (h : a ≠ b) : 0 < dist2 b a := by
  unfold dist2
  by_contra hc
  have h1 : (b.x - a.x) * (b.x - a.x) = 0 := by nlinarith [mul_self_nonneg (b.x - a.x), mul_self_nonneg (b.y - a.y)]
  have h2 : (b.y - a.y) * (b.y - a.y) = 0 := by nlinarith [mul_self_nonneg (b.x - a.x), mul_self_nonneg (b.y - a.y)]
  have h1 := mul_self_eq_zero.1 h1
  have h2 := mul_self_eq_zero.1 h2
  apply h
  cases a; cases b
  simp only [Pt.mk.injEq] at *
  omega

/-- What `measure` finds: the place of the segment that is nearest, and its distance up to the rounding. -/
theorem measure_ok (round : ℚ → ℤ) (hround : ∀ q, |(round q : ℚ) - q| ≤ 1 / 2) (p : Pt) (s : Seg) (hs : s.start ≠ s.stop) :
    ∃ d f, measure round p s = some (d, f) ∧ 0 ≤ f ∧ f ≤ 1 ∧
      (∀ t, 0 ≤ t → t ≤ 1 → away p s.start s.stop f ≤ away p s.start s.stop t) ∧
      ∀ r : ℚ, 0 ≤ r → (away p s.start s.stop f ≤ r ^ 2 → (d : ℚ) ≤ (r + 1) ^ 2) ∧
        ((d : ℚ) ≤ r ^ 2 → away p s.start s.stop f ≤ (r + 1) ^ 2) := by
  have hl := dist2_pos _ _ hs
  have hlq : (0 : ℚ) < (dist2 s.stop s.start : ℤ) := by exact_mod_cast hl
  have hform : ∀ t, away p s.start s.stop t = away p s.start s.stop 0 -
      2 * t * (((p.x - s.start.x) * (s.stop.x - s.start.x) + (p.y - s.start.y) * (s.stop.y - s.start.y) : ℤ) : ℚ) +
      t ^ 2 * (dist2 s.stop s.start : ℤ) := by
    intro t
    unfold away between dist2
    push_cast
    ring
  have hexact : ∀ (d : ℤ) (f : ℚ), away p s.start s.stop f = d → ∀ r : ℚ, 0 ≤ r →
      (away p s.start s.stop f ≤ r ^ 2 → (d : ℚ) ≤ (r + 1) ^ 2) ∧
        ((d : ℚ) ≤ r ^ 2 → away p s.start s.stop f ≤ (r + 1) ^ 2) := by
    intro d f h r hr
    rw [h]
    constructor <;> intro h' <;> nlinarith
  unfold measure
  rw [if_neg hs]
  simp only
  generalize (p.x - s.start.x) * (s.stop.x - s.start.x) + (p.y - s.start.y) * (s.stop.y - s.start.y) = dot at hform ⊢
  generalize dist2 s.stop s.start = l at hform hl hlq ⊢
  split
  · rename_i h
    have hq : (l : ℚ) < dot := by exact_mod_cast h
    refine ⟨_, _, rfl, zero_le_one, le_refl _, ?_, ?_⟩
    · intro t h0 h1
      rw [hform 1, hform t]
      nlinarith [mul_nonneg (sub_nonneg.2 h1) (sub_nonneg.2 hq.le), mul_nonneg (sub_nonneg.2 h1) (mul_nonneg hlq.le (sub_nonneg.2 h1))]
    · apply hexact
      unfold away between dist2
      push_cast
      ring
  · rename_i h
    split
    · rename_i h'
      have hq : (dot : ℚ) < 0 := by exact_mod_cast h'
      refine ⟨_, _, rfl, le_refl _, zero_le_one, ?_, ?_⟩
      · intro t h0 h1
        rw [hform t]
        nlinarith [mul_nonneg h0 (neg_nonneg.2 hq.le), mul_nonneg (sq_nonneg t) hlq.le]
      · apply hexact
        unfold away between dist2
        push_cast
        ring
    · rename_i h'
      have hq0 : (0 : ℚ) ≤ dot := by exact_mod_cast not_lt.1 h'
      have hq1 : (dot : ℚ) ≤ l := by exact_mod_cast not_lt.1 h
      refine ⟨_, _, rfl, div_nonneg hq0 hlq.le, (div_le_one hlq).2 hq1, ?_, ?_⟩
      · intro t h0 h1
        rw [hform t, hform]
        have hf : (dot : ℚ) = ((dot : ℚ) / l) * l := (div_mul_cancel₀ _ hlq.ne').symm
        generalize (dot : ℚ) / l = f at hf ⊢
        rw [hf]
        nlinarith [mul_nonneg (sq_nonneg (t - f)) hlq.le]
      · intro r hr
        generalize (dot : ℚ) / l = f
        have hx := hround (lerp s.start.x s.stop.x f)
        have hy := hround (lerp s.start.y s.stop.y f)
        have ex : lerp s.start.x s.stop.x f = between s.start.x s.stop.x f := by unfold lerp between; ring
        have ey : lerp s.start.y s.stop.y f = between s.start.y s.stop.y f := by unfold lerp between; ring
        rw [ex] at hx ⊢
        rw [ey] at hy ⊢
        unfold away dist2
        simp only
        generalize between s.start.x s.stop.x f = bx at hx ⊢
        generalize between s.start.y s.stop.y f = bz at hy ⊢
        generalize round bx = ix at hx ⊢
        generalize round bz = iz at hy ⊢
        push_cast
        constructor
        · intro h
          have := moved (p.x - bx) (p.y - bz) (bx - ix) (bz - iz) r hr h (by rw [abs_sub_comm]; exact hx)
            (by rw [abs_sub_comm]; exact hy)
          refine le_trans (le_of_eq ?_) this
          ring
        · intro h
          have := moved (p.x - ix) (p.y - iz) (ix - bx) (iz - bz) r hr (le_trans (le_of_eq (by ring)) h) hx hy
          refine le_trans (le_of_eq ?_) this
          ring

/-- What the loop has found: nothing if all segments were skipped, else a segment that is closest. -/
theorem scan_ok (round : ℚ → ℤ) (p : Pt) (segs : List Seg) :
    match segs.foldl (scanStep round p) none with
    | none => ∀ s ∈ segs, measure round p s = none
    | some b => (∃ s ∈ segs, ∃ t, measure round p s = some (b.1, t) ∧
        b.2 = (lerp s.uvStart.1 s.uvEnd.1 t, lerp s.uvStart.2 s.uvEnd.2 t)) ∧
        ∀ s ∈ segs, ∀ d t, measure round p s = some (d, t) → b.1 ≤ d := by
  induction segs using List.reverseRecOn with
  | nil => simp
  | append_singleton l s ih =>
    rw [List.foldl_append]
    simp only [List.foldl_cons, List.foldl_nil]
    generalize l.foldl (scanStep round p) none = best at ih ⊢
    unfold scanStep
    rcases hm : measure round p s with _ | ⟨d, t⟩
    · simp only
      rcases best with _ | b
      · intro s' hs'
        rcases List.mem_append.1 hs' with h | h
        · exact ih s' h
        · rw [List.mem_singleton.1 h]; exact hm
      · obtain ⟨⟨s0, h0, t0, h1, h2⟩, h3⟩ := ih
        refine ⟨⟨s0, by simp [h0], t0, h1, h2⟩, ?_⟩
        intro s' hs' d' t' h
        rcases List.mem_append.1 hs' with h' | h'
        · exact h3 s' h' d' t' h
        · rw [List.mem_singleton.1 h', hm] at h; cases h
    · simp only
      rcases best with _ | b
      · refine ⟨⟨s, by simp, t, hm, rfl⟩, ?_⟩
        intro s' hs' d' t' h
        rcases List.mem_append.1 hs' with h' | h'
        · rw [ih s' h'] at h; cases h
        · rw [List.mem_singleton.1 h', hm] at h; cases h; exact le_refl _
      · obtain ⟨⟨s0, h0, t0, h1, h2⟩, h3⟩ := ih
        simp only
        by_cases hlt : d < b.1
        · rw [if_pos hlt]
          refine ⟨⟨s, by simp, t, hm, rfl⟩, ?_⟩
          intro s' hs' d' t' h
          rcases List.mem_append.1 hs' with h' | h'
          · exact le_trans hlt.le (h3 s' h' d' t' h)
          · rw [List.mem_singleton.1 h', hm] at h; cases h; exact le_refl _
        · rw [if_neg hlt]
          refine ⟨⟨s0, by simp [h0], t0, h1, h2⟩, ?_⟩
          intro s' hs' d' t' h
          rcases List.mem_append.1 hs' with h' | h'
          · exact h3 s' h' d' t' h
          · rw [List.mem_singleton.1 h', hm] at h; cases h; exact not_lt.1 hlt

end Verif.Paint
