import Verif.Simplify.PathLemmas
import Mathlib.Algebra.Order.Ring.Rat
import Mathlib.Algebra.Order.Field.Basic
import Mathlib.Tactic.Linarith
import Mathlib.Tactic.FieldSimp

/-! # What the distances of the steps of simplification say (C98)

The steps in Spec.lean are stated with the distances that the code calculates with rounding. Here it is shown which distances these are. -/

namespace Verif.Simplify

/-- `L` is the square root of `D`, rounded to the nearest integer. -/
def Rounded (L D : Int) : Prop := 0 ≤ L ∧ L * L - L ≤ D ∧ D ≤ L * L + L

theorem size_rounded (p q : Pt) : Rounded (size p q) (size2 p q) := by
  refine ⟨by unfold size; positivity, ?_, size_upper p q⟩
  have h0 := size2_nonneg p q
  unfold size
  obtain ⟨n, hn⟩ := Int.eq_ofNat_of_zero_le h0
  rw [hn, Int.toNat_natCast]
  unfold roundSqrt
  have h1 := Nat.sqrt_le n
  split
  · next h =>
    have : ((Nat.sqrt n : Int) * Nat.sqrt n + Nat.sqrt n) < (n : Int) := by exact_mod_cast h
    push_cast
    nlinarith
  · have : ((Nat.sqrt n : Int) * Nat.sqrt n) ≤ (n : Int) := by exact_mod_cast h1
    nlinarith

theorem mul_self_le {x d : Int} (hx : 0 ≤ x) (hd : 0 ≤ d) : x * x ≤ d * d ↔ x ≤ d := by
  constructor
  · intro h
    nlinarith
  · intro h
    nlinarith

/-- The square of the calculated distance of `p` from the line through `a` and `b` is at most that of `d` exactly if the area of the
parallelogram over `a`, `b`, `p` is less than `(d + 1)` times the rounded distance of `a` and `b`; if `a = b`, exactly if the rounded
distance of `p` from `a` is at most `d`. -/
theorem C98_line_distance (p a b : Pt) (d : Int) (hd : 0 ≤ d) :
    ∃ L, Rounded L ((b.1 - a.1) * (b.1 - a.1) + (b.2 - a.2) * (b.2 - a.2)) ∧
      (0 < L → (dist2 p a b ≤ d * d ↔ |(b.1 - a.1) * (p.2 - a.2) - (b.2 - a.2) * (p.1 - a.1)| < (d + 1) * L)) ∧
      (L = 0 → a = b ∧ ∃ S, Rounded S ((p.1 - a.1) * (p.1 - a.1) + (p.2 - a.2) * (p.2 - a.2)) ∧ (dist2 p a b ≤ d * d ↔ S ≤ d)) := by
  have hr := size_rounded b a
  refine ⟨size b a, hr, ?_, ?_⟩
  · intro hL
    unfold dist2 dist
    rw [if_neg (by omega)]
    have e : |(p.1 - b.1) * (p.2 - a.2) + (a.1 - p.1) * (p.2 - b.2)| = |(b.1 - a.1) * (p.2 - a.2) - (b.2 - a.2) * (p.1 - a.1)| := by
      rw [← abs_neg]
      congr 1
      ring
    rw [e, mul_self_le (Int.ediv_nonneg (abs_nonneg _) (by omega)) hd, ← Int.lt_add_one_iff, Int.ediv_lt_iff_lt_mul hL]
  · intro hL
    have hab : a = b := by
      have h2 := hr.2.2
      have h0 := size2_nonneg b a
      rw [hL] at h2
      exact (eq_of_size (by omega)).symm
    refine ⟨hab, size p a, size_rounded p a, ?_⟩
    unfold dist2 dist
    rw [if_pos hL, mul_self_le (size_rounded p a).1 hd]

/-- Truncation changes a number by less than one. -/
theorem tdiv_near (n d : Int) (hd : 0 < d) : |((n.tdiv d : Int) : ℚ) - (n : ℚ) / d| < 1 := by
  have h := Int.mul_tdiv_add_tmod n d
  have h1 : |n.tmod d| < d := by
    rw [abs_lt]
    constructor
    · exact Int.lt_tmod_of_pos n hd
    · exact Int.tmod_lt_of_pos n hd
  have hdq : (0 : ℚ) < d := by exact_mod_cast hd
  have e : (n : ℚ) = d * (n.tdiv d : Int) + (n.tmod d : Int) := by exact_mod_cast h.symm
  rw [e]
  have : ((n.tdiv d : Int) : ℚ) - (d * (n.tdiv d : Int) + (n.tmod d : Int)) / d = - (((n.tmod d : Int) : ℚ) / d) := by
    field_simp
    ring
  rw [this, abs_neg, abs_div, abs_of_pos hdq, div_lt_one hdq]
  exact_mod_cast h1

/-- A point that a vertex is moved to is close to the short segment that it replaces: it is not farther than `d` from a point of the
segment, up to an error of less than one in each direction. -/
theorem C98_segment_distance (a x c : Pt) (d : Int) (h : segDist2 a x c ≤ d * d) :
    ∃ t e f : ℚ, 0 ≤ t ∧ t ≤ 1 ∧ |e| < 1 ∧ |f| < 1 ∧
      (x.1 - (a.1 + t * (c.1 - a.1) + e)) * (x.1 - (a.1 + t * (c.1 - a.1) + e)) +
        (x.2 - (a.2 + t * (c.2 - a.2) + f)) * (x.2 - (a.2 + t * (c.2 - a.2) + f)) ≤ (d : ℚ) * d := by
  have hr := size_rounded c a
  unfold segDist2 at h
  by_cases h0 : size c a = 0
  · rw [if_pos h0] at h
    refine ⟨0, 0, 0, le_refl _, by norm_num, by norm_num, by norm_num, ?_⟩
    unfold size2 at h
    have : ((x.1 - a.1 : Int) : ℚ) * (x.1 - a.1 : Int) + (x.2 - a.2 : Int) * (x.2 - a.2 : Int) ≤ (d : ℚ) * d := by exact_mod_cast h
    push_cast at this
    simpa using this
  · rw [if_neg h0] at h
    dsimp only at h
    generalize hax : ((x.1 - a.1) * (c.1 - a.1) + (x.2 - a.2) * (c.2 - a.2)).tdiv (size c a) = ax at h
    have hpos : 0 < size c a := by have := hr.1; omega
    by_cases h1 : ax < 0
    · rw [if_pos h1] at h
      refine ⟨0, 0, 0, le_refl _, by norm_num, by norm_num, by norm_num, ?_⟩
      unfold size2 at h
      have : ((x.1 - a.1 : Int) : ℚ) * (x.1 - a.1 : Int) + (x.2 - a.2 : Int) * (x.2 - a.2 : Int) ≤ (d : ℚ) * d := by exact_mod_cast h
      push_cast at this
      simpa using this
    · rw [if_neg h1] at h
      by_cases h2 : ax > size c a
      · rw [if_pos h2] at h
        refine ⟨1, 0, 0, by norm_num, le_refl _, by norm_num, by norm_num, ?_⟩
        unfold size2 at h
        have : ((x.1 - c.1 : Int) : ℚ) * (x.1 - c.1 : Int) + (x.2 - c.2 : Int) * (x.2 - c.2 : Int) ≤ (d : ℚ) * d := by exact_mod_cast h
        push_cast at this
        simpa using this
      · rw [if_neg h2] at h
        have hq : (0 : ℚ) < (size c a : Int) := by exact_mod_cast hpos
        refine ⟨(ax : ℚ) / (size c a : Int), _, _, ?_, ?_, tdiv_near ((c.1 - a.1) * ax) _ hpos, tdiv_near ((c.2 - a.2) * ax) _ hpos, ?_⟩
        · have : (0 : ℚ) ≤ ax := by exact_mod_cast (by omega : 0 ≤ ax)
          positivity
        · rw [div_le_one hq]
          exact_mod_cast (by omega : ax ≤ size c a)
        · unfold size2 at h
          have h' := (Int.cast_le (R := ℚ)).2 h
          push_cast at h' ⊢
          refine le_trans (le_of_eq ?_) h'
          ring

/-- Vertices are moved to the point where the segments meet; a junction gets the mean of the widths of its neighbours. -/
theorem C98_moved (meet : Pt → Pt → Pt → Pt → Option Pt) (res dev area : Int) :
    (∀ b x a : Pt, (points meet res dev area).pos ((points meet res dev area).cross b x a) = x) ∧
    (∀ (b : Junction) (x : Pt) (a : Junction), ((junctions meet res dev area).cross b x a).p = x ∧
      (0 ≤ b.w → 0 ≤ a.w → 2 * ((junctions meet res dev area).cross b x a).w ≤ b.w + a.w ∧
        b.w + a.w ≤ 2 * ((junctions meet res dev area).cross b x a).w + 1)) := by
  refine ⟨fun b x a => rfl, fun b x a => ⟨rfl, fun hb ha => ?_⟩⟩
  show 2 * ((b.w + a.w).tdiv 2) ≤ b.w + a.w ∧ b.w + a.w ≤ 2 * ((b.w + a.w).tdiv 2) + 1
  rw [Int.tdiv_eq_ediv_of_nonneg (by omega)]
  omega

/-- A point beside a segment, before it and behind it. -/
example : segDist2 (0, 0) (30, 40) (100, 0) = 40 * 40 ∧ segDist2 (0, 0) (-30, 40) (100, 0) = 50 * 50 ∧
    segDist2 (0, 0) (130, 40) (100, 0) = 50 * 50 := by decide +kernel

example : dist2 (30, 40) (0, 0) (100, 0) = 40 * 40 ∧ dist2 (3, 4) (0, 0) (0, 0) = 5 * 5 := by decide +kernel

end Verif.Simplify
