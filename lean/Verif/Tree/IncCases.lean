import Verif.Tree.IncProps
import Verif.Tree.Cases

/-! # Cases for offsets in steps -/

namespace Verif.Tree.Cases

open Verif.Volumes (Point Region)
open Verif.Support (dist2 Disk Near)

theorem exact_round : exact.Round 0 where
  nonneg := le_rfl
  grows d r := (out_pos (d := (d : Int)) (by positivity) r).ge
  grown d r := (out_pos (d := (d : Int)) (by positivity) r).le
  simplified r p h := near_zero h

/-- Left of the origin. -/
def leftHalf : Region := {p | p.1 ≤ 0}

/-- A wall of 800 µm. -/
def wall : Region := {p | 1000 ≤ p.1 ∧ p.1 ≤ 1800}

/-- Steps of 700 µm; what is left is 600 µm, and the wall is kept out. -/
example : plan 2000 700 0 2 300 = some ⟨700, 2, true⟩ := by decide +kernel

/-- At most 1500 µm are not checked: a step of 700 µm is. -/
example : plan 2000 700 1500 1 300 = some ⟨700, 1, false⟩ := by decide +kernel

/-- At least three steps. -/
example : plan 2000 700 1500 3 300 = some ⟨666, 3, false⟩ := by decide +kernel

/-- An area that is grown to the wall. -/
example : ∃ r, safeOffsetInc exact false leftHalf 2000 wall 700 0 2 300 = some r ∧ ((900, 0) : Point) ∈ r ∧ ((900, 0) : Point) ∉ wall := by
  obtain ⟨r, hr⟩ := C110_grown exact false leftHalf wall (distance := 2000) (minAmount := 2) (minOffset := 300) (safe := 700) 0 (by decide) (by decide)
  have hp : ((900, 0) : Point) ∈ r := by
    refine C110_whole exact_round (by decide) (by decide) le_rfl hr (q := (0, 0)) (by show (0 : ℚ) ≤ 0; exact le_rfl) (by unfold dist2; norm_num)
      fun t h0 h1 hw => ?_
    have := hw.1
    unfold onWay at this
    norm_num at this
    linarith
  obtain ⟨_, _, _, _, _, _, _, _, hc, _⟩ := C110_hops exact_round (by decide) (by decide) le_rfl hr hp
  exact ⟨r, hr, hp, hc rfl⟩

/-- C110: if the least size of steps is above the size that is safe, then the last step may be larger than both, and larger than what may be left
unchecked: here 1800 µm, where 1000 µm would be allowed. -/
theorem C110_rest_counterexample : ∃ (distance safe last minAmount minOffset : Nat) (p : Plan),
    plan distance safe last minAmount minOffset = some p ∧ max (max minOffset safe) last < distance - p.steps * p.step ∧ p.final = false :=
  ⟨2000, 100, 1000, 3, 1000, ⟨100, 3, false⟩, by decide +kernel, by decide, rfl⟩

/-- C110: with fewer micron than steps it is divided by zero. -/
theorem C110_zero_counterexample : safeOffsetInc exact false leftHalf 1 wall 700 0 3 300 = none := by
  have : plan 1 700 0 3 300 = none := by decide +kernel
  unfold safeOffsetInc
  dsimp only
  rw [if_neg (by decide), if_neg (by decide)]
  change (plan 1 700 0 3 300).map _ = none
  rw [this]
  rfl

/-! ## The steps of `safeOffset` -/

/-- What has to be avoided on the layer below. -/
def lower : Region := {p | -500 ≤ p.1}

/-- A wall of 800 µm on a layer. -/
def fence : Region := {p | -400 ≤ p.1 ∧ p.1 ≤ 400}

/-- Behind the wall. -/
def behind : Point := (450, 0)

theorem not_over {n : Nat} : ¬ Hops 760 0 fence n lowerᶜ behind := by
  rintro ⟨path, h0, hn, hi⟩
  have key : ∀ i ≤ n, (path i).1 < -400 := by
    intro i
    induction i with
    | zero =>
      intro _
      have : ¬ -500 ≤ (path 0).1 := h0
      linarith
    | succ i ih =>
      intro hin
      have h1 := ih (by omega)
      obtain ⟨hd, z, hz, hzd⟩ := hi i (by omega)
      have ez : path (i + 1) = z := near_zero_sub ({z} : Region) ⟨z, rfl, hzd⟩
      rw [← ez] at hz
      have h2 : (path (i + 1)).1 < 400 := by
        by_contra hc
        unfold dist2 at hd
        nlinarith [sq_nonneg ((path i).2 - (path (i + 1)).2), not_lt.1 hc]
      by_contra hc
      exact hz ⟨not_lt.1 hc, h2.le⟩
  have := key n le_rfl
  rw [hn] at this
  unfold behind at this
  norm_num at this

/-- C110: the areas to avoid are offset inwards in a single step, although a step of 760 µm is the largest that is safe: a point behind a wall of
800 µm is not avoided, although there is no path of safe steps to it. -/
theorem C110_leap_counterexample : ∃ b, safeOffset plate lower (-1000) (-760) fence = some b ∧ behind ∉ b ∧
    max plate.minStep |-760| = 760 ∧ ∀ n, ¬ Hops 760 0 fence n lowerᶜ behind := by
  have e2 : safeOffset plate lower (-1000) (-760) fence = some ({p | Disk ((1000 : Int) : ℚ) p ⊆ lower} ∪ fence) := by
    unfold safeOffset
    dsimp only
    have hs : sign (-1000) % 256 * max plate.minStep |-760| = 255 * 760 := by decide
    rw [hs, if_neg (by decide)]
    have h1 : ((-1000 : Int).tdiv (255 * 760)).natAbs = 0 := by decide
    have h2 : (-1000 : Int).tmod (255 * 760) = -1000 := by decide
    rw [h1, h2]
    have := in_neg (d := 1000) (by decide) lower
    exact congrArg some (congrArg (· ∪ fence) this)
  refine ⟨_, e2, ?_, by decide, fun _ => not_over⟩
  rintro (h | h)
  · have hx : ((-520, 0) : Point) ∈ Disk ((1000 : Int) : ℚ) behind := by
      show dist2 _ _ ≤ _
      unfold dist2 behind
      norm_num
    have : (-500 : ℚ) ≤ -520 := h hx
    norm_num at this
  · have : (450 : ℚ) ≤ 400 := h.2
    norm_num at this

end Verif.Tree.Cases
