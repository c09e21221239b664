import Verif.Seam.NeighbourLemmas

/-! # The neighbours between which the angle of a corner is measured: C139 -/

namespace Verif.Seam

open NeighbourSpec

/-- **C139.** Forward: for each vertex of a closed wall and each positive distance that is not longer than the wall, the
search ends, and gives the point that is reached after that distance along the segments that follow the vertex. -/
theorem C139_forward (points : List (ℤ × ℤ)) (segs : List ℕ) (hl : segs.length = points.length)
    (hn : points.length < 2 ^ 32) (v : ℕ) (hv : v < points.length) (d : ℕ) (hd : 0 < d) (htot : d ≤ segs.sum) :
    ∃ k, k < points.length ∧
      passed (fun i => segs.getD ((v + i) % points.length) 0) k < d ∧
      ∃ p, findNeighbour points segs v d points.length = some p ∧
        On (points.getD ((v + k) % points.length) (0, 0)) (points.getD ((v + (k + 1)) % points.length) (0, 0))
          (segs.getD ((v + k) % points.length) 0)
          (d - passed (fun i => segs.getD ((v + i) % points.length) 0) k) p := by
  obtain ⟨k, hk, h1, h2, h3⟩ := walkLoop_ok segs v 1 (-1) d points.length
    (fun i => segs.getD ((v + i) % points.length) 0) (by
      intro i hi
      have e : ((i + 1 : ℕ) : ℤ) * 1 + -1 = (i : ℤ) := by push_cast; ring
      rw [e, hl, position_forward _ _ _ hn hv (by omega)])
    (by rw [← hl, passed_round]; exact htot) points.length 0 (by omega) (by omega) 0 (by simpa [passed] using hd)
  refine ⟨k, hk, h1, ?_⟩
  rw [show (((0 : ℕ) : ℤ) * 1) = 0 from rfl, show passed (fun i => segs.getD ((v + i) % points.length) 0) 0 = 0 from rfl]
    at h3
  have hsucc : passed (fun i => segs.getD ((v + i) % points.length) 0) (k + 1) =
      passed (fun i => segs.getD ((v + i) % points.length) 0) k + segs.getD ((v + k) % points.length) 0 := by
    unfold passed; rw [Finset.sum_range_succ]
  rw [hsucc] at h2 h3
  have hpos : (0 : ℤ) < d := by exact_mod_cast hd
  have p1 : position points.length v (((k + 1 : ℕ) : ℤ) * 1) = (v + (k + 1)) % points.length := by
    rw [mul_one, position_forward _ _ _ hn hv (by omega)]
  have p2 : position points.length v (((k + 1 : ℕ) : ℤ) * 1 - 1) = (v + k) % points.length := by
    rw [show ((k + 1 : ℕ) : ℤ) * 1 - 1 = (k : ℤ) by push_cast; ring, position_forward _ _ _ hn hv (by omega)]
  refine ⟨_, ?_, finish_on (points.getD ((v + k) % points.length) (0, 0))
    (points.getD ((v + (k + 1)) % points.length) (0, 0)) _ d _ h1 h2⟩
  unfold findNeighbour
  simp only [hpos, if_true, Int.natAbs_natCast, h3, p1, p2]
  split <;> rfl

/-- **C139.** Backward: for each negative distance, the point that is reached after that distance along the segments
that precede the vertex. -/
theorem C139_backward (points : List (ℤ × ℤ)) (segs : List ℕ) (hl : segs.length = points.length)
    (hn : points.length < 2 ^ 32) (v : ℕ) (hv : v < points.length) (d : ℕ) (hd : 0 < d) (htot : d ≤ segs.sum) :
    ∃ k, k < points.length ∧
      passed (fun i => segs.getD ((v + points.length - (i + 1)) % points.length) 0) k < d ∧
      ∃ p, findNeighbour points segs v (-(d : ℤ)) points.length = some p ∧
        On (points.getD ((v + points.length - k) % points.length) (0, 0))
          (points.getD ((v + points.length - (k + 1)) % points.length) (0, 0))
          (segs.getD ((v + points.length - (k + 1)) % points.length) 0)
          (d - passed (fun i => segs.getD ((v + points.length - (i + 1)) % points.length) 0) k) p := by
  obtain ⟨k, hk, h1, h2, h3⟩ := walkLoop_ok segs v (-1) 0 d points.length
    (fun i => segs.getD ((v + points.length - (i + 1)) % points.length) 0) (by
      intro i hi
      have e : ((i + 1 : ℕ) : ℤ) * -1 + 0 = -((i + 1 : ℕ) : ℤ) := by ring
      rw [e, hl, position_backward _ _ _ hn hv (by omega)])
    (by
      have := passed_round_back segs v
      rw [hl] at this
      rw [this]
      exact htot) points.length 0 (by omega) (by omega) 0 (by simpa [passed] using hd)
  refine ⟨k, hk, h1, ?_⟩
  rw [show (((0 : ℕ) : ℤ) * -1) = 0 from rfl,
    show passed (fun i => segs.getD ((v + points.length - (i + 1)) % points.length) 0) 0 = 0 from rfl] at h3
  have hsucc : passed (fun i => segs.getD ((v + points.length - (i + 1)) % points.length) 0) (k + 1) =
      passed (fun i => segs.getD ((v + points.length - (i + 1)) % points.length) 0) k +
        segs.getD ((v + points.length - (k + 1)) % points.length) 0 := by
    unfold passed; rw [Finset.sum_range_succ]
  rw [hsucc] at h2 h3
  have hpos : ¬(0 : ℤ) < -(d : ℤ) := by omega
  have p1 : position points.length v (((k + 1 : ℕ) : ℤ) * -1) = (v + points.length - (k + 1)) % points.length := by
    rw [show ((k + 1 : ℕ) : ℤ) * -1 = -((k + 1 : ℕ) : ℤ) by ring, position_backward _ _ _ hn hv (by omega)]
  have p2 : position points.length v (((k + 1 : ℕ) : ℤ) * -1 - -1) = (v + points.length - k) % points.length := by
    rw [show ((k + 1 : ℕ) : ℤ) * -1 - -1 = -(k : ℤ) by push_cast; ring, position_backward _ _ _ hn hv (by omega)]
  refine ⟨_, ?_, finish_on (points.getD ((v + points.length - k) % points.length) (0, 0))
    (points.getD ((v + points.length - (k + 1)) % points.length) (0, 0)) _ d _ h1 h2⟩
  unfold findNeighbour
  simp only [hpos, if_false, Int.natAbs_neg, Int.natAbs_natCast, h3, p1, p2]
  split <;> rfl

/-- **C139.** A distance of zero gives the vertex itself. -/
theorem C139_zero (points : List (ℤ × ℤ)) (segs : List ℕ) (hn : points.length < 2 ^ 32) (v : ℕ)
    (hv : v < points.length) (fuel : ℕ) :
    findNeighbour points segs v 0 fuel = some points[v] := by
  have hp : position points.length v 0 = v := by
    have := position_forward points.length v 0 hn hv (by omega)
    rw [Nat.add_zero, Nat.mod_eq_of_lt hv] at this
    exact_mod_cast this
  have hw : walkLoop segs v (-1) 0 0 fuel ⟨0, 0, 0⟩ = some ⟨0, 0, 0⟩ := by
    cases fuel <;> unfold walkLoop <;> rfl
  unfold findNeighbour
  simp [hw, hp, hv]

/-- **C139.** The angle of each corner is measured between the point before and the point after it at the query distance,
or at half of the length of the wall if that is shorter: the search for both ends, and both are as stated above. -/
theorem C139_corner (points : List (ℤ × ℤ)) (segs : List ℕ) (hl : segs.length = points.length)
    (hn : points.length < 2 ^ 32) (v : ℕ) (hv : v < points.length) (query : ℕ) :
    ∃ previous next, cornerNeighbours points segs v query points.length = some (previous, next) ∧
      findNeighbour points segs v (if query ≤ segs.sum / 2 then (query : ℤ) else (segs.sum / 2 : ℕ)) points.length =
        some next ∧
      findNeighbour points segs v (if query ≤ segs.sum / 2 then -(query : ℤ) else -((segs.sum / 2 : ℕ) : ℤ))
        points.length = some previous := by
  have key : ∀ d : ℕ, d ≤ segs.sum → (∃ p, findNeighbour points segs v d points.length = some p) ∧
      ∃ p, findNeighbour points segs v (-(d : ℤ)) points.length = some p := by
    intro d hd
    rcases Nat.eq_zero_or_pos d with h | h
    · subst h
      exact ⟨⟨_, C139_zero points segs hn v hv _⟩, ⟨_, C139_zero points segs hn v hv _⟩⟩
    · obtain ⟨_, _, _, p, hp, _⟩ := C139_forward points segs hl hn v hv d h hd
      obtain ⟨_, _, _, q, hq, _⟩ := C139_backward points segs hl hn v hv d h hd
      exact ⟨⟨p, hp⟩, ⟨q, hq⟩⟩
  obtain ⟨⟨p, hp⟩, ⟨q, hq⟩⟩ := key (min query (segs.sum / 2)) (by omega)
  refine ⟨q, p, ?_, ?_, ?_⟩
  · simp only [cornerNeighbours, hp, hq]
  · by_cases h : query ≤ segs.sum / 2
    · rw [if_pos h]; rwa [min_eq_left h] at hp
    · rw [if_neg h]; rwa [min_eq_right (by omega)] at hp
  · by_cases h : query ≤ segs.sum / 2
    · rw [if_pos h]; rwa [min_eq_left h] at hq
    · rw [if_neg h]; rwa [min_eq_right (by omega)] at hq

/-- A case of the hypotheses: a square of 1000 by 1000; 1500 after the first corner, and 300 before it. -/
example : findNeighbour [(0, 0), (1000, 0), (1000, 1000), (0, 1000)] [1000, 1000, 1000, 1000] 0 1500 4 =
    some (1000, 500) := by decide +kernel

example : findNeighbour [(0, 0), (1000, 0), (1000, 1000), (0, 1000)] [1000, 1000, 1000, 1000] 0 (-300) 4 =
    some (0, 300) := by decide +kernel

example : cornerNeighbours [(0, 0), (1000, 0), (1000, 1000), (0, 1000)] [1000, 1000, 1000, 1000] 1 700 4 =
    some ((300, 0), (1000, 700)) := by decide +kernel

/-- Beyond the hypotheses: on a wall without length the search for a distance does not end, however long it
runs. `cornerAngle` never asks for it: it halves the length of the wall, see `C139_corner`. -/
theorem C139_bound_needed (fuel : ℕ) : findNeighbour [(0, 0)] [0] 0 1000 fuel = none := by
  have h : ∀ fuel (w : Walk), w.travelled = 0 → walkLoop [0] 0 1 (-1) 1000 fuel w = none := by
    intro fuel
    induction fuel with
    | zero => intro w hw; unfold walkLoop; simp [hw]
    | succ f ih =>
      intro w hw
      unfold walkLoop
      rw [if_pos (by omega)]
      refine ih _ ?_
      have : position 1 0 w.delta = 0 := Nat.mod_one _
      simp [hw, this]
  unfold findNeighbour
  simp [h fuel ⟨0, 0, 0⟩ rfl]

end Verif.Seam
