import Verif.Wipe.Lemmas

/-! # C124: wiping -/

namespace Verif.Wipe

open Spec

/-- **C124 (the wipe).** The nozzle goes on along the wall, corner by corner and around it as often as needed, and stops on the side where the wanted distance is reached: the way to the corner before is shorter than it, the way to the next one is not. The loop ends. -/
theorem C124_wipe (len : P2 → P2 → Int) (part : P2 → P2 → Int → P2) (pts : List P2) (dist : Int) (back : Bool) (start : Nat) (last : P2)
    (hl : ∀ p q, 0 ≤ len p q) (hn : 2 ≤ pts.length) (hd : 0 < dist) (hs : start < pts.length)
    (hside : ∃ j, 0 < len (corner pts start back (j + 1)) (corner pts start back (j + 2))) (hpos : 0 < walked len pts start back last (pts.length - 1)) :
    ∃ k, walked len pts start back last k < dist ∧ dist ≤ walked len pts start back last (k + 1) ∧
      ∀ fuel, k + 2 ≤ fuel → wipe len part pts dist back start last fuel =
        some (((List.range k).map fun i => corner pts start back (i + 1)) ++ [part (place pts start back last k) (corner pts start back (k + 1)) (dist - walked len pts start back last k)]) := by
  obtain ⟨j, hj⟩ := hside
  have hex : ∃ k, dist ≤ walked len pts start back last k := ⟨_, le_trans (by rw [Int.toNat_of_nonneg (by omega)]) (reach len pts back start last hl (by omega) j hj dist.toNat)⟩
  classical
  obtain ⟨k, hk⟩ : ∃ k, Nat.find hex = k + 1 := by
    refine Nat.exists_eq_succ_of_ne_zero ?_
    intro h0
    have := Nat.find_spec hex
    rw [h0] at this
    have h0' : walked len pts start back last 0 = 0 := rfl
    omega
  have h2 : dist ≤ walked len pts start back last (k + 1) := hk ▸ Nat.find_spec hex
  have h1 : walked len pts start back last k < dist := not_le.1 (Nat.find_min hex (by omega))
  refine ⟨k, h1, h2, ?_⟩
  intro fuel hf
  rw [wipe, if_pos ⟨hn, hd⟩]
  have := loop_ok len part pts dist back start last hl hn hs k h1 h2 hpos k 0 (by omega) fuel hf
  rw [at_zero _ _ _ hs] at this
  rw [show place pts start back last 0 = last from rfl, show walked len pts start back last 0 = 0 from rfl] at this
  rw [this]
  simp

/-- **C124 (no length).** If there is no way to go until the last corner, the loop ends too, and all its moves are to where the nozzle is. -/
theorem C124_nowhere (len : P2 → P2 → Int) (part : P2 → P2 → Int → P2) (pts : List P2) (dist : Int) (back : Bool) (start : Nat) (last : P2)
    (hl : ∀ p q, 0 ≤ len p q) (hz : ∀ p q, len p q = 0 → p = q) (hn : 2 ≤ pts.length) (hs : start < pts.length) (h0 : walked len pts start back last (pts.length - 1) = 0) :
    ∃ moves, (∀ p ∈ moves, p = last) ∧ ∀ fuel, pts.length ≤ fuel → wipe len part pts dist back start last fuel = some moves := by
  by_cases hd : dist > 0
  · refine ⟨(List.range (pts.length - 1)).map fun i => corner pts start back (0 + i + 1), ?_, ?_⟩
    · have key : ∀ i, i ≤ pts.length - 1 → place pts start back last i = last := by
        intro i
        induction i with
        | zero => intro _; rfl
        | succ i ih =>
          intro hi
          have h1 := walked_mono len pts back start last hl (i + 1) _ hi
          have h2 := walked_mono len pts back start last hl 0 i (by omega)
          have h3 : walked len pts start back last 0 = 0 := rfl
          rw [walked] at h1
          have h4 := hl (place pts start back last i) (corner pts start back (i + 1))
          have := hz _ _ (show len (place pts start back last i) (corner pts start back (i + 1)) = 0 by omega)
          rw [ih (by omega)] at this
          exact this.symm
      intro p hp
      obtain ⟨i, hi, rfl⟩ := List.mem_map.1 hp
      rw [List.mem_range] at hi
      have := key (i + 1) (by omega)
      rw [Nat.zero_add]
      exact this
    · intro fuel hf
      rw [wipe, if_pos ⟨hn, hd⟩]
      have := loop_zero len part pts dist back start last hl hd hn hs h0 (pts.length - 1) 0 (by omega) fuel (by omega)
      rw [at_zero _ _ _ hs] at this
      exact this
  · exact ⟨[], by simp, fun fuel _ => by rw [wipe, if_neg (by omega)]⟩

/-- **C124 (no wipe).** Without a distance there are no moves. -/
theorem C124_off (len : P2 → P2 → Int) (part : P2 → P2 → Int → P2) (pts : List P2) (dist : Int) (back : Bool) (start : Nat) (last : P2) (fuel : Nat) (h : dist ≤ 0) :
    wipe len part pts dist back start last fuel = some [] := by
  rw [wipe, if_neg (by omega)]

/-- The length of a move, rounded down. -/
def size (p q : P2) : Int := Int.sqrt ((p.1 - q.1) * (p.1 - q.1) + (p.2 - q.2) * (p.2 - q.2))

/-- A part of a move. -/
def toward (p q : P2) (d : Int) : P2 := (p.1 + ((q.1 - p.1) * d).tdiv (size p q), p.2 + ((q.2 - p.2) * d).tdiv (size p q))

/-- **C124 does not hold for open walls.** The function is called for open walls too. From the end of one it leads straight to its start, off the wall: here the wall goes to the right and then up, and the wipe ends at a place that is neither at the height of the first side nor above the end of it. -/
theorem C124_open_counterexample : ∃ (pts : List P2) (p : P2), pts = [(0, 0), (400, 0), (400, 300)] ∧ wipe size toward pts 100 false 1 (400, 300) 10 = some [(400, 300), p] ∧ p.2 ≠ 0 ∧ p.1 ≠ 400 :=
  ⟨_, (320, 240), rfl, by decide +kernel, by decide, by decide⟩

end Verif.Wipe
