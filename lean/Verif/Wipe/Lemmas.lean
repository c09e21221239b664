import Verif.Wipe.Model
import Mathlib.Tactic.Linarith
import Mathlib.Tactic.SplitIfs
import Mathlib.Tactic.Ring

/-! # Wiping: lemmas -/

namespace Verif.Wipe

open Spec

/-- The index after some steps. -/
def at' (n : Nat) (back : Bool) (start k : Nat) : Nat := if back then (start + k * n - k) % n else (start + k) % n

theorem step_at (n : Nat) (back : Bool) (start k : Nat) (hn : 1 ≤ n) : step n back (at' n back start k) = at' n back start (k + 1) := by
  unfold step at'
  cases back
  · simp only [Bool.false_eq_true, if_false]
    rw [Nat.add_mod_right, Nat.mod_add_mod, Nat.add_assoc]
  · simp only [if_true]
    have hk : k ≤ k * n := Nat.le_mul_of_pos_right k hn
    have e : start + (k + 1) * n - (k + 1) = (start + k * n - k) + (n - 1) := by
      rw [Nat.succ_mul]; omega
    rw [e, show (start + k * n - k) % n + n - 1 = (start + k * n - k) % n + (n - 1) by omega, Nat.mod_add_mod]

theorem at_zero (n : Nat) (back : Bool) (start : Nat) (h : start < n) : at' n back start 0 = start := by
  unfold at'
  cases back <;> simp [Nat.mod_eq_of_lt h]

theorem corner_at (pts : List P2) (start : Nat) (back : Bool) (k : Nat) : corner pts start back k = pts.getD (at' pts.length back start k) (0, 0) := by
  unfold corner at'
  cases back <;> rfl

theorem at_eq_start (n : Nat) (back : Bool) (start k : Nat) (h : start < n) (hk : k < n) : at' n back start k = start ↔ k = 0 := by
  constructor
  · intro e
    by_contra hne
    unfold at' at e
    cases back
    · simp only [Bool.false_eq_true, if_false] at e
      by_cases hw : start + k < n
      · rw [Nat.mod_eq_of_lt hw] at e; omega
      · rw [show start + k = (start + k - n) + n by omega, Nat.add_mod_right, Nat.mod_eq_of_lt (by omega)] at e; omega
    · simp only [if_true] at e
      obtain ⟨j, rfl⟩ : ∃ j, k = j + 1 := ⟨k - 1, by omega⟩
      have e' : start + (j + 1) * n - (j + 1) = (start + n - (j + 1)) + n * j := by
        rw [Nat.succ_mul, Nat.mul_comm n j]; omega
      rw [e', Nat.add_mul_mod_self_left] at e
      by_cases hw : start + n - (j + 1) < n
      · rw [Nat.mod_eq_of_lt hw] at e; omega
      · rw [show start + n - (j + 1) = (start - (j + 1)) + n by omega, Nat.add_mod_right, Nat.mod_eq_of_lt (by omega)] at e; omega
  · rintro rfl
    exact at_zero n back start h

theorem at_period (n : Nat) (back : Bool) (start k : Nat) (hn : 1 ≤ n) : at' n back start (k + n) = at' n back start k := by
  unfold at'
  cases back
  · simp only [Bool.false_eq_true, if_false]
    rw [← Nat.add_assoc, Nat.add_mod_right]
  · simp only [if_true]
    have hk : k ≤ k * n := Nat.le_mul_of_pos_right k hn
    have hn' : n ≤ n * n := Nat.le_mul_of_pos_right n hn
    obtain ⟨m, rfl⟩ : ∃ m, n = m + 1 := ⟨n - 1, by omega⟩
    have e : start + (k + (m + 1)) * (m + 1) - (k + (m + 1)) = (start + k * (m + 1) - k) + (m + 1) * m := by
      have : (k + (m + 1)) * (m + 1) = k * (m + 1) + (m + 1) * m + (m + 1) := by ring
      omega
    rw [e, Nat.add_mul_mod_self_left]

section
variable (len : P2 → P2 → Int) (part : P2 → P2 → Int → P2) (pts : List P2) (dist : Int) (back : Bool) (start : Nat) (last : P2)

local notation "L" => walked len pts start back last
local notation "P" => place pts start back last
local notation "C" => corner pts start back

theorem walked_mono (hl : ∀ p q, 0 ≤ len p q) (a b : Nat) (h : a ≤ b) : L a ≤ L b := by
  induction b with
  | zero => have : a = 0 := by omega
            subst this; exact le_refl _
  | succ b ih =>
    rcases Nat.lt_or_ge b a with hb | hb
    · have : a = b + 1 := by omega
      subst this; exact le_refl _
    · have := ih hb
      rw [walked]
      have := hl (P b) (C (b + 1))
      omega

/-- The loop from the `j`-th corner on, when the way is long enough. -/
theorem loop_ok (hl : ∀ p q, 0 ≤ len p q) (hn : 2 ≤ pts.length) (hs : start < pts.length) (k : Nat) (h1 : L k < dist) (h2 : dist ≤ L (k + 1)) (hpos : 0 < L (pts.length - 1)) :
    ∀ (m j : Nat), j + m = k → ∀ fuel, m + 2 ≤ fuel →
      loop len part pts dist back start fuel (at' pts.length back start j) (P j) (L j) =
        some (((List.range m).map fun i => C (j + i + 1)) ++ [part (P k) (C (k + 1)) (dist - L k)]) := by
  intro m
  induction m with
  | zero =>
    intro j hj fuel hf
    have : j = k := by omega
    subst this
    obtain ⟨f, rfl⟩ : ∃ f, fuel = f + 1 + 1 := ⟨fuel - 2, by omega⟩
    rw [loop, if_pos h1]
    dsimp only
    rw [step_at _ _ _ _ (by omega)]
    have hbr : ¬ (at' pts.length back start (j + 1) = start ∧ L j = 0) := by
      rintro ⟨e1, e2⟩
      by_cases hk : j + 1 < pts.length
      · rw [at_eq_start _ _ _ _ hs hk] at e1; omega
      · have := walked_mono len pts back start last hl (pts.length - 1) j (by omega)
        omega
    rw [if_neg hbr, ← corner_at]
    have hw : L j + len (P j) (C (j + 1)) = L (j + 1) := rfl
    rw [hw, if_pos h2, loop, if_neg (by omega)]
    simp
  | succ m ih =>
    intro j hj fuel hf
    obtain ⟨f, rfl⟩ : ∃ f, fuel = f + 1 := ⟨fuel - 1, by omega⟩
    have hjk := walked_mono len pts back start last hl j k (by omega)
    have hjk' := walked_mono len pts back start last hl (j + 1) k (by omega)
    rw [loop, if_pos (by omega)]
    dsimp only
    rw [step_at _ _ _ _ (by omega)]
    have hbr : ¬ (at' pts.length back start (j + 1) = start ∧ L j = 0) := by
      rintro ⟨e1, e2⟩
      by_cases hk : j + 1 < pts.length
      · rw [at_eq_start _ _ _ _ hs hk] at e1; omega
      · have := walked_mono len pts back start last hl (pts.length - 1) j (by omega)
        omega
    rw [if_neg hbr, ← corner_at]
    have hw : L j + len (P j) (C (j + 1)) = L (j + 1) := rfl
    rw [hw, if_neg (by omega)]
    have := ih (j + 1) (by omega) f (by omega)
    rw [show P (j + 1) = C (j + 1) from rfl] at this
    rw [this, List.range_succ_eq_map]
    simp only [Option.map_some, List.map_cons, List.map_map, List.cons_append, Nat.add_zero]
    congr 3
    apply List.map_congr_left
    intro i _
    simp only [Function.comp]
    congr 1
    omega

/-- The loop when the way to the last corner has no length. -/
theorem loop_zero (hl : ∀ p q, 0 ≤ len p q) (hd : 0 < dist) (hn : 2 ≤ pts.length) (hs : start < pts.length) (h0 : L (pts.length - 1) = 0) :
    ∀ (m j : Nat), j + m = pts.length - 1 → ∀ fuel, m + 1 ≤ fuel →
      loop len part pts dist back start fuel (at' pts.length back start j) (P j) (L j) = some ((List.range m).map fun i => C (j + i + 1)) := by
  have hz : ∀ j, j ≤ pts.length - 1 → L j = 0 := by
    intro j hj
    have h1 := walked_mono len pts back start last hl j _ hj
    have h2 := walked_mono len pts back start last hl 0 j (by omega)
    have : L 0 = 0 := rfl
    omega
  intro m
  induction m with
  | zero =>
    intro j hj fuel hf
    obtain ⟨f, rfl⟩ : ∃ f, fuel = f + 1 := ⟨fuel - 1, by omega⟩
    rw [loop, hz j (by omega), if_pos hd]
    dsimp only
    rw [step_at _ _ _ _ (by omega), show j + 1 = 0 + pts.length by omega, at_period _ _ _ _ (by omega), at_zero _ _ _ hs, if_pos ⟨rfl, rfl⟩]
    rfl
  | succ m ih =>
    intro j hj fuel hf
    obtain ⟨f, rfl⟩ : ∃ f, fuel = f + 1 := ⟨fuel - 1, by omega⟩
    rw [loop, if_pos (by rw [hz j (by omega)]; exact hd)]
    dsimp only
    rw [step_at _ _ _ _ (by omega), if_neg (by
      rintro ⟨e, _⟩
      rw [at_eq_start _ _ _ _ hs (by omega)] at e; omega), ← corner_at]
    have hw : L j + len (P j) (C (j + 1)) = L (j + 1) := rfl
    rw [hw, if_neg (by rw [hz (j + 1) (by omega)]; omega)]
    have := ih (j + 1) (by omega) f (by omega)
    rw [show P (j + 1) = C (j + 1) from rfl] at this
    rw [this, List.range_succ_eq_map]
    simp only [Option.map_some, List.map_cons, List.map_map, Nat.add_zero]
    congr 2
    apply List.map_congr_left
    intro i _
    simp only [Function.comp]
    congr 1
    omega

/-- With a side that has a length, any distance is reached. -/
theorem reach (hl : ∀ p q, 0 ≤ len p q) (hn : 1 ≤ pts.length) (j : Nat) (hpos : 0 < len (C (j + 1)) (C (j + 2))) : ∀ m : Nat, (m : Int) ≤ L (j + 2 + m * pts.length) := by
  have hper : ∀ m, C (j + 1 + m * pts.length) = C (j + 1) ∧ C (j + 2 + m * pts.length) = C (j + 2) := by
    intro m
    induction m with
    | zero => simp
    | succ m ih =>
      rw [Nat.succ_mul]
      simp only [corner_at] at ih ⊢
      rw [← Nat.add_assoc, ← Nat.add_assoc, at_period _ _ _ _ hn, at_period _ _ _ _ hn]
      exact ih
  intro m
  induction m with
  | zero =>
    have := walked_mono len pts back start last hl 0 (j + 2 + 0 * pts.length) (by omega)
    have h0 : L 0 = 0 := rfl
    simp only [Nat.cast_zero]
    omega
  | succ m ih =>
    have e : j + 2 + (m + 1) * pts.length = (j + 1 + (m + 1) * pts.length) + 1 := by omega
    rw [e, walked]
    have hp : P (j + 1 + (m + 1) * pts.length) = C (j + 1 + (m + 1) * pts.length) := by
      rw [show j + 1 + (m + 1) * pts.length = (j + (m + 1) * pts.length) + 1 by omega]; rfl
    rw [hp, ← e, (hper (m + 1)).1, (hper (m + 1)).2]
    have := walked_mono len pts back start last hl (j + 2 + m * pts.length) (j + 1 + (m + 1) * pts.length) (by rw [Nat.succ_mul]; omega)
    push_cast
    omega

end

end Verif.Wipe
