import Mathlib.Data.Rat.Floor
import Mathlib.Tactic.Linarith
import Mathlib.Tactic.FieldSimp
import Mathlib.Tactic.Ring
import Verif.Text.Model

/-! # Rounding of `snprintf("%.pF")` and the zero test

The value of a double is modelled as an exact rational (every finite double is one). -/

namespace Verif.Text
open Verif

/-- Round to the nearest integer, ties to even: what `snprintf` does with the exact value (C17 7.21.6.1, default
rounding mode). -/
def roundHalfEven (q : ℚ) : Int :=
  if q - ⌊q⌋ < 1 / 2 then ⌊q⌋
  else if 1 / 2 < q - ⌊q⌋ then ⌊q⌋ + 1
  else if ⌊q⌋ % 2 = 0 then ⌊q⌋ else ⌊q⌋ + 1

/-- `writeDoubleToStream`, string.h:153-191, for a finite double of value `x`; `-0.0` is taken to be `0`. -/
def writeDoubleToStream (garbage : List Char) (p : Nat) (x : ℚ) : Outcome (List Char) :=
  writeDouble garbage (decide (x < 0)) p (roundHalfEven (|x| * 10 ^ p)).toNat

/-- `PrecisionedDouble::wouldWriteZero`, string.h:201-204; the product is taken to be exact. -/
def wouldWriteZero (p : Nat) (x : ℚ) : Bool := decide (|x| * 10 ^ p < 1)

theorem roundHalfEven_close (q : ℚ) : |(roundHalfEven q : ℚ) - q| ≤ 1 / 2 := by
  have h1 : (⌊q⌋ : ℚ) ≤ q := Int.floor_le q
  have h2 : q < ⌊q⌋ + 1 := Int.lt_floor_add_one q
  unfold roundHalfEven
  rw [abs_le]
  split
  · constructor <;> linarith
  · split
    · push_cast; constructor <;> linarith
    · split
      · constructor <;> linarith
      · push_cast; constructor <;> linarith

theorem roundHalfEven_nonneg (q : ℚ) (h : 0 ≤ q) : 0 ≤ roundHalfEven q := by
  have : 0 ≤ ⌊q⌋ := Int.floor_nonneg.2 h
  unfold roundHalfEven
  split
  · exact this
  · split
    · omega
    · split <;> omega

end Verif.Text
