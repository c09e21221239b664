import Verif.Paint.Model
import Verif.Paint.Spec
import Mathlib.Tactic.Linarith
import Mathlib.Tactic.Ring
import Mathlib.Tactic.FieldSimp
import Mathlib.Tactic.NormNum

/-! # Lemmas about textures -/

namespace Verif.Paint

theorem extract_nat (p s e : ℕ) (hse : s ≤ e) (he : e ≤ 31) :
    p * 2 ^ (32 - 1 - e) % 2 ^ 32 / 2 ^ (32 - 1 - (e - s)) = p / 2 ^ s % 2 ^ (e - s + 1) := by
  have h1 : (2 : ℕ) ^ 32 = 2 ^ (e + 1) * 2 ^ (32 - 1 - e) := by rw [← pow_add]; congr 1; omega
  have h2 : (2 : ℕ) ^ (32 - 1 - (e - s)) = 2 ^ s * 2 ^ (32 - 1 - e) := by rw [← pow_add]; congr 1; omega
  have h3 : (2 : ℕ) ^ (e + 1) = 2 ^ s * 2 ^ (e - s + 1) := by rw [← pow_add]; congr 1; omega
  rw [h1, Nat.mul_mod_mul_right, h2, Nat.mul_div_mul_right _ _ (by positivity), h3, Nat.mod_mul_right_div_self]

theorem pixelLoop_nat (l : List (BitVec 8)) (r : BitVec 32) (A : ℕ) (hl : l.length ≤ 4)
    (hr : r.toNat = A * 256 ^ l.length) :
    (pixelLoop l r).toNat = l.foldl (fun n b => n * 256 + b.toNat) A := by
  induction l generalizing r A with
  | nil => simpa [pixelLoop] using hr
  | cons b rest ih =>
    have hm : rest.length ≤ 3 := by simp at hl; omega
    have hb : b.toNat < 256 := b.isLt
    have hpow : (256 : ℕ) ^ rest.length = 2 ^ (rest.length * 8) := by
      rw [show (256 : ℕ) = 2 ^ 8 from rfl, ← pow_mul, Nat.mul_comm]
    have hlt : b.toNat * 2 ^ (rest.length * 8) < 2 ^ ((rest.length + 1) * 8) := by
      rw [Nat.add_mul, pow_add, Nat.mul_comm]
      exact Nat.mul_lt_mul_of_pos_left (by simpa using hb) (by positivity)
    have hle : (2 : ℕ) ^ ((rest.length + 1) * 8) ≤ 2 ^ 32 := Nat.pow_le_pow_right (by norm_num) (by omega)
    unfold pixelLoop
    rw [List.foldl_cons]
    apply ih _ _ (by omega)
    rw [BitVec.toNat_or, BitVec.toNat_shiftLeft, BitVec.toNat_setWidth, Nat.shiftLeft_eq,
      Nat.mod_eq_of_lt (lt_trans hb (by norm_num)), Nat.mod_eq_of_lt (lt_of_lt_of_le hlt hle), hr]
    have hA : A * 256 ^ (b :: rest).length = A <<< ((rest.length + 1) * 8) := by
      rw [Nat.shiftLeft_eq, List.length_cons, show (256 : ℕ) = 2 ^ 8 from rfl, ← pow_mul, Nat.mul_comm 8]
    rw [hA, ← Nat.shiftLeft_add_eq_or_of_lt hlt, Nat.shiftLeft_eq, hpow, Nat.add_mul, pow_add]
    ring

theorem bits_testBit (n m s e : ℕ) (hse : s ≤ e) :
    Spec.bits n s e = Spec.bits m s e ↔ ∀ k, s ≤ k → k ≤ e → n.testBit k = m.testBit k := by
  unfold Spec.bits
  constructor
  · intro h k h1 h2
    have := congrArg (fun x => x.testBit (k - s)) h
    simp only [Nat.testBit_mod_two_pow, Nat.testBit_div_two_pow] at this
    rw [Nat.sub_add_cancel h1] at this
    simpa [show k - s < e - s + 1 by omega] using this
  · intro h
    apply Nat.eq_of_testBit_eq
    intro i
    simp only [Nat.testBit_mod_two_pow, Nat.testBit_div_two_pow]
    by_cases hi : i < e - s + 1
    · rw [h (i + s) (by omega) (by omega)]
    · simp [hi]

end Verif.Paint
