import Verif.Text.Model
import Verif.Text.Spec

/-! # Lemmas on digits and buffers -/

namespace Verif.Text
open Verif Spec

theorem digitVal_dig : ∀ d : Fin 10, digitVal (dig d) = some d.val := by decide
theorem dig_ne_zero : ∀ d : Fin 10, (dig d = '0' ↔ d.val = 0) := by decide
theorem dig_ne_dot : ∀ d : Fin 10, dig d ≠ '.' := by decide
theorem dig_ne_minus : ∀ d : Fin 10, dig d ≠ '-' := by decide
theorem dig_ne_nul : ∀ d : Fin 10, dig d ≠ '\x00' := by decide

/-- A character that is a digit. -/
def IsDigit (c : Char) : Prop := ∃ d : Fin 10, c = dig d

theorem IsDigit.ne_dot {c : Char} (h : IsDigit c) : c ≠ '.' := by obtain ⟨d, rfl⟩ := h; exact dig_ne_dot d
theorem IsDigit.ne_minus {c : Char} (h : IsDigit c) : c ≠ '-' := by obtain ⟨d, rfl⟩ := h; exact dig_ne_minus d
theorem IsDigit.ne_nul {c : Char} (h : IsDigit c) : c ≠ '\x00' := by obtain ⟨d, rfl⟩ := h; exact dig_ne_nul d

theorem isDigit_dig {n : Nat} (h : n < 10) : IsDigit (dig n) := ⟨⟨n, h⟩, rfl⟩

theorem digits_lt {n : Nat} (h : n < 10) : digits n = [dig n] := by rw [digits]; simp [h]
theorem digits_ge {n : Nat} (h : ¬ n < 10) : digits n = digits (n / 10) ++ [dig (n % 10)] := by
  rw [digits]; simp [h]

theorem isDigit_digits (n : Nat) : ∀ c ∈ digits n, IsDigit c := by
  induction n using Nat.strongRecOn with
  | _ n ih =>
    by_cases h : n < 10
    · rw [digits_lt h]; intro c hc; simp at hc; subst hc; exact isDigit_dig h
    · rw [digits_ge h]; intro c hc
      rcases List.mem_append.1 hc with g | g
      · exact ih (n / 10) (by omega) c g
      · simp at g; subst g; exact isDigit_dig (Nat.mod_lt _ (by omega))

theorem isDigit_lastDigits (p m : Nat) : ∀ c ∈ lastDigits p m, IsDigit c := by
  induction p generalizing m with
  | zero => simp [lastDigits]
  | succ p ih =>
    intro c hc
    rcases List.mem_append.1 hc with g | g
    · exact ih _ c g
    · simp at g; subst g; exact isDigit_dig (Nat.mod_lt _ (by omega))

theorem length_lastDigits (p m : Nat) : (lastDigits p m).length = p := by
  induction p generalizing m with
  | zero => rfl
  | succ p ih => simp [lastDigits, ih]

theorem digits_ne_nil (n : Nat) : digits n ≠ [] := by
  by_cases h : n < 10
  · rw [digits_lt h]; simp
  · rw [digits_ge h]; simp

theorem natFrom_append (acc : Nat) (xs ys : List Char) :
    natFrom acc (xs ++ ys) = (natFrom acc xs).bind fun a => natFrom a ys := by
  induction xs generalizing acc with
  | nil => rfl
  | cons c xs ih =>
    simp only [List.cons_append, natFrom]
    cases digitVal c with
    | none => rfl
    | some d => simp [ih]

theorem natFrom_dig (acc n : Nat) (h : n < 10) : natFrom acc [dig n] = some (acc * 10 + n) := by
  have := digitVal_dig ⟨n, h⟩
  simp only at this
  simp [natFrom, this]

theorem natFrom_digits (acc n : Nat) : natFrom acc (digits n) = some (acc * 10 ^ (digits n).length + n) := by
  induction n using Nat.strongRecOn with
  | _ n ih =>
    by_cases h : n < 10
    · rw [digits_lt h, natFrom_dig acc n h]; simp
    · rw [digits_ge h, natFrom_append, ih (n / 10) (by omega)]
      simp only [Option.bind_some]
      rw [natFrom_dig _ _ (Nat.mod_lt _ (by omega))]
      simp only [List.length_append, List.length_singleton, Nat.pow_succ]
      congr 1
      rw [Nat.add_mul, Nat.mul_assoc]
      omega

theorem natFrom_lastDigits (acc p m : Nat) : natFrom acc (lastDigits p m) = some (acc * 10 ^ p + m % 10 ^ p) := by
  induction p generalizing m with
  | zero => simp [lastDigits, natFrom, Nat.mod_one]
  | succ p ih =>
    rw [lastDigits, natFrom_append, ih]
    simp only [Option.bind_some]
    rw [natFrom_dig _ _ (Nat.mod_lt _ (by omega))]
    congr 1
    have h1 : m % 10 ^ (p + 1) = 10 * (m / 10 % 10 ^ p) + m % 10 := by
      rw [Nat.pow_succ, Nat.mul_comm (10 ^ p) 10, Nat.mod_mul]; omega
    rw [h1, Nat.pow_succ, Nat.add_mul, Nat.mul_assoc]; omega

/-! ## Buffers -/

theorem at'_append (P Q : List Char) (k : Nat) (i : Int) (h : i = (P.length : Int) + k) :
    at' (P ++ Q) i = Outcome.index Q k := by
  subst h
  unfold at'
  rw [if_neg (by omega)]
  have : ((P.length : Int) + k).toNat = P.length + k := by omega
  rw [this]
  unfold Outcome.index
  rw [List.getElem?_append_right (by omega)]
  simp

theorem put_append (P Q : List Char) (k : Nat) (i : Int) (c : Char) (h : i = (P.length : Int) + k)
    (hk : k < Q.length) : put (P ++ Q) i c = .ok (P ++ Q.set k c) := by
  subst h
  unfold put
  have : ((P.length : Int) + k).toNat = P.length + k := by omega
  rw [if_neg (by omega), this, if_pos (by simp; omega), List.set_append_right _ _ (by omega)]
  simp

theorem cstr_append {xs : List Char} (h : ∀ c ∈ xs, c ≠ '\x00') (rest : List Char) :
    cstr (xs ++ '\x00' :: rest) = xs := by
  unfold cstr
  induction xs with
  | nil => simp
  | cons c xs ih =>
    have hc := h c (List.mem_cons_self ..)
    simp only [List.cons_append, List.takeWhile_cons]
    rw [if_pos (by simpa using hc), ih fun c hc => h c (List.mem_cons_of_mem _ hc)]

theorem takeWhile_digits (l r : List Char) (hl : ∀ c ∈ l, IsDigit c) (hr : r = [] ∨ ∃ t, r = '.' :: t) :
    (l ++ r).takeWhile (· != '.') = l ∧ (l ++ r).dropWhile (· != '.') = r := by
  induction l with
  | nil => rcases hr with h | ⟨t, h⟩ <;> subst h <;> simp
  | cons c l ih =>
    have hc := (hl c (List.mem_cons_self ..)).ne_dot
    have := ih fun c hc => hl c (List.mem_cons_of_mem _ hc)
    simp [hc, this]

/-- What `parseDecimal` does on a sign, integer digits and fraction digits. -/
theorem parseDecimal_frac (neg : Bool) (ip fp : List Char) (hi : ∀ c ∈ ip, IsDigit c) (hf : fp ≠ [])
    (n : Nat) (hn : natFrom 0 (ip ++ fp) = some n) :
    parseDecimal ((if neg then ['-'] else []) ++ ip ++ '.' :: fp)
      = some ((if neg then (-1 : Int) else 1) * (n : Int), fp.length) := by
  have tw := takeWhile_digits ip ('.' :: fp) hi (Or.inr ⟨_, rfl⟩)
  have hh : (ip ++ '.' :: fp).head? ≠ some '-' := by
    cases ip with
    | nil => simp
    | cons c l => simpa using (hi c (List.mem_cons_self ..)).ne_minus
  unfold parseDecimal
  cases neg with
  | true =>
    simp only [if_true, List.cons_append, List.nil_append, List.head?_cons, List.tail_cons]
    simp only [parseUnsigned, tw, hf, if_false, hn, Option.map_some]
  | false =>
    simp only [Bool.false_eq_true, if_false, List.nil_append, if_neg hh]
    simp only [parseUnsigned, tw, hf, if_false, hn, Option.map_some]

theorem parseDecimal_int (neg : Bool) (ip : List Char) (hi : ∀ c ∈ ip, IsDigit c) (hne : ip ≠ [])
    (n : Nat) (hn : natFrom 0 ip = some n) :
    parseDecimal ((if neg then ['-'] else []) ++ ip) = some ((if neg then (-1 : Int) else 1) * (n : Int), 0) := by
  have tw := takeWhile_digits ip [] hi (Or.inl rfl)
  rw [List.append_nil] at tw
  have hh : ip.head? ≠ some '-' := by
    cases ip with
    | nil => simp
    | cons c l => simpa using (hi c (List.mem_cons_self ..)).ne_minus
  unfold parseDecimal
  cases neg with
  | true =>
    simp only [if_true, List.cons_append, List.nil_append, List.head?_cons, List.tail_cons]
    simp only [parseUnsigned, tw, hne, if_false, hn, Option.map_some]
  | false =>
    simp only [Bool.false_eq_true, if_false, List.nil_append, if_neg hh]
    simp only [parseUnsigned, tw, hne, if_false, hn, Option.map_some]

end Verif.Text
