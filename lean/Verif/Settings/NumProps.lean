import Verif.Settings.Model
import Verif.Text.Lemmas

/-! # Properties of numeric and flag settings: C46 -/

namespace Verif.Settings
open Verif Verif.Text Verif.Text.Spec

theorem digitsVal_natFrom (acc v : Nat) (l rest : List Char) (h : natFrom acc l = some v) :
    digitsVal acc (l ++ rest) = digitsVal v rest := by
  induction l generalizing acc with
  | nil => simp [natFrom] at h; subst h; rfl
  | cons c l ih =>
    simp only [natFrom, digitVal] at h
    split at h
    · rename_i hc
      simp only [List.cons_append, digitsVal]
      rw [if_pos hc]
      exact ih _ (by simpa using h)
    · cases h

theorem isDigit_not_space : ∀ d : Fin 10, isSpace (dig d) = false := by decide

/-- What may follow the number: nothing, or a character that is not a digit (such as a decimal dot). -/
def Terminated (rest : List Char) : Prop := ∀ c r, rest = c :: r → ¬ ('0' ≤ c ∧ c ≤ '9')

theorem digitsVal_terminated (v : Nat) (rest : List Char) (h : Terminated rest) : digitsVal v rest = v := by
  cases rest with
  | nil => rfl
  | cons c r => rw [digitsVal, if_neg (h c r rfl)]

/-- **C46.** Reading the decimal text of an integer, with leading blanks and anything behind it, gives the integer. -/
theorem C46_integer_text (n : Int) (spaces rest : List Char) (hs : ∀ c ∈ spaces, isSpace c = true)
    (hr : Terminated rest) : atoi (spaces ++ fmtInt n ++ rest) = n := by
  have hdrop : ∀ l : List Char, (∀ c, l.head? = some c → isSpace c = false) → l ≠ [] →
      (spaces ++ l).dropWhile isSpace = l := by
    intro l hl hne
    induction spaces with
    | nil =>
      cases l with
      | nil => rfl
      | cons c l => simp [hl c rfl]
    | cons c sp ih => simp [hs c (by simp), ih fun c hc => hs c (by simp [hc])]
  obtain ⟨d, ds, hd⟩ : ∃ d ds, digits n.natAbs = d :: ds := by
    cases h : digits n.natAbs with
    | nil => exact absurd h (digits_ne_nil _)
    | cons d ds => exact ⟨d, ds, rfl⟩
  have hdig : IsDigit d := isDigit_digits n.natAbs d (by rw [hd]; simp)
  have hval := digitsVal_natFrom 0 n.natAbs (digits n.natAbs) rest (by rw [natFrom_digits]; simp)
  rw [digitsVal_terminated _ _ hr] at hval
  unfold atoi
  rw [List.append_assoc]
  by_cases hn : n < 0
  · have e : fmtInt n ++ rest = '-' :: (digits n.natAbs ++ rest) := by simp [fmtInt, hn]
    rw [e, hdrop _ (by intro c hc; simp at hc; subst hc; decide) (by simp)]
    simp only [hval]
    omega
  · have e : fmtInt n ++ rest = digits n.natAbs ++ rest := by simp [fmtInt, hn]
    rw [e, hdrop]
    · rw [hd] at hval ⊢
      simp only [List.cons_append] at hval ⊢
      have h1 : d ≠ '-' := hdig.ne_minus
      have h2 : d ≠ '+' := by
        obtain ⟨k, hk⟩ := hdig
        rw [hk]
        exact (by decide : ∀ k : Fin 10, dig k ≠ '+') k
      split
      · rename_i h; simp only [List.cons.injEq] at h; exact absurd h.1 h1
      · rename_i h; simp only [List.cons.injEq] at h; exact absurd h.1 h2
      · rw [hval]; omega
    · intro c hc
      rw [hd] at hc
      simp at hc
      subst hc
      obtain ⟨k, rfl⟩ := hdig
      exact isDigit_not_space k
    · rw [hd]; simp

theorem fmtInt_not_word (n : Int) (s : String) (h : s.toList = fmtInt n) :
    ¬ (s = "on" ∨ s = "yes" ∨ s = "true" ∨ s = "True") := by
  have hh : ∀ c, (fmtInt n).head? = some c → c = '-' ∨ IsDigit c := by
    intro c hc
    unfold fmtInt at hc
    split at hc
    · simp at hc; exact Or.inl hc.symm
    · simp only [List.nil_append] at hc
      exact Or.inr (isDigit_digits n.natAbs c (List.mem_of_mem_head? hc))
  have nd : ∀ c ∈ ['o', 'y', 't', 'T'], ¬ IsDigit c := by
    intro c hc ⟨d, hd⟩
    subst hd
    revert d
    decide
  intro hw
  rcases hw with rfl | rfl | rfl | rfl
  · have := hh 'o' (by rw [← h]; decide); simp at this; exact nd _ (by simp) this
  · have := hh 'y' (by rw [← h]; decide); simp at this; exact nd _ (by simp) this
  · have := hh 't' (by rw [← h]; decide); simp at this; exact nd _ (by simp) this
  · have := hh 'T' (by rw [← h]; decide); simp at this; exact nd _ (by simp) this

/-- **C46.** A flag setting given as an integer is true exactly if the integer is not zero. -/
theorem C46_flag_from_integer (n : Int) (s : String) (h : s.toList = fmtInt n) : asBool s = true ↔ n ≠ 0 := by
  unfold asBool
  rw [if_neg (fmtInt_not_word n s h), h]
  have := C46_integer_text n [] [] (by simp) (by intro c r hr; cases hr)
  simp at this
  rw [this]; simp

/-- **C46.** A layer number setting `n` (counted from one) denotes layer `n - 1`. -/
theorem C46_layer_number (n : Int) (s : String) (h : s.toList = fmtInt n) : asLayerIndex s = n - 1 := by
  unfold asLayerIndex
  rw [h]
  have := C46_integer_text n [] [] (by simp) (by intro c r hr; cases hr)
  simp at this
  rw [this]

example : atoi " -42.7".toList = -42 := by decide
example : asBool "True" = true ∧ asBool "0" = false ∧ asBool "12" = true ∧ asBool "off" = false := by decide
example : "17".toList = fmtInt 17 := by simp [fmtInt, digits, dig]

end Verif.Settings
