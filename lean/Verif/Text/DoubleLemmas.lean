import Verif.Text.Lemmas

/-! # `writeDoubleToStream`: the trimming loop -/

namespace Verif.Text
open Verif Spec

/-- Strip the trailing zeros of a list with some other character. -/
theorem strip_zeros (L : List Char) (h : ∃ c ∈ L, c ≠ '0') :
    ∃ A x j, L = A ++ x :: List.replicate j '0' ∧ x ≠ '0' := by
  induction L with
  | nil => obtain ⟨c, hc, _⟩ := h; cases hc
  | cons c L ih =>
    by_cases hL : ∃ c ∈ L, c ≠ '0'
    · obtain ⟨A, x, j, rfl, hx⟩ := ih hL
      exact ⟨c :: A, x, j, rfl, hx⟩
    · refine ⟨[], c, L.length, ?_, ?_⟩
      · have : L = List.replicate L.length '0' := List.eq_replicate_iff.2 ⟨rfl, fun d hd => by
          apply Classical.byContradiction; intro hne; exact hL ⟨d, hd, hne⟩⟩
        rw [List.nil_append, ← this]
      · obtain ⟨d, hd, hne⟩ := h
        rcases List.mem_cons.1 hd with rfl | hd
        · exact hne
        · exact absurd ⟨d, hd, hne⟩ hL

theorem trimLoop_eval (A : List Char) (x : Char) (hx : x ≠ '0') (R : List Char) (fuel j : Nat) (hj : j < fuel) (n : Nat)
    (hn : j ≤ n) (pos : Int) (hp : pos = (A.length : Int) + j) :
    trimLoop (A ++ (x :: List.replicate n '0' ++ R)) fuel pos = .ok (A.length : Int) := by
  induction j generalizing fuel pos with
  | zero =>
    obtain ⟨f, rfl⟩ : ∃ f, fuel = f + 1 := ⟨fuel - 1, by omega⟩
    simp only [trimLoop]
    rw [at'_append A _ 0 pos hp]
    simp [Outcome.index, hx]
    omega
  | succ j ih =>
    obtain ⟨f, rfl⟩ : ∃ f, fuel = f + 1 := ⟨fuel - 1, by omega⟩
    simp only [trimLoop]
    rw [at'_append A _ (j + 1) pos hp]
    have : (x :: List.replicate n '0' ++ R)[j + 1]? = some '0' := by
      simp only [List.cons_append, List.getElem?_cons_succ]
      rw [List.getElem?_append_left (by simp; omega), List.getElem?_replicate, if_pos (by omega)]
    rw [Outcome.index_eq_ok.2 this]
    simp only [Outcome.bind_ok, if_true]
    exact ih f (by omega) (by omega) _ (by omega)

theorem natFrom_zeros (a j : Nat) : natFrom a (List.replicate j '0') = some (a * 10 ^ j) := by
  induction j generalizing a with
  | zero => simp [natFrom]
  | succ j ih =>
    have : digitVal '0' = some 0 := by decide
    simp only [List.replicate_succ, natFrom, this, Option.bind_some, ih, Nat.add_zero, Nat.pow_succ]
    rw [Nat.mul_assoc, Nat.mul_comm 10]

/-- `writeDouble` for every sign, precision and mantissa. -/
theorem writeDouble_spec (g : List Char) (neg : Bool) (p m : Nat) (hp : p ≤ 9) :
    ∃ (out : List Char) (v k : Nat), writeDouble g neg p m = .ok out ∧
      parseDecimal out = some ((if neg then (-1 : Int) else 1) * (v : Int), k) ∧
      k ≤ p ∧ v * 10 ^ (p - k) = m ∧ (0 < k → out.getLast? ≠ some '0') := by
  have hip := isDigit_digits (m / 10 ^ p)
  have hnn : ∀ c ∈ fmtFixed neg p m, c ≠ '\x00' := by
    intro c hc
    unfold fmtFixed at hc
    rcases List.mem_append.1 hc with h | h
    · rcases List.mem_append.1 h with h | h
      · split at h
        · simp at h; subst h; decide
        · simp at h
      · exact (hip c h).ne_nul
    · split at h
      · simp at h
      · rcases List.mem_cons.1 h with rfl | h
        · decide
        · exact (isDigit_lastDigits _ _ c h).ne_nul
  unfold writeDouble
  rw [if_pos hp]
  generalize hP : (if neg then ['-'] else [] : List Char) ++ digits (m / 10 ^ p) = P
  have hPne : P ≠ [] := by rw [← hP]; simp [digits_ne_nil]
  have hPpos : 0 < P.length := List.length_pos_iff.2 hPne
  by_cases h0 : p = 0
  · subst h0
    have ht : fmtFixed neg 0 m = P := by simp [fmtFixed, ← hP]
    have hPn : ∀ c ∈ P, c ≠ '\x00' := by rw [← ht]; exact hnn
    rw [ht]
    refine ⟨P, m, 0, ?_, ?_, by omega, by simp, by omega⟩
    · unfold trimDouble
      simp only
      rw [if_neg (by omega)]
      obtain ⟨Q, d, hQ⟩ : ∃ Q d, digits (m / 10 ^ 0) = Q ++ [d] :=
        ⟨_, _, (List.dropLast_concat_getLast (digits_ne_nil _)).symm⟩
      have hd : d ≠ '.' := (hip d (by rw [hQ]; simp)).ne_dot
      have e : P ++ '\x00' :: g = ((if neg then ['-'] else []) ++ Q) ++ d :: '\x00' :: g := by
        rw [← hP, hQ]; simp
      have el : (P.length : Int) = (((if neg then ['-'] else []) ++ Q).length : Int) + 1 := by
        rw [← hP, hQ]; simp; omega
      have : at' (P ++ '\x00' :: g) ((P.length : Int) - ((0 : Nat) : Int) - 1) = .ok d := by
        rw [e, at'_append _ _ 0 _ (by omega)]; rfl
      rw [this]
      simp only [Outcome.bind_ok, hd, if_false, Outcome.pure_eq]
      rw [cstr_append hPn]
    · rw [← hP]
      have := parseDecimal_int neg (digits (m / 10 ^ 0)) hip (digits_ne_nil _) m
        (by rw [natFrom_digits]; simp)
      exact this
  · have ht : fmtFixed neg p m = P ++ '.' :: lastDigits p m := by simp [fmtFixed, ← hP, h0]
    have hm : natFrom 0 (digits (m / 10 ^ p) ++ lastDigits p m) = some m := by
      rw [natFrom_append, natFrom_digits]
      simp only [Option.bind_some, natFrom_lastDigits, Nat.zero_mul, Nat.zero_add]
      congr 1
      have := Nat.div_add_mod m (10 ^ p)
      rw [Nat.mul_comm] at this
      exact this
    obtain ⟨A, x, j, hA, hx⟩ := strip_zeros ('.' :: lastDigits p m) ⟨'.', by simp, by decide⟩
    have hlen : (P ++ '.' :: lastDigits p m).length = P.length + 1 + p := by
      simp [length_lastDigits]; omega
    have hAl : A.length + 1 + j = p + 1 := by
      have := congrArg List.length hA
      simp [length_lastDigits] at this; omega
    have hbuf : P ++ '.' :: lastDigits p m ++ '\x00' :: g = (P ++ A) ++ (x :: List.replicate j '0' ++ '\x00' :: g) := by
      rw [hA]; simp
    rw [ht] at hnn
    have hdot : at' (P ++ '.' :: lastDigits p m ++ '\x00' :: g)
        (((P ++ '.' :: lastDigits p m).length : Int) - (p : Int) - 1) = .ok '.' := by
      rw [List.append_assoc, at'_append P _ 0 _ (by omega)]; rfl
    have hloop : trimLoop (P ++ '.' :: lastDigits p m ++ '\x00' :: g) ((P ++ '.' :: lastDigits p m).length + 1)
        (((P ++ '.' :: lastDigits p m).length : Int) - 1) = .ok ((P ++ A).length : Int) := by
      rw [hbuf]
      exact trimLoop_eval (P ++ A) x hx _ _ j (by omega) j (by omega) _ (by simp only [List.length_append] at *; omega)
    have hat : at' (P ++ '.' :: lastDigits p m ++ '\x00' :: g) ((P ++ A).length : Int) = .ok x := by
      rw [hbuf, at'_append _ _ 0 _ (by omega)]; rfl
    have hPA : ∀ c ∈ P ++ A, c ≠ '\x00' := by
      intro c hc
      refine hnn c ?_
      rw [hA]
      rcases List.mem_append.1 hc with h | h
      · simp [h]
      · simp [h]
    have hxn : x ≠ '\x00' := hnn x (by rw [hA]; simp)
    have hcore : writeDouble g neg p m = trimDouble g p (P ++ '.' :: lastDigits p m) := by
      unfold writeDouble; rw [if_pos hp, ht]
    rw [ht]
    cases A with
    | nil =>
      have hxd : x = '.' := by have := congrArg List.head? hA; simp at this; exact this.symm
      have hld : lastDigits p m = List.replicate j '0' := by
        have := congrArg List.tail hA; simpa using this
      rw [hld, natFrom_append, natFrom_digits] at hm
      simp only [Option.bind_some, natFrom_zeros, Nat.zero_mul, Nat.zero_add, Option.some.injEq] at hm
      simp only [List.length_nil] at hAl
      refine ⟨P, m / 10 ^ p, 0, ?_, ?_, by omega, ?_, by omega⟩
      · unfold trimDouble
        simp only
        rw [if_neg (by omega), hdot]
        simp only [Outcome.bind_ok, if_true]
        rw [hloop]
        simp only [Outcome.bind_ok]
        rw [hat]
        simp only [Outcome.bind_ok, hxd, if_true]
        rw [hbuf, put_append _ _ 0 _ _ (by omega) (by simp)]
        simp only [Outcome.bind_ok, Outcome.pure_eq]
        congr 1
        simp only [List.cons_append, List.set_cons_zero]
        rw [cstr_append hPA]; simp
      · rw [← hP]
        exact parseDecimal_int neg _ hip (digits_ne_nil _) _ (by rw [natFrom_digits]; simp)
      · have : j = p := by omega
        rw [this] at hm; simpa using hm
    | cons a A =>
      have ha : a = '.' := by have := congrArg List.head? hA; simp at this; exact this.symm
      subst ha
      have hld : lastDigits p m = (A ++ [x]) ++ List.replicate j '0' := by
        have := congrArg List.tail hA; simpa using this
      have hxdig : IsDigit x := isDigit_lastDigits p m x (by rw [hld]; simp)
      simp only [List.length_cons] at hAl
      rw [hld, ← List.append_assoc, natFrom_append] at hm
      cases hv : natFrom 0 (digits (m / 10 ^ p) ++ (A ++ [x])) with
      | none => rw [hv] at hm; cases hm
      | some v =>
        rw [hv] at hm
        simp only [Option.bind_some, natFrom_zeros, Option.some.injEq] at hm
        have hout : P ++ '.' :: A ++ [x] = (if neg then ['-'] else []) ++ digits (m / 10 ^ p) ++ '.' :: (A ++ [x]) := by
          rw [← hP]; simp
        refine ⟨P ++ '.' :: A ++ [x], v, A.length + 1, ?_, ?_, by omega, ?_, ?_⟩
        · unfold trimDouble
          simp only
          rw [if_neg (by omega), hdot]
          simp only [Outcome.bind_ok, if_true]
          rw [hloop]
          simp only [Outcome.bind_ok]
          rw [hat]
          simp only [Outcome.bind_ok, hxdig.ne_dot, if_false]
          rw [hbuf, put_append _ _ 1 _ _ (by omega) (by simp; omega)]
          simp only [Outcome.bind_ok, Outcome.pure_eq]
          congr 1
          have e : ∀ (r : List Char), 0 < r.length → ∃ s, (x :: r).set 1 '\x00' = x :: '\x00' :: s := by
            intro r hr
            cases r with
            | nil => cases hr
            | cons b r => exact ⟨r, rfl⟩
          obtain ⟨s, hs⟩ := e (List.replicate j '0' ++ '\x00' :: g) (by simp; omega)
          rw [List.cons_append, hs]
          have : P ++ '.' :: A ++ x :: '\x00' :: s = (P ++ '.' :: A ++ [x]) ++ '\x00' :: s := by simp
          rw [this, cstr_append]
          intro c hc
          rcases List.mem_append.1 hc with h | h
          · exact hPA c h
          · simp at h; subst h; exact hxn
        · rw [hout]
          have := parseDecimal_frac neg (digits (m / 10 ^ p)) (A ++ [x]) hip (by simp) v hv
          simpa using this
        · have : p - (A.length + 1) = j := by omega
          rw [this]; exact hm
        · intro _
          rw [List.getLast?_concat]
          simpa using hx

end Verif.Text
