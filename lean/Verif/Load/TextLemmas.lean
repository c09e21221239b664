import Verif.Load.BinaryLemmas

namespace Verif.Load

/-! ## Digits -/

theorem digit_toNat (d : Fin 10) : (digit d).toNat = 48 + d.val := by
  unfold digit
  simp only [Nat.toUInt8_eq, UInt8.toNat_ofNat']
  have := d.isLt
  omega

theorem digit_isDigit (d : Fin 10) : isDigit (digit d) = true := by
  rw [isDigit_iff, digit_toNat]
  have := d.isLt
  omega

theorem decimal_from (ds : List (Fin 10)) (n : Nat) :
    (ds.map digit).foldl (fun n d => 10 * n + (d.toNat - 48)) n = ds.foldl (fun n d => 10 * n + d.val) n := by
  induction ds generalizing n with
  | nil => rfl
  | cons d ds ih =>
    rw [List.map_cons, List.foldl_cons, List.foldl_cons, digit_toNat, Nat.add_sub_cancel_left]
    exact ih _

theorem decimal_digits (ds : List (Fin 10)) : decimal (ds.map digit) = natural ds := decimal_from ds 0

theorem natural_from (ds : List (Fin 10)) (n : Nat) :
    ds.foldl (fun n d => 10 * n + d.val) n = n * 10 ^ ds.length + natural ds := by
  induction ds generalizing n with
  | nil => simp [natural]
  | cons d ds ih =>
    unfold natural
    rw [List.foldl_cons, List.foldl_cons, ih, ih, List.length_cons]
    ring

theorem natural_append (a b : List (Fin 10)) : natural (a ++ b) = natural a * 10 ^ b.length + natural b := by
  unfold natural
  rw [List.foldl_append]
  exact natural_from b _

/-- A text does not go on with a digit. -/
def Ends (p : UInt8 → Bool) (r : List UInt8) : Prop := ∀ b t, r = b :: t → p b = false

theorem ends_nil (p : UInt8 → Bool) : Ends p [] := fun _ _ h => by cases h

theorem ends_cons (p : UInt8 → Bool) (b : UInt8) (t : List UInt8) (h : p b = false) : Ends p (b :: t) := by
  intro b' t' e
  cases e
  exact h

theorem take_drop (p : UInt8 → Bool) (a r : List UInt8) (ha : ∀ b ∈ a, p b = true) (hr : Ends p r) :
    (a ++ r).takeWhile p = a ∧ (a ++ r).dropWhile p = r := by
  induction a with
  | nil =>
    rw [List.nil_append]
    cases r with
    | nil => exact ⟨rfl, rfl⟩
    | cons b t =>
      rw [List.takeWhile_cons, List.dropWhile_cons, hr b t rfl]
      exact ⟨rfl, rfl⟩
  | cons b t ih =>
    obtain ⟨i1, i2⟩ := ih fun b hb => ha b (List.mem_cons_of_mem _ hb)
    rw [List.cons_append, List.takeWhile_cons, List.dropWhile_cons, ha b List.mem_cons_self, if_pos rfl, if_pos rfl, i1, i2]
    exact ⟨rfl, rfl⟩

theorem digits_all (ds : List (Fin 10)) : ∀ b ∈ ds.map digit, isDigit b = true := by
  intro b hb
  obtain ⟨d, _, rfl⟩ := List.mem_map.mp hb
  exact digit_isDigit d

theorem digits_take (ds : List (Fin 10)) (r : List UInt8) (hr : Ends isDigit r) :
    (ds.map digit ++ r).takeWhile isDigit = ds.map digit ∧ (ds.map digit ++ r).dropWhile isDigit = r :=
  take_drop isDigit _ r (digits_all ds) hr

/-! ## Numbers -/

theorem ascii_one : ascii "+" = [43] ∧ ascii "-" = [45] ∧ ascii "." = [46] ∧ ascii "e" = [101] ∧ ascii "E" = [69] ∧
    ascii "/" = [47] ∧ ascii "//" = [47, 47] ∧ ascii "v" = [118] ∧ ascii "f" = [102] ∧ ascii "vt" = [118, 116] := by
  decide +kernel

theorem scanSign_text (s : Sign) (r : List UInt8) (h : ∀ b t, r = b :: t → b ≠ 45 ∧ b ≠ 43) :
    scanSign (s.text ++ r) = (decide (s = .minus), r) := by
  cases s with
  | none =>
    unfold Sign.text
    rw [List.nil_append]
    cases r with
    | nil => rfl
    | cons b t =>
      obtain ⟨h1, h2⟩ := h b t rfl
      unfold scanSign
      dsimp only
      rw [if_neg h1, if_neg h2]
      rfl
  | plus => unfold Sign.text; rw [ascii_one.1]; rfl
  | minus => unfold Sign.text; rw [ascii_one.2.1]; rfl

theorem digit_ne (d : Fin 10) : digit d ≠ 45 ∧ digit d ≠ 43 ∧ digit d ≠ 46 ∧ digit d ≠ 101 ∧ digit d ≠ 69 := by
  have h := digit_toNat d
  have := d.isLt
  refine ⟨?_, ?_, ?_, ?_, ?_⟩ <;> intro e <;> rw [e] at h <;> simp at h <;> omega

theorem scanExponent_text (e : Option Exponent) (r : List UInt8) (hr : ∀ b t, r = b :: t → isSpace b = true) :
    scanExponent (exponentText e ++ r) =
      some (exponentValue e, r) := by
  cases e with
  | none =>
    dsimp only [exponentText, exponentValue, fractionText]
    rw [List.nil_append]
    cases r with
    | nil => rfl
    | cons b t =>
      have hb := (isSpace_iff b).mp (hr b t rfl)
      unfold scanExponent
      dsimp only
      rw [if_neg]
      rintro (h | h) <;> subst h <;> simp at hb
  | some e =>
    dsimp only [exponentText, exponentValue]
    have hend : Ends isDigit r := by
      intro b t e
      have hb := (isSpace_iff b).mp (hr b t e)
      cases h : isDigit b with
      | false => rfl
      | true => rw [isDigit_iff] at h; omega
    have h1 : ∀ b t, e.digits.map digit ++ r = b :: t → b ≠ 45 ∧ b ≠ 43 := by
      intro b t h
      obtain ⟨d, ds, hd⟩ : ∃ d ds, e.digits = d :: ds := List.exists_cons_of_ne_nil e.hdigits
      rw [hd, List.map_cons, List.cons_append] at h
      cases h
      exact ⟨(digit_ne d).1, (digit_ne d).2.1⟩
    have key : ∀ c : UInt8, c = 101 ∨ c = 69 → scanExponent (c :: (e.sign.text ++ (e.digits.map digit ++ r))) =
        some (e.sign.factor * (natural e.digits : Int), r) := by
      intro c hc
      unfold scanExponent
      dsimp only
      rw [if_pos hc, scanSign_text _ _ h1]
      dsimp only
      rw [(digits_take e.digits r hend).1, (digits_take e.digits r hend).2, decimal_digits, if_neg]
      · cases hs : e.sign <;> simp [Sign.factor]
      · intro h
        exact e.hdigits (List.map_eq_nil_iff.mp h)
    unfold Exponent.text
    cases e.capital with
    | true =>
      rw [if_pos rfl, ascii_one.2.2.2.2.1, List.append_assoc, List.append_assoc]
      exact key 69 (Or.inr rfl)
    | false =>
      rw [if_neg (by decide), ascii_one.2.2.2.1, List.append_assoc, List.append_assoc]
      exact key 101 (Or.inl rfl)

theorem exponent_head (e : Option Exponent) (r : List UInt8) (hr : ∀ b t, r = b :: t → isSpace b = true) (b : UInt8)
    (t : List UInt8) (h : exponentText e ++ r = b :: t) :
    isSpace b = true ∨ b = 101 ∨ b = 69 := by
  cases e with
  | none => exact Or.inl (hr b t h)
  | some e =>
    dsimp only [exponentText] at h
    unfold Exponent.text at h
    cases hc : e.capital with
    | true =>
      rw [hc, if_pos rfl, ascii_one.2.2.2.2.1] at h
      cases h
      exact Or.inr (Or.inr rfl)
    | false =>
      rw [hc, if_neg (by decide), ascii_one.2.2.2.1] at h
      cases h
      exact Or.inr (Or.inl rfl)

theorem head_not (b : UInt8) (h : isSpace b = true ∨ b = 101 ∨ b = 69) : isDigit b = false ∧ b ≠ 46 := by
  rcases h with h | h | h
  · rw [isSpace_iff] at h
    constructor
    · cases hd : isDigit b with
      | false => rfl
      | true => rw [isDigit_iff] at hd; omega
    · intro e; subst e; simp at h
  · subst h; decide
  · subst h; decide

theorem scanFraction_text (f : Option (List (Fin 10))) (r : List UInt8)
    (hr : ∀ b t, r = b :: t → isDigit b = false ∧ b ≠ 46) :
    scanFraction (fractionText f ++ r) =
      ((f.getD []).map digit, r) := by
  cases f with
  | none =>
    dsimp only [exponentText, exponentValue, fractionText]
    rw [List.nil_append]
    cases r with
    | nil => rfl
    | cons b t =>
      unfold scanFraction
      dsimp only
      rw [if_neg (hr b t rfl).2]
      rfl
  | some f =>
    dsimp only [fractionText]
    rw [ascii_one.2.2.1, List.append_assoc]
    show scanFraction (46 :: (f.map digit ++ r)) = _
    unfold scanFraction
    dsimp only
    have hend : Ends isDigit r := fun b t e => (hr b t e).1
    rw [if_pos rfl, (digits_take f r hend).1, (digits_take f r hend).2]
    rfl

theorem fraction_head (f : Option (List (Fin 10))) (r : List UInt8)
    (hr : ∀ b t, r = b :: t → isDigit b = false ∧ b ≠ 46) (b : UInt8) (t : List UInt8)
    (h : fractionText f ++ r = b :: t) : isDigit b = false := by
  cases f with
  | none => exact (hr b t h).1
  | some f =>
    dsimp only [fractionText] at h
    rw [ascii_one.2.2.1] at h
    cases h
    decide

theorem scanNumber_text (n : Number) (r : List UInt8) (hr : ∀ b t, r = b :: t → isSpace b = true) :
    scanNumber (n.text ++ r) = some (n.value, r) := by
  have hE : ∀ b t, exponentText n.exponent ++ r = b :: t → isDigit b = false ∧ b ≠ 46 :=
    fun b t h => head_not b (exponent_head n.exponent r hr b t h)
  have hF := fraction_head n.fraction _ hE
  have hS : ∀ b t, n.whole.map digit ++ (fractionText n.fraction ++
      (exponentText n.exponent ++ r)) = b :: t → b ≠ 45 ∧ b ≠ 43 := by
    intro b t h
    cases hw : n.whole with
    | cons d ds =>
      rw [hw] at h
      cases h
      exact ⟨(digit_ne d).1, (digit_ne d).2.1⟩
    | nil =>
      rcases n.hdigits with hd | ⟨f, hf, hne⟩
      · exact absurd hw hd
      · rw [hw, hf] at h
        dsimp only [fractionText] at h
        rw [ascii_one.2.2.1] at h
        cases h
        decide
  have htext : n.text ++ r = n.sign.text ++ (n.whole.map digit ++
      (fractionText n.fraction ++
        (exponentText n.exponent ++ r))) := by
    unfold Number.text
    simp only [List.append_assoc]
  rw [htext]
  unfold scanNumber
  rw [scanSign_text _ _ hS]
  dsimp only
  obtain ⟨t1, t2⟩ := digits_take n.whole _ hF
  rw [t1, t2, scanFraction_text _ _ hE]
  dsimp only
  rw [if_neg, scanExponent_text _ _ hr]
  · dsimp only [Option.map_some]
    rw [← List.map_append, decimal_digits, natural_append, List.length_map]
    congr 2
    unfold Number.value
    have h10 : (10 : Rat) ≠ 0 := by norm_num
    have hsign : (if decide (n.sign = Sign.minus) = true then (-1 : Rat) else 1) = n.sign.factor := by
      cases n.sign <;> simp [Sign.factor]
    rw [hsign]
    generalize exponentValue n.exponent = e
    cases n.fraction with
    | none => simp [natural, fractionValue]
    | some f =>
      dsimp only [Option.getD_some, fractionValue]
      rw [zpow_sub₀ h10, zpow_natCast]
      push_cast
      field_simp
  · rintro ⟨h1, h2⟩
    rcases n.hdigits with hd | ⟨f, hf, hne⟩
    · exact hd (List.map_eq_nil_iff.mp h1)
    · rw [hf] at h2
      exact hne (List.map_eq_nil_iff.mp h2)

theorem number_head (n : Number) (r : List UInt8) : ∃ b t, n.text ++ r = b :: t ∧ isSpace b = false := by
  have hd : ∀ d : Fin 10, isSpace (digit d) = false := by
    intro d
    cases h : isSpace (digit d) with
    | false => rfl
    | true =>
      rw [isSpace_iff, digit_toNat] at h
      have := d.isLt
      omega
  unfold Number.text
  cases hs : n.sign with
  | plus => rw [Sign.text, ascii_one.1]; exact ⟨43, _, rfl, by decide⟩
  | minus => rw [Sign.text, ascii_one.2.1]; exact ⟨45, _, rfl, by decide⟩
  | none =>
    rw [Sign.text]
    cases hw : n.whole with
    | cons d ds => exact ⟨digit d, _, rfl, hd d⟩
    | nil =>
      rcases n.hdigits with h | ⟨f, hf, hne⟩
      · exact absurd hw h
      · rw [hf]
        dsimp only [fractionText]
        rw [ascii_one.2.2.1]
        exact ⟨46, _, rfl, by decide⟩

theorem skip_number (g : List UInt8) (hg : ∀ b ∈ g, isSpace b = true) (n : Number) (r : List UInt8) :
    skip (g ++ (n.text ++ r)) = n.text ++ r := by
  obtain ⟨b, t, e, hb⟩ := number_head n r
  rw [e, skip_space g b t hg hb]

end Verif.Load
