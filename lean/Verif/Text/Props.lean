import Verif.Text.IntLemmas
import Verif.Text.DoubleLemmas
import Verif.Text.Round

/-! # Properties of the text output: C09, C10, C13, C14, C42, C43 -/

namespace Verif.Text
open Verif Spec

/-- **C09.** For every non-zero 32-bit micrometre coordinate the text written is a decimal number with value exactly
`coord / 1000`, at most three decimals and no superfluous trailing zero, whatever the uninitialised buffer held. -/
theorem C09_coordinate_text_exact_partial (g : List Char) (hg : g.length = 24) (coord : Int) (h0 : coord ≠ 0)
    (hr : -(2 ^ 31) ≤ coord ∧ coord < 2 ^ 31) :
    ∃ (out : List Char) (m : Int) (k : Nat), writeInt2mm g coord = .ok out ∧ parseDecimal out = some (m, k) ∧
      k ≤ 3 ∧ m * 1000 = coord * 10 ^ k ∧ (0 < k → out.getLast? ≠ some '0') := by
  obtain ⟨out, h1, m, k, h2⟩ := writeInt2mm_denotes g hg coord h0 hr
  exact ⟨out, m, k, h1, h2⟩

/-- The same for a 64-bit coordinate streamed through `MMtoStream`, if it is in the 32-bit range. -/
theorem C09_stream_text_exact_partial (g : List Char) (hg : g.length = 24) (value : Int) (h0 : value ≠ 0)
    (hr : -(2 ^ 31) ≤ value ∧ value < 2 ^ 31) :
    ∃ (out : List Char) (m : Int) (k : Nat), mmToStream g value = .ok out ∧ parseDecimal out = some (m, k) ∧
      k ≤ 3 ∧ m * 1000 = value * 10 ^ k ∧ (0 < k → out.getLast? ≠ some '0') := by
  have : value.bmod (2 ^ 32) = value := by
    apply Int.bmod_eq_of_le <;> omega
  unfold mmToStream
  rw [this]
  exact C09_coordinate_text_exact_partial g hg value h0 hr

example : writeInt2mm (List.replicate 24 'x') (-123) = .ok "-.123".toList := by
  simp [writeInt2mm, fmtInt, digits, dig, tzLoop, at', Outcome.index, put, dotLoop, cstr]
example : writeInt2mm (List.replicate 24 'x') 120500 = .ok "120.5".toList := by
  simp [writeInt2mm, fmtInt, digits, dig, tzLoop, at', Outcome.index, put, dotLoop, cstr]

/-- **C09, violated for coordinate 0**: the trailing-zero loop reads the character before the buffer. -/
theorem C09_zero_reads_before_buffer (g : List Char) : writeInt2mm g 0 = .ub := by
  simp [writeInt2mm, fmtInt, digits, dig, tzLoop, at', Outcome.index]

/-- **C09, violated outside 32 bits**: a coordinate of 2147483648 µm is written as `-2147483.648`. -/
theorem C09_wide_coordinate_wraps (g : List Char) (hg : g.length = 24) :
    mmToStream g (2 ^ 31) = .ok "-2147483.648".toList := by
  have h : (2 ^ 31 : Int).bmod (2 ^ 32) = -2147483648 := by decide
  have e : fmtInt (-2147483648) = "-2147483".toList ++ ['6', '4', '8'] := by
    simp [fmtInt, digits, dig]
  unfold mmToStream
  rw [h, writeInt2mm_eval g _ _ _ _ _ (by rw [e]; simp; omega) e (by simp) (fmtInt_ne_nul _)]
  rfl

/-- **C10.** For every sign, precision up to 9 and rounded mantissa `m` (the rendering `±m/10^p`), trimming yields a
decimal number of the same value with at most `p` decimals and no superfluous trailing zero or dot. -/
theorem C10_trimming_keeps_value (g : List Char) (neg : Bool) (p m : Nat) (hp : p ≤ 9) :
    ∃ (out : List Char) (v k : Nat), writeDouble g neg p m = .ok out ∧
      parseDecimal out = some ((if neg then (-1 : Int) else 1) * (v : Int), k) ∧
      k ≤ p ∧ v * 10 ^ (p - k) = m ∧ (0 < k → out.getLast? ≠ some '0') :=
  writeDouble_spec g neg p m hp

/-- **C10.** The text written for a real number denotes a number within half a unit of the last place. -/
theorem C10_text_within_half_unit (g : List Char) (p : Nat) (hp : p ≤ 9) (x : ℚ) :
    ∃ (out : List Char) (m : Int) (k : Nat), writeDoubleToStream g p x = .ok out ∧ parseDecimal out = some (m, k) ∧
      k ≤ p ∧ |(m : ℚ) / 10 ^ k - x| ≤ 1 / 2 / 10 ^ p ∧ (0 < k → out.getLast? ≠ some '0') := by
  obtain ⟨out, v, k, h1, h2, h3, h4, h5⟩ :=
    writeDouble_spec g (decide (x < 0)) p (roundHalfEven (|x| * 10 ^ p)).toNat hp
  refine ⟨out, _, k, h1, h2, h3, ?_, h5⟩
  have hpos : (0 : ℚ) < 10 ^ p := by positivity
  have hkpos : (0 : ℚ) < 10 ^ k := by positivity
  have hc := roundHalfEven_close (|x| * 10 ^ p)
  have hnn := roundHalfEven_nonneg (|x| * 10 ^ p) (by positivity)
  have hm : ((roundHalfEven (|x| * 10 ^ p)).toNat : ℚ) = (roundHalfEven (|x| * 10 ^ p) : ℚ) := by
    have : (((roundHalfEven (|x| * 10 ^ p)).toNat : Int) : ℚ) = (roundHalfEven (|x| * 10 ^ p) : ℚ) := by
      rw [Int.toNat_of_nonneg hnn]
    exact_mod_cast this
  have hv : (v : ℚ) / 10 ^ k = (roundHalfEven (|x| * 10 ^ p) : ℚ) / 10 ^ p := by
    rw [← hm, ← h4]
    push_cast
    have : (10 : ℚ) ^ p = 10 ^ (p - k) * 10 ^ k := by rw [← pow_add]; congr 1; omega
    rw [this]
    field_simp
  have hd : abs ((v : ℚ) / 10 ^ k - |x|) ≤ 1 / 2 / 10 ^ p := by
    rw [hv]
    have : (roundHalfEven (|x| * 10 ^ p) : ℚ) / 10 ^ p - |x| = ((roundHalfEven (|x| * 10 ^ p) : ℚ) - |x| * 10 ^ p) / 10 ^ p := by
      field_simp
    rw [this, abs_div, abs_of_pos hpos]
    exact div_le_div_of_nonneg_right hc hpos.le
  by_cases hx : x < 0
  · have e : |x| = -x := abs_of_neg hx
    rw [e] at hd
    simp only [hx, decide_true, if_true]
    push_cast
    have : (-1 * (v : ℚ)) / 10 ^ k - x = -((v : ℚ) / 10 ^ k - -x) := by ring
    rw [this, abs_neg]; exact hd
  · have e : |x| = x := abs_of_nonneg (not_lt.1 hx)
    rw [e] at hd
    simp only [hx, decide_false, Bool.false_eq_true, if_false]
    push_cast
    rw [one_mul]; exact hd

example : writeDouble [] true 5 1250000 = .ok "-12.5".toList := by
  simp [writeDouble, trimDouble, fmtFixed, digits, dig, lastDigits, trimLoop, at', Outcome.index, put, cstr]
example : writeDouble [] false 2 30000 = .ok "300".toList := by
  simp [writeDouble, trimDouble, fmtFixed, digits, dig, lastDigits, trimLoop, at', Outcome.index, put, cstr]

/-- **C44, one direction**: a value that does not count as "would write zero" is never written as zero. -/
theorem C44_nonzero_is_written_nonzero_partial (g : List Char) (p : Nat) (hp : p ≤ 9) (x : ℚ) (h : wouldWriteZero p x = false) :
    ∃ (out : List Char) (m : Int) (k : Nat), writeDoubleToStream g p x = .ok out ∧ parseDecimal out = some (m, k) ∧
      m ≠ 0 := by
  obtain ⟨out, v, k, h1, h2, h3, h4, _⟩ :=
    writeDouble_spec g (decide (x < 0)) p (roundHalfEven (|x| * 10 ^ p)).toNat hp
  refine ⟨out, _, k, h1, h2, ?_⟩
  have hx : 1 ≤ |x| * 10 ^ p := by
    unfold wouldWriteZero at h
    simpa using h
  have hf : 1 ≤ ⌊|x| * 10 ^ p⌋ := Int.le_floor.2 (by simpa using hx)
  have hr : 1 ≤ roundHalfEven (|x| * 10 ^ p) := by
    unfold roundHalfEven
    split
    · exact hf
    · split
      · omega
      · split <;> omega
  have hv : v ≠ 0 := by
    intro h0
    rw [h0] at h4
    simp at h4
    omega
  split <;> omega

example : wouldWriteZero 5 (-3 / 2) = false := by
  have : ¬ (|(-3 / 2 : ℚ)| * 10 ^ 5 < 1) := by
    rw [abs_of_neg (by norm_num)]; norm_num
  unfold wouldWriteZero
  simpa using this

/-- **C44, violated in the other direction**: 0.7 with precision 0 counts as "would write zero" but is written `1`. -/
theorem C44_counted_as_zero_but_written_one (g : List Char) :
    wouldWriteZero 0 (7 / 10) = true ∧ writeDoubleToStream g 0 (7 / 10) = .ok ['1'] := by
  constructor
  · have : |(7 / 10 : ℚ)| * 10 ^ 0 < 1 := by rw [abs_of_pos (by norm_num)]; norm_num
    unfold wouldWriteZero
    simpa using this
  · have hf : ⌊(7 / 10 : ℚ)⌋ = 0 := by rw [Int.floor_eq_iff]; norm_num
    have hr : roundHalfEven (|(7 / 10 : ℚ)| * 10 ^ 0) = 1 := by
      rw [abs_of_pos (by norm_num)]
      unfold roundHalfEven
      norm_num [hf]
    unfold writeDoubleToStream
    rw [hr]
    have : decide ((7 / 10 : ℚ) < 0) = false := by simp; norm_num
    rw [this]
    simp [writeDouble, trimDouble, fmtFixed, digits, dig, at', Outcome.index, cstr]

/-! ## C13 -/

theorem b64Val_b64Char : ∀ n : Fin 64, b64Val (b64Char n) = some n.val := by decide
theorem b64Char_ne_eq : ∀ n : Fin 64, b64Char n ≠ '=' := by decide

theorem b64Val_char {n : Nat} (h : n < 64) : b64Val (b64Char n) = some n := b64Val_b64Char ⟨n, h⟩
theorem b64Char_ne {n : Nat} (h : n < 64) : b64Char n ≠ '=' := b64Char_ne_eq ⟨n, h⟩

/-- **C13.** Decoding the encoded text returns the bytes, and the text has `4 * ceil(n / 3)` characters. -/
theorem C13_base64_round_trip (bytes : List Nat) (hb : ∀ b ∈ bytes, b < 256) :
    b64Decode (toBase64 bytes) = some bytes ∧ (toBase64 bytes).length = 4 * ((bytes.length + 2) / 3) := by
  induction bytes using sextets.induct with
  | case1 a b c rest ih =>
    have ha := hb a (by simp)
    have hbb := hb b (by simp)
    have hc := hb c (by simp)
    have ih := ih fun x hx => hb x (by simp [hx])
    have e : toBase64 (a :: b :: c :: rest) = b64Char (a / 4) :: b64Char (a % 4 * 16 + b / 16) ::
        b64Char (b % 16 * 4 + c / 64) :: b64Char (c % 64) :: toBase64 rest := by
      have : (rest.length + 3) % 3 = rest.length % 3 := by omega
      simp [toBase64, sextets, this]
    rw [e]
    constructor
    · rw [b64Decode, b64Val_char (by omega), b64Val_char (by omega), b64Val_char (by omega), b64Val_char (by omega),
        ih.1]
      simp only [b64Char_ne (show b % 16 * 4 + c / 64 < 64 by omega), b64Char_ne (show c % 64 < 64 by omega), if_false]
      simp only [Option.some.injEq, List.cons.injEq, and_true]
      refine ⟨?_, ?_, ?_⟩ <;> omega
    · simp only [List.length_cons, ih.2]; omega
  | case2 a b =>
    have ha := hb a (by simp)
    have hbb := hb b (by simp)
    have e : toBase64 [a, b] = [b64Char (a / 4), b64Char (a % 4 * 16 + b / 16), b64Char (b % 16 * 4), '='] := by
      simp [toBase64, sextets]
    rw [e]
    refine ⟨?_, by simp⟩
    rw [b64Decode, b64Val_char (by omega), b64Val_char (by omega), b64Val_char (by omega)]
    simp only [b64Char_ne (show b % 16 * 4 < 64 by omega), if_false, if_true]
    simp only [Option.some.injEq, List.cons.injEq, and_true]
    refine ⟨?_, ?_⟩ <;> omega
  | case3 a =>
    have ha := hb a (by simp)
    have e : toBase64 [a] = [b64Char (a / 4), b64Char (a % 4 * 16), '=', '='] := by
      simp [toBase64, sextets]
    rw [e]
    refine ⟨?_, by simp⟩
    rw [b64Decode, b64Val_char (by omega), b64Val_char (by omega)]
    simp only [and_self, if_true]
    simp only [Option.some.injEq, List.cons.injEq, and_true]
    omega
  | case4 => exact ⟨rfl, rfl⟩

example : toBase64 ("Many hands".toList.map Char.toNat) = "TWFueSBoYW5kcw==".toList := by decide

/-! ## C14 -/

theorem lines_ne_nil (t : List Char) : lines t ≠ [] := by
  cases t with
  | nil => simp [lines]
  | cons c t => simp only [lines]; split; simp; split <;> simp

theorem lines_append_nl (xs ys : List Char) (h : '\n' ∉ xs) :
    lines (xs ++ '\n' :: ys) = xs :: lines ys := by
  induction xs with
  | nil => simp [lines]
  | cons c xs ih =>
    have hc : c ≠ '\n' := fun e => h (by simp [e])
    have ih := ih fun e => h (by simp [e])
    simp only [List.cons_append, lines, hc, if_false, ih]

theorem lines_body (eol text acc : List Char) (he : '\n' ∉ eol) (ha : '\n' ∉ acc) :
    lines (acc ++ commentBody (eol ++ ['\n']) text ++ (eol ++ ['\n'])) =
      (acc ++ (lines text).headD [] ++ eol) :: (((lines text).tail).map fun l => ';' :: l ++ eol) ++ [[]] := by
  induction text generalizing acc with
  | nil =>
    simp only [commentBody, List.append_nil]
    rw [← List.append_assoc, lines_append_nl _ _ (by simp [he, ha])]
    simp [lines]
  | cons c text ih =>
    by_cases hc : c = '\n'
    · subst hc
      have := ih [';'] (by simp)
      obtain ⟨l, ls, hl⟩ : ∃ l ls, lines text = l :: ls := by
        cases h : lines text with
        | nil => exact absurd h (lines_ne_nil _)
        | cons l ls => exact ⟨l, ls, rfl⟩
      have e : acc ++ commentBody (eol ++ ['\n']) ('\n' :: text) ++ (eol ++ ['\n']) =
          (acc ++ eol) ++ '\n' :: ([';'] ++ commentBody (eol ++ ['\n']) text ++ (eol ++ ['\n'])) := by
        simp [commentBody]
      rw [e, lines_append_nl _ _ (by simp [he, ha]), this]
      simp [lines, hl]
    · have := ih (acc ++ [c]) (by simp [ha]; exact fun e => hc e.symm)
      have e : acc ++ commentBody (eol ++ ['\n']) (c :: text) ++ (eol ++ ['\n']) =
          acc ++ [c] ++ commentBody (eol ++ ['\n']) text ++ (eol ++ ['\n']) := by
        simp [commentBody, hc]
      rw [e, this]
      obtain ⟨l, ls, hl⟩ : ∃ l ls, lines text = l :: ls := by
        cases h : lines text with
        | nil => exact absurd h (lines_ne_nil _)
        | cons l ls => exact ⟨l, ls, rfl⟩
      simp [lines, hc, hl]

/-- **C14.** For every comment text, the lines of what is written are exactly the lines of the text, each behind a
`;` (and followed by the flavour's carriage return, if its line ending has one), and then the next line starts. -/
theorem C14_comment_lines (eol text : List Char) (he : '\n' ∉ eol) :
    lines (writeComment (eol ++ ['\n']) text) = (lines text).map (fun l => ';' :: l ++ eol) ++ [[]] := by
  have := lines_body eol text [';'] he (by simp)
  unfold writeComment
  rw [this]
  obtain ⟨l, ls, hl⟩ : ∃ l ls, lines text = l :: ls := by
    cases h : lines text with
    | nil => exact absurd h (lines_ne_nil _)
    | cons l ls => exact ⟨l, ls, rfl⟩
  simp [hl]

example : writeComment ['\r', '\n'] "a\nb".toList = ";a\r\n;b\r\n".toList := by decide

/-- **C14, violated for readers that end lines at a carriage return**: a text with `'\r'` is passed through, so what
follows it is on a line without `;`. -/
theorem C14_carriage_return_passes_through :
    ∃ text : List Char, writeComment ['\n'] text = ";x\rM104 S0\n".toList := ⟨"x\rM104 S0".toList, by decide⟩

/-! ## C42, C43 -/

theorem unescape_cons (c : Char) (cs : List Char) (h : c ≠ '\\') : unescape (c :: cs) = (unescape cs).map (c :: ·) := by
  rw [unescape]
  · intro c cs' h1 h2
    exact absurd h1 h
  · intro h1 _
    exact absurd h1 h

/-- **C42.** Reading the escaped text as a C string literal returns the original text. -/
theorem C42_escape_reversible (text : List Char) : unescape (escape text) = some text := by
  induction text with
  | nil => rfl
  | cons c text ih =>
    by_cases h : c = '\x07' ∨ c = '\x08' ∨ c = '\x0c' ∨ c = '\n' ∨ c = '\r' ∨ c = '\t' ∨ c = '\x0b' ∨ c = '\\' ∨
        c = '\'' ∨ c = '"' ∨ c = '?'
    · rcases h with rfl | rfl | rfl | rfl | rfl | rfl | rfl | rfl | rfl | rfl | rfl <;>
        simp [escape, unescape, unescapeChar, ih]
    · simp only [not_or] at h
      obtain ⟨h1, h2, h3, h4, h5, h6, h7, h8, h9, h10, h11⟩ := h
      have : escape (c :: text) = c :: escape text := by
        simp [escape, h1, h2, h3, h4, h5, h6, h7, h8, h9, h10, h11]
      rw [this, unescape_cons _ _ h8, ih]; rfl

example : escape "a\"b\n".toList = "a\\\"b\\n".toList := by decide

theorem toLower_eq (a b : Nat) : toLower a = toLower b ↔ SameUpToCase a b := by
  unfold toLower SameUpToCase
  constructor
  · intro h
    by_cases hab : a = b
    · exact Or.inl hab
    · right
      split at h <;> split at h
      · omega
      · exact ⟨a - 65, by omega, by omega⟩
      · exact ⟨b - 65, by omega, by omega⟩
      · omega
  · rintro (rfl | ⟨i, hi, ⟨rfl, rfl⟩ | ⟨rfl, rfl⟩⟩)
    · rfl
    · rw [if_pos (by omega), if_neg (by omega)]; omega
    · rw [if_neg (by omega), if_pos (by omega)]; omega

/-- **C43.** On NUL-free strings the comparison returns 0 exactly for strings equal up to ASCII case. -/
theorem C43_case_compare_zero (a b : List Nat) (ha : ∀ c ∈ a, c ≠ 0) (hb : ∀ c ∈ b, c ≠ 0) :
    caseCompare a b = 0 ↔ EqualUpToCase a b := by
  induction a generalizing b with
  | nil =>
    cases b with
    | nil => simp [caseCompare, EqualUpToCase]
    | cons y b => have := hb y (by simp); simp [caseCompare, EqualUpToCase]; omega
  | cons x a ih =>
    cases b with
    | nil => have := ha x (by simp); simp [caseCompare, EqualUpToCase]; omega
    | cons y b =>
      have := ih b (fun c h => ha c (by simp [h])) (fun c h => hb c (by simp [h]))
      simp only [caseCompare, EqualUpToCase]
      split
      · rename_i hne
        constructor
        · intro h; omega
        · intro h; exact absurd ((toLower_eq _ _).2 h.1) hne
      · rename_i he
        simp only [ne_eq, Decidable.not_not] at he
        rw [this]; simp [(toLower_eq _ _).1 he]

/-- **C43.** Swapping the arguments negates the result. -/
theorem C43_case_compare_antisymm (a b : List Nat) : caseCompare a b = -caseCompare b a := by
  induction a generalizing b with
  | nil => cases b <;> simp [caseCompare]
  | cons x a ih =>
    cases b with
    | nil => simp [caseCompare]
    | cons y b =>
      simp only [caseCompare]
      by_cases h : toLower x = toLower y
      · simp [h, ih b]
      · rw [if_pos h, if_pos (Ne.symm h)]; omega

example : caseCompare ("RepRap".toList.map Char.toNat) ("rEPrAP".toList.map Char.toNat) = 0 := by decide
example : caseCompare ("abc".toList.map Char.toNat) ("abD".toList.map Char.toNat) < 0 := by decide

end Verif.Text
