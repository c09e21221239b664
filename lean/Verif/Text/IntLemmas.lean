import Verif.Text.Lemmas

/-! # `writeInt2mm`: evaluation of the loops -/

namespace Verif.Text
open Verif Spec

/-- How many of the last three characters are trailing zeros. -/
def tz3 (x y z : Char) : Nat :=
  if z = '0' then if y = '0' then if x = '0' then 3 else 2 else 1 else 0

theorem tzLoop_eval (P : List Char) (x y z : Char) (R : List Char) (cc : Int) (h : cc = (P.length : Int) + 3) :
    tzLoop (P ++ x :: y :: z :: R) cc 4 1 = .ok (tz3 x y z : Int) := by
  have h1 := at'_append P (x :: y :: z :: R) 2 (cc - 1) (by omega)
  have h2 := at'_append P (x :: y :: z :: R) 1 (cc - 2) (by omega)
  have h3 := at'_append P (x :: y :: z :: R) 0 (cc - 3) (by omega)
  simp [Outcome.index] at h1 h2 h3
  unfold tz3
  by_cases hz : z = '0' <;> by_cases hy : y = '0' <;> by_cases hx : x = '0' <;>
    simp_all [tzLoop]

theorem dotLoop_step (P Q : List Char) (k : Nat) {e pos : Int} {f : Nat} {prev next : Char}
    (h : pos = (P.length : Int) + k) (he : pos ≤ e) (hk : Q[k]? = some next) :
    dotLoop e (f + 1) (P ++ Q) pos prev = dotLoop e f (P ++ Q.set k prev) (pos + 1) next := by
  have hl : k < Q.length := by
    rcases Nat.lt_or_ge k Q.length with g | g
    · exact g
    · rw [List.getElem?_eq_none g] at hk; cases hk
  simp only [dotLoop, he, if_true]
  rw [at'_append P Q k pos h, Outcome.index_eq_ok.2 hk]
  simp only [Outcome.bind_ok]
  rw [put_append P Q k pos prev h hl]
  rfl

theorem dotLoop_stop {buf : List Char} {e pos : Int} {f : Nat} {prev : Char} (he : ¬ pos ≤ e) :
    dotLoop e (f + 1) buf pos prev = .ok (buf, pos) := by
  simp [dotLoop, he]

/-- The general case of `writeInt2mm`: at least four characters. -/
theorem writeInt2mm_eval (g : List Char) (coord : Int) (P : List Char) (x y z : Char)
    (hg : (fmtInt coord).length + 2 ≤ g.length) (h : fmtInt coord = P ++ [x, y, z]) (hP : P ≠ []) (hn : ∀ c ∈ fmtInt coord, c ≠ '\x00') :
    writeInt2mm g coord = .ok (P ++ (if tz3 x y z = 3 then [] else '.' :: [x, y, z].take (3 - tz3 x y z))) := by
  obtain ⟨c0, G, hG⟩ : ∃ c0 G, g.drop ((fmtInt coord).length + 1) = c0 :: G := by
    cases hd : g.drop ((fmtInt coord).length + 1) with
    | nil => have := congrArg List.length hd; simp at this; omega
    | cons c0 G => exact ⟨c0, G, rfl⟩
  have hb : fmtInt coord ++ '\x00' :: g.drop ((fmtInt coord).length + 1)
      = P ++ x :: y :: z :: '\x00' :: c0 :: G := by rw [hG, h]; simp
  have hlen : ((fmtInt coord).length : Int) = (P.length : Int) + 3 := by rw [h]; simp
  have hPpos : 0 < P.length := List.length_pos_iff.2 hP
  have hPn : ∀ c ∈ P, c ≠ '\x00' := fun c hc => hn c (by rw [h]; exact List.mem_append_left _ hc)
  have hx : x ≠ '\x00' := hn x (by rw [h]; simp)
  have hy : y ≠ '\x00' := hn y (by rw [h]; simp)
  have hz : z ≠ '\x00' := hn z (by rw [h]; simp)
  unfold writeInt2mm
  simp only [hb, hlen]
  rw [tzLoop_eval P x y z ('\x00' :: c0 :: G) _ rfl]
  simp only [Outcome.bind_ok]
  have hcc : ¬ ((P.length : Int) + 3 ≤ 3) := by omega
  have fin : ∀ (L R : List Char), (∀ c ∈ L, c ≠ '\x00') → cstr (P ++ (L ++ '\x00' :: R)) = P ++ L := by
    intro L R hL
    rw [← List.append_assoc]
    exact cstr_append (fun c hc => by rcases List.mem_append.1 hc with g | g; exact hPn c g; exact hL c g) R
  have t3 : tz3 x y z = 0 ∨ tz3 x y z = 1 ∨ tz3 x y z = 2 ∨ tz3 x y z = 3 := by unfold tz3; grind
  rcases t3 with t | t | t | t <;> rw [t]
  · rw [if_neg (by decide), if_neg hcc]
    rw [dotLoop_step P _ 0 (by omega) (by omega) rfl, dotLoop_step P _ 1 (by omega) (by omega) rfl,
      dotLoop_step P _ 2 (by omega) (by omega) rfl, dotLoop_step P _ 3 (by omega) (by omega) rfl,
      dotLoop_stop (by omega)]
    simp only [Outcome.bind_ok]
    rw [put_append P _ 4 _ _ (by omega) (by simp)]
    simpa using fin ['.', x, y, z] G (by simp [hx, hy, hz])
  · rw [if_neg (by decide), if_neg hcc]
    rw [dotLoop_step P _ 0 (by omega) (by omega) rfl, dotLoop_step P _ 1 (by omega) (by omega) rfl,
      dotLoop_step P _ 2 (by omega) (by omega) rfl, dotLoop_stop (by omega)]
    simp only [Outcome.bind_ok]
    rw [put_append P _ 3 _ _ (by omega) (by simp)]
    simpa using fin ['.', x, y] (c0 :: G) (by simp [hx, hy])
  · rw [if_neg (by decide), if_neg hcc]
    rw [dotLoop_step P _ 0 (by omega) (by omega) rfl, dotLoop_step P _ 1 (by omega) (by omega) rfl,
      dotLoop_stop (by omega)]
    simp only [Outcome.bind_ok]
    rw [put_append P _ 2 _ _ (by omega) (by simp)]
    simpa using fin ['.', x] ('\x00' :: c0 :: G) (by simp [hx])
  · rw [if_pos (by decide), put_append P _ 0 _ _ (by omega) (by simp)]
    simpa using fin [] (y :: z :: '\x00' :: c0 :: G) (by simp)

/-! ## The text as a number -/

/-- `out` denotes `coord` µm in millimetres, with at most three decimals and no superfluous zero. -/
def Denotes (out : List Char) (coord : Int) : Prop :=
  ∃ (m : Int) (k : Nat), parseDecimal out = some (m, k) ∧ k ≤ 3 ∧ m * 1000 = coord * 10 ^ k ∧
    (0 < k → out.getLast? ≠ some '0')

/-- The sign characters of a number. -/
def signOf (coord : Int) : List Char := if coord < 0 then ['-'] else []

theorem denotes_frac (coord : Int) (ip fp : List Char) (hi : ∀ c ∈ ip, IsDigit c) (hf : fp ≠ []) (h3 : fp.length ≤ 3)
    (v : Nat) (hv : natFrom 0 (ip ++ fp) = some v) (hval : v * 1000 = coord.natAbs * 10 ^ fp.length)
    (hl : fp.getLast? ≠ some '0') : Denotes (signOf coord ++ ip ++ '.' :: fp) coord := by
  have := parseDecimal_frac (decide (coord < 0)) ip fp hi hf v hv
  simp only [decide_eq_true_eq] at this
  refine ⟨_, _, this, h3, ?_, ?_⟩
  · have hc : ((v * 1000 : Nat) : Int) = ((coord.natAbs * 10 ^ fp.length : Nat) : Int) := by rw [hval]
    simp only [Int.natCast_mul, Int.natCast_pow] at hc
    by_cases hn : coord < 0
    · have e : ((coord.natAbs : Nat) : Int) = -coord := by omega
      rw [e] at hc
      simp only [hn, if_true]
      have : coord * 10 ^ fp.length = -((-coord) * 10 ^ fp.length) := by rw [Int.neg_mul, Int.neg_neg]
      rw [this]
      have hc' : (v : Int) * 1000 = -coord * 10 ^ fp.length := hc
      rw [← hc']; omega
    · have e : ((coord.natAbs : Nat) : Int) = coord := by omega
      rw [e] at hc
      simp only [hn, if_false, Int.one_mul]
      exact hc
  · intro _
    have : (signOf coord ++ ip ++ '.' :: fp).getLast? = fp.getLast? := by
      cases fp with
      | nil => exact absurd rfl hf
      | cons a l => rw [List.getLast?_append, List.getLast?_cons_cons]; simp [List.getLast?_cons]
    rw [this]; exact hl

theorem denotes_int (coord : Int) (ip : List Char) (hi : ∀ c ∈ ip, IsDigit c) (hne : ip ≠ [])
    (v : Nat) (hv : natFrom 0 ip = some v) (hval : v * 1000 = coord.natAbs) : Denotes (signOf coord ++ ip) coord := by
  have := parseDecimal_int (decide (coord < 0)) ip hi hne v hv
  simp only [decide_eq_true_eq] at this
  refine ⟨_, _, this, by omega, ?_, by omega⟩
  by_cases hn : coord < 0
  · simp only [hn, if_true]; omega
  · simp only [hn, if_false]; omega

theorem dig_eq_zero {d : Nat} (h : d < 10) : dig d = '0' ↔ d = 0 := dig_ne_zero ⟨d, h⟩

theorem digits_length (k n : Nat) (hk : 0 < k) (h : n < 10 ^ k) : (digits n).length ≤ k := by
  induction k generalizing n with
  | zero => omega
  | succ k ih =>
    by_cases h10 : n < 10
    · rw [digits_lt h10]; simp
    · rw [digits_ge h10]
      rcases Nat.eq_zero_or_pos k with rfl | hk'
      · simp at h; omega
      · have := ih (n / 10) hk' (by rw [Nat.pow_succ] at h; omega)
        simp; omega

theorem fmtInt_ne_nul (coord : Int) : ∀ c ∈ fmtInt coord, c ≠ '\x00' := by
  intro c hc
  rcases List.mem_append.1 hc with g | g
  · split at g
    · simp at g; subst g; decide
    · simp at g
  · exact (isDigit_digits _ c g).ne_nul

/-- Four characters or more. -/
theorem writeInt2mm_long (g : List Char) (coord : Int) (ip : List Char)
    (hg : (fmtInt coord).length + 2 ≤ g.length)
    (hfmt : fmtInt coord = signOf coord ++ ip ++ [dig (coord.natAbs / 100 % 10), dig (coord.natAbs / 10 % 10),
      dig (coord.natAbs % 10)])
    (hne : signOf coord ++ ip ≠ []) (hi : ∀ c ∈ ip, IsDigit c) (hv : natFrom 0 ip = some (coord.natAbs / 1000))
    (h0 : ip = [] → 100 ≤ coord.natAbs ∧ coord.natAbs < 1000) :
    ∃ out, writeInt2mm g coord = .ok out ∧ Denotes out coord := by
  generalize hn : coord.natAbs = n at *
  have l1 : n / 100 % 10 < 10 := Nat.mod_lt _ (by omega)
  have l2 : n / 10 % 10 < 10 := Nat.mod_lt _ (by omega)
  have l3 : n % 10 < 10 := Nat.mod_lt _ (by omega)
  refine ⟨_, writeInt2mm_eval g coord _ _ _ _ hg hfmt hne (fmtInt_ne_nul coord), ?_⟩
  have nf : ∀ (a : Nat) (l : List Char), natFrom (n / 1000) l = some a → natFrom 0 (ip ++ l) = some a := by
    intro a l h; rw [natFrom_append, hv]; exact h
  have s1 : ∀ (a d : Nat) (l : List Char), d < 10 → natFrom a (dig d :: l) = natFrom (a * 10 + d) l := by
    intro a d l hd
    have := digitVal_dig ⟨d, hd⟩
    simp only at this
    simp [natFrom, this]
  unfold tz3
  simp only [dig_eq_zero l1, dig_eq_zero l2, dig_eq_zero l3]
  by_cases z3 : n % 10 = 0
  · by_cases z2 : n / 10 % 10 = 0
    · by_cases z1 : n / 100 % 10 = 0
      · simp only [z1, z2, z3, if_true, List.append_nil]
        refine denotes_int coord ip hi (fun h => ?_) _ hv (by omega)
        have := h0 h; omega
      · simp only [z1, z2, z3, if_true, if_false]
        rw [if_neg (by decide)]
        refine denotes_frac coord ip _ hi (by simp) (by simp) (n / 1000 * 10 + n / 100 % 10) (nf _ _ ?_) ?_ ?_
        · simp only [List.take]; rw [s1 _ _ _ l1]; rfl
        · simp; omega
        · simpa using mt (dig_eq_zero l1).1 z1
    · simp only [z2, z3, if_true, if_false]
      rw [if_neg (by decide)]
      refine denotes_frac coord ip _ hi (by simp) (by simp) ((n / 1000 * 10 + n / 100 % 10) * 10 + n / 10 % 10)
        (nf _ _ ?_) ?_ ?_
      · simp only [List.take]; rw [s1 _ _ _ l1, s1 _ _ _ l2]; rfl
      · simp; omega
      · simpa using mt (dig_eq_zero l2).1 z2
  · simp only [z3, if_false]
    rw [if_neg (by decide)]
    refine denotes_frac coord ip _ hi (by simp) (by simp)
      (((n / 1000 * 10 + n / 100 % 10) * 10 + n / 10 % 10) * 10 + n % 10) (nf _ _ ?_) ?_ ?_
    · simp only [List.take]; rw [s1 _ _ _ l1, s1 _ _ _ l2, s1 _ _ _ l3]; rfl
    · simp; omega
    · simpa using mt (dig_eq_zero l3).1 z3

theorem natFrom_cons (a d : Nat) (l : List Char) (hd : d < 10) : natFrom a (dig d :: l) = natFrom (a * 10 + d) l := by
  have := digitVal_dig ⟨d, hd⟩
  simp only at this
  simp [natFrom, this]

theorem dig_zero : '0' = dig 0 := rfl

/-- One digit. -/
theorem writeInt2mm_one (g : List Char) (coord : Int) (h1 : 0 < coord.natAbs) (h2 : coord.natAbs < 10) :
    ∃ out, writeInt2mm g coord = .ok out ∧ Denotes out coord := by
  have hfmt : fmtInt coord = signOf coord ++ [dig coord.natAbs] := by unfold fmtInt signOf; rw [digits_lt h2]
  refine ⟨signOf coord ++ ['0'] ++ '.' :: ['0', '0', dig coord.natAbs], ?_, ?_⟩
  · have nz := mt (dig_eq_zero h2).1 (by omega)
    have nn := (isDigit_dig h2).ne_nul
    unfold writeInt2mm
    simp only [hfmt]
    by_cases hc : coord < 0 <;>
      (simp [signOf, hc, tzLoop, at', Outcome.index, put, nz, cstr, nn]; rw [if_pos (by omega)]; simp [nn])
  · refine denotes_frac coord ['0'] _ ?_ (by simp) (by simp) coord.natAbs ?_ ?_ ?_
    · intro c hc; simp at hc; subst hc; exact ⟨0, rfl⟩
    · simp only [List.cons_append, List.nil_append]
      rw [dig_zero, natFrom_cons _ _ _ (by omega), natFrom_cons _ _ _ (by omega), natFrom_cons _ _ _ (by omega),
        natFrom_cons _ _ _ h2]
      simp [natFrom]
    · simp
    · simpa using mt (dig_eq_zero h2).1 (by omega)

/-- Two digits. -/
theorem writeInt2mm_two (g : List Char) (coord : Int) (h1 : 10 ≤ coord.natAbs) (h2 : coord.natAbs < 100) :
    ∃ out, writeInt2mm g coord = .ok out ∧ Denotes out coord := by
  have la : coord.natAbs / 10 < 10 := by omega
  have lb : coord.natAbs % 10 < 10 := by omega
  have hfmt : fmtInt coord = signOf coord ++ [dig (coord.natAbs / 10), dig (coord.natAbs % 10)] := by
    unfold fmtInt signOf; rw [digits_ge (by omega), digits_lt la]; rfl
  have na := mt (dig_eq_zero la).1 (by omega)
  have nna := (isDigit_dig la).ne_nul
  have nnb := (isDigit_dig lb).ne_nul
  by_cases hz : coord.natAbs % 10 = 0
  · refine ⟨signOf coord ++ ['0'] ++ '.' :: ['0', dig (coord.natAbs / 10)], ?_, ?_⟩
    · unfold writeInt2mm
      simp only [hfmt, hz]
      by_cases hc : coord < 0 <;>
        (simp [signOf, hc, tzLoop, at', Outcome.index, put, na, cstr, nna, ← dig_zero]; rw [if_pos (by omega)]; simp [nna, nnb])
    · refine denotes_frac coord ['0'] _ ?_ (by simp) (by simp) (coord.natAbs / 10) ?_ ?_ ?_
      · intro c hc; simp at hc; subst hc; exact ⟨0, rfl⟩
      · simp only [List.cons_append, List.nil_append]
        rw [dig_zero, natFrom_cons _ _ _ (by omega), natFrom_cons _ _ _ (by omega), natFrom_cons _ _ _ la]
        simp [natFrom]
      · simp; omega
      · simpa using na
  · have nb := mt (dig_eq_zero lb).1 hz
    refine ⟨signOf coord ++ ['0'] ++ '.' :: ['0', dig (coord.natAbs / 10), dig (coord.natAbs % 10)], ?_, ?_⟩
    · unfold writeInt2mm
      simp only [hfmt]
      by_cases hc : coord < 0 <;>
        (simp [signOf, hc, tzLoop, at', Outcome.index, put, nb, cstr, nna, nnb]; rw [if_pos (by omega)]; simp [nna, nnb])
    · refine denotes_frac coord ['0'] _ ?_ (by simp) (by simp) coord.natAbs ?_ ?_ ?_
      · intro c hc; simp at hc; subst hc; exact ⟨0, rfl⟩
      · simp only [List.cons_append, List.nil_append]
        rw [dig_zero, natFrom_cons _ _ _ (by omega), natFrom_cons _ _ _ (by omega), natFrom_cons _ _ _ la,
          natFrom_cons _ _ _ lb]
        simp [natFrom]; omega
      · simp
      · simpa using nb

/-- Three digits without a sign. -/
theorem writeInt2mm_three (g : List Char) (coord : Int) (h0 : 0 ≤ coord) (h1 : 100 ≤ coord.natAbs)
    (h2 : coord.natAbs < 1000) : ∃ out, writeInt2mm g coord = .ok out ∧ Denotes out coord := by
  generalize hn : coord.natAbs = n at *
  have la : n / 100 < 10 := by omega
  have lb : n / 10 % 10 < 10 := by omega
  have lc : n % 10 < 10 := by omega
  have hs : signOf coord = [] := by simp [signOf]; omega
  have hfmt : fmtInt coord = [dig (n / 100), dig (n / 10 % 10), dig (n % 10)] := by
    unfold fmtInt
    rw [if_neg (by omega), hn, digits_ge (by omega), digits_ge (by omega), digits_lt (by omega)]
    simp [Nat.div_div_eq_div_mul]
  have na := mt (dig_eq_zero la).1 (by omega)
  have nna := (isDigit_dig la).ne_nul
  have nnb := (isDigit_dig lb).ne_nul
  have nnc := (isDigit_dig lc).ne_nul
  have hc : ¬ coord < 0 := by omega
  have i0 : ∀ c ∈ ['0'], IsDigit c := by intro c hc; simp at hc; subst hc; exact ⟨0, rfl⟩
  have fr := fun fp => denotes_frac coord ['0'] fp i0
  rw [hs] at fr
  by_cases zc : n % 10 = 0
  · by_cases zb : n / 10 % 10 = 0
    · refine ⟨['0'] ++ '.' :: [dig (n / 100)], ?_, fr _ (by simp) (by simp) (n / 100) ?_ ?_ ?_⟩
      · unfold writeInt2mm
        simp only [hfmt, zc, zb]
        (simp [hc, tzLoop, at', Outcome.index, put, na, cstr, nna, ← dig_zero]; rw [if_pos (by omega)]; simp [nna, nnb, nnc])
      · simp only [List.cons_append, List.nil_append]
        rw [dig_zero, natFrom_cons _ _ _ (by omega), natFrom_cons _ _ _ la]
        simp [natFrom]
      · simp; omega
      · simpa using na
    · have nb := mt (dig_eq_zero lb).1 zb
      refine ⟨['0'] ++ '.' :: [dig (n / 100), dig (n / 10 % 10)], ?_, fr _ (by simp) (by simp) (n / 10) ?_ ?_ ?_⟩
      · unfold writeInt2mm
        simp only [hfmt, zc]
        (simp [hc, tzLoop, at', Outcome.index, put, nb, cstr, nna, nnb, ← dig_zero]; rw [if_pos (by omega)]; simp [nna, nnb, nnc])
      · simp only [List.cons_append, List.nil_append]
        rw [dig_zero, natFrom_cons _ _ _ (by omega), natFrom_cons _ _ _ la, natFrom_cons _ _ _ lb]
        simp [natFrom]; omega
      · simp; omega
      · simpa using nb
  · have nc := mt (dig_eq_zero lc).1 zc
    refine ⟨['0'] ++ '.' :: [dig (n / 100), dig (n / 10 % 10), dig (n % 10)], ?_,
      fr _ (by simp) (by simp) n ?_ ?_ ?_⟩
    · unfold writeInt2mm
      simp only [hfmt]
      (simp [hc, tzLoop, at', Outcome.index, put, nc, cstr, nna, nnb, nnc]; rw [if_pos (by omega)]; simp [nna, nnb, nnc])
    · simp only [List.cons_append, List.nil_append]
      rw [dig_zero, natFrom_cons _ _ _ (by omega), natFrom_cons _ _ _ la, natFrom_cons _ _ _ lb,
        natFrom_cons _ _ _ lc]
      simp [natFrom]; omega
    · simp; omega
    · simpa using nc

theorem writeInt2mm_denotes (g : List Char) (hg : g.length = 24) (coord : Int) (h0 : coord ≠ 0)
    (hr : -(2 ^ 31) ≤ coord ∧ coord < 2 ^ 31) : ∃ out, writeInt2mm g coord = .ok out ∧ Denotes out coord := by
  have hlen : (fmtInt coord).length + 2 ≤ g.length := by
    have := digits_length 10 coord.natAbs (by omega) (by omega)
    unfold fmtInt
    rw [List.length_append]
    split <;> simp <;> omega
  by_cases a : coord.natAbs < 10
  · exact writeInt2mm_one g coord (by omega) a
  by_cases b : coord.natAbs < 100
  · exact writeInt2mm_two g coord (by omega) b
  have hd : digits coord.natAbs = (if coord.natAbs < 1000 then [] else digits (coord.natAbs / 1000)) ++
      [dig (coord.natAbs / 100 % 10), dig (coord.natAbs / 10 % 10), dig (coord.natAbs % 10)] := by
    generalize coord.natAbs = n at *
    rw [digits_ge a, digits_ge (by omega)]
    split
    · rw [digits_lt (by omega), Nat.div_div_eq_div_mul, Nat.mod_eq_of_lt (a := n / 100) (by omega)]; rfl
    · rw [digits_ge (by omega)]
      simp [Nat.div_div_eq_div_mul]
  by_cases c : coord.natAbs < 1000
  · by_cases s : coord < 0
    · refine writeInt2mm_long g coord [] hlen ?_ (by simp [signOf, s]) (by simp) ?_ (fun _ => by omega)
      · unfold fmtInt signOf; rw [hd, if_pos c]; simp
      · simp [natFrom]; omega
    · exact writeInt2mm_three g coord (by omega) (by omega) c
  · refine writeInt2mm_long g coord (digits (coord.natAbs / 1000)) hlen ?_ ?_ (isDigit_digits _) ?_ ?_
    · unfold fmtInt signOf; rw [hd, if_neg c]; simp
    · simp [digits_ne_nil]
    · rw [natFrom_digits]; simp
    · intro h; exact absurd h (digits_ne_nil _)

end Verif.Text
