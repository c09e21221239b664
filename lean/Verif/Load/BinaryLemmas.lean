import Verif.Load.Spec
import Mathlib.Tactic.Linarith
import Mathlib.Tactic.Ring
import Mathlib.Tactic.NormNum
import Mathlib.Tactic.FieldSimp

namespace Verif.Load

open Verif.Slicer (P3 Mesh buildMesh)

/-! ## Coordinates -/

theorem trunc_pos {x : Rat} (h : 0 ≤ x) : (trunc x : Rat) ≤ x ∧ x < trunc x + 1 := by
  unfold trunc
  rw [if_pos h]
  exact ⟨Int.floor_le x, Int.lt_floor_add_one x⟩

theorem trunc_neg {x : Rat} (h : x < 0) : x ≤ trunc x ∧ (trunc x : Rat) - 1 < x := by
  unfold trunc
  rw [if_neg (not_le.mpr h)]
  exact ⟨Int.le_ceil x, by have := Int.ceil_lt_add_one x; linarith⟩

theorem mm2int_near (x : Rat) (h : |x| < 2 ^ 53) : ∃ n, mm2int x = .ok n ∧ Nearest x n := by
  rw [abs_lt] at h
  obtain ⟨h1, h2⟩ := h
  rcases lt_trichotomy x 0 with hx | hx | hx
  · have hy : x * 1000 + -1 / 2 < 0 := by linarith
    obtain ⟨a, b⟩ := trunc_neg hy
    refine ⟨trunc (x * 1000 + -1 / 2), ?_, ?_⟩
    · unfold mm2int
      dsimp only
      rw [if_neg (not_lt.mpr hx.le), if_pos hx, if_pos]
      constructor
      · have : (-2 ^ 63 : Rat) ≤ trunc (x * 1000 + -1 / 2) := by linarith
        exact_mod_cast this
      · have : (trunc (x * 1000 + -1 / 2) : Rat) < 2 ^ 63 := by linarith
        exact_mod_cast this
    · have hle : (trunc (x * 1000 + -1 / 2) : Rat) ≤ 0 := by
        have : trunc (x * 1000 + -1 / 2) < 1 := by
          have : (trunc (x * 1000 + -1 / 2) : Rat) < 1 := by linarith
          exact_mod_cast this
        have : trunc (x * 1000 + -1 / 2) ≤ 0 := by omega
        exact_mod_cast this
      refine ⟨abs_le.mpr ⟨by linarith, by linarith⟩, fun h => ?_⟩
      rw [abs_of_nonpos (by linarith), abs_of_nonpos hle]
      rcases abs_cases (x * 1000 - (trunc (x * 1000 + -1 / 2) : Rat)) with ⟨e, _⟩ | ⟨e, _⟩ <;> linarith
  · subst hx
    refine ⟨0, ?_, ?_⟩
    · unfold mm2int trunc; norm_num
    · unfold Nearest; norm_num
  · have hy : 0 ≤ x * 1000 + 1 / 2 := by linarith
    obtain ⟨a, b⟩ := trunc_pos hy
    refine ⟨trunc (x * 1000 + 1 / 2), ?_, ?_⟩
    · unfold mm2int
      dsimp only
      rw [if_pos hx, if_pos]
      constructor
      · have : (-2 ^ 63 : Rat) ≤ trunc (x * 1000 + 1 / 2) := by linarith
        exact_mod_cast this
      · have : (trunc (x * 1000 + 1 / 2) : Rat) < 2 ^ 63 := by linarith
        exact_mod_cast this
    · have hle : (0 : Rat) ≤ (trunc (x * 1000 + 1 / 2) : Rat) := by
        have : -1 < trunc (x * 1000 + 1 / 2) := by
          have : (-1 : Rat) < (trunc (x * 1000 + 1 / 2) : Rat) := by linarith
          exact_mod_cast this
        have : 0 ≤ trunc (x * 1000 + 1 / 2) := by omega
        exact_mod_cast this
      refine ⟨abs_le.mpr ⟨by linarith, by linarith⟩, fun h => ?_⟩
      rw [abs_of_nonneg (by linarith), abs_of_nonneg hle]
      rcases abs_cases (x * 1000 - (trunc (x * 1000 + 1 / 2) : Rat)) with ⟨e, _⟩ | ⟨e, _⟩ <;> linarith

theorem apply_at (m : Matrix) (v : Pos) (h : Fits (m.image v)) :
    ∃ p, m.apply (some v.1) (some v.2.1) (some v.2.2) = .ok p ∧ At (m.image v) p := by
  obtain ⟨h1, h2, h3⟩ := h
  obtain ⟨a, ha, na⟩ := mm2int_near _ h1
  obtain ⟨b, hb, nb⟩ := mm2int_near _ h2
  obtain ⟨c, hc, nc⟩ := mm2int_near _ h3
  refine ⟨⟨a, b, c⟩, ?_, na, nb, nc⟩
  have e1 : m.x.apply v.1 v.2.1 v.2.2 = (m.image v).1 := by simp only [Row.apply, Matrix.image]; ring
  have e2 : m.y.apply v.1 v.2.1 v.2.2 = (m.image v).2.1 := by simp only [Row.apply, Matrix.image]; ring
  have e3 : m.z.apply v.1 v.2.1 v.2.2 = (m.image v).2.2 := by simp only [Row.apply, Matrix.image]; ring
  unfold Matrix.apply
  dsimp only
  rw [e1, e2, e3, ha, hb, hc]
  rfl

/-! ## Words -/

theorem word_at (pre post : List UInt8) (w i : Nat) (hi : i = pre.length) (hw : w < 2 ^ 32) :
    word (pre ++ (little w ++ post)) i = w := by
  subst hi
  have h : ∀ k b, (little w)[k]? = some b → (pre ++ (little w ++ post)).getD (pre.length + k) 0 = b := by
    intro k b hk
    rw [List.getD_eq_getElem?_getD, List.getElem?_append_right (by omega), Nat.add_sub_cancel_left,
      List.getElem?_append_left (by rw [List.getElem?_eq_some_iff] at hk; exact hk.1), hk]
    rfl
  unfold word
  rw [h 1 _ rfl, h 2 _ rfl, h 3 _ rfl]
  have h0 := h 0 _ rfl
  rw [Nat.add_zero] at h0
  rw [h0]
  simp only [Nat.toUInt8_eq, UInt8.toNat_ofNat']
  omega

theorem Single.length (s : Single) : s.bytes.length = 4 := rfl

theorem Corner.length (c : Corner) : c.bytes.length = 12 := rfl

theorem single_value (s : Single) : single ((if s.neg then 2 ^ 31 else 0) + s.exp * 2 ^ 23 + s.man) = some s.value := by
  have he := s.hexp
  have hm := s.hman
  have e1 : ((if s.neg then 2 ^ 31 else 0) + s.exp * 2 ^ 23 + s.man) / 2 ^ 23 % 2 ^ 8 = s.exp := by
    split <;> omega
  have e2 : ((if s.neg then 2 ^ 31 else 0) + s.exp * 2 ^ 23 + s.man) % 2 ^ 23 = s.man := by
    split <;> omega
  have e3 : ((if s.neg then 2 ^ 31 else 0) + s.exp * 2 ^ 23 + s.man) / 2 ^ 31 % 2 = if s.neg then 1 else 0 := by
    split <;> omega
  unfold single
  dsimp only
  rw [e1, e2, e3, if_neg (by omega)]
  unfold Single.value
  congr 1
  congr 1
  · cases s.neg <;> simp
  · by_cases h : s.exp = 0
    · rw [if_pos h, if_pos h, show (-126 : Int) = 23 + -149 from rfl, zpow_add₀ (by norm_num)]
      norm_num
      ring
    · rw [if_neg h, if_neg h, show (s.exp : Int) - 127 = 23 + ((s.exp : Int) - 150) by ring, zpow_add₀ (by norm_num)]
      push_cast
      ring

theorem single_at (pre post : List UInt8) (s : Single) (i : Nat) (hi : i = pre.length) :
    single (word (pre ++ (s.bytes ++ post)) i) = some s.value := by
  have he := s.hexp
  have hm := s.hman
  unfold Single.bytes
  rw [word_at pre post _ i hi (by split <;> omega), single_value]

theorem vertexAt_corner (m : Matrix) (pre post : List UInt8) (c : Corner) (i : Nat) (hi : i = pre.length) :
    vertexAt m (pre ++ (c.bytes ++ post)) i = m.apply (some c.pos.1) (some c.pos.2.1) (some c.pos.2.2) := by
  unfold vertexAt Corner.bytes Corner.pos
  have e1 : pre ++ (c.x.bytes ++ c.y.bytes ++ c.z.bytes ++ post) = pre ++ (c.x.bytes ++ (c.y.bytes ++ (c.z.bytes ++ post))) := by
    simp only [List.append_assoc]
  have e2 : pre ++ (c.x.bytes ++ c.y.bytes ++ c.z.bytes ++ post) = (pre ++ c.x.bytes) ++ (c.y.bytes ++ (c.z.bytes ++ post)) := by
    simp only [List.append_assoc]
  have e3 : pre ++ (c.x.bytes ++ c.y.bytes ++ c.z.bytes ++ post) = (pre ++ c.x.bytes ++ c.y.bytes) ++ (c.z.bytes ++ post) := by
    simp only [List.append_assoc]
  have s1 : single (word (pre ++ (c.x.bytes ++ c.y.bytes ++ c.z.bytes ++ post)) i) = some c.x.value := by
    rw [e1]; exact single_at _ _ _ _ hi
  have s2 : single (word (pre ++ (c.x.bytes ++ c.y.bytes ++ c.z.bytes ++ post)) (i + 4)) = some c.y.value := by
    rw [e2]; exact single_at _ _ _ _ (by rw [List.length_append, Single.length, hi])
  have s3 : single (word (pre ++ (c.x.bytes ++ c.y.bytes ++ c.z.bytes ++ post)) (i + 8)) = some c.z.value := by
    rw [e3]; exact single_at _ _ _ _ (by rw [List.length_append, List.length_append, Single.length, Single.length, hi])
  rw [s1, s2, s3]

theorem triangleAt_facet (m : Matrix) (pre post : List UInt8) (f : Facet) (i : Nat) (hi : i = pre.length)
    (h : FitsTri (m.imageTri f.corners)) :
    ∃ t, triangleAt m (pre ++ (f.corners36 ++ post)) i = .ok t ∧ TriAt (m.imageTri f.corners) t := by
  obtain ⟨h1, h2, h3⟩ := h
  obtain ⟨a, ha, na⟩ := apply_at m _ h1
  obtain ⟨b, hb, nb⟩ := apply_at m _ h2
  obtain ⟨c, hc, nc⟩ := apply_at m _ h3
  refine ⟨(a, b, c), ?_, na, nb, nc⟩
  have e1 : pre ++ (f.a.bytes ++ f.b.bytes ++ f.c.bytes ++ post) = pre ++ (f.a.bytes ++ (f.b.bytes ++ (f.c.bytes ++ post))) := by
    simp only [List.append_assoc]
  have e2 : pre ++ (f.a.bytes ++ f.b.bytes ++ f.c.bytes ++ post) = (pre ++ f.a.bytes) ++ (f.b.bytes ++ (f.c.bytes ++ post)) := by
    simp only [List.append_assoc]
  have e3 : pre ++ (f.a.bytes ++ f.b.bytes ++ f.c.bytes ++ post) = (pre ++ f.a.bytes ++ f.b.bytes) ++ (f.c.bytes ++ post) := by
    simp only [List.append_assoc]
  have s1 : vertexAt m (pre ++ (f.a.bytes ++ f.b.bytes ++ f.c.bytes ++ post)) i = .ok a := by
    rw [e1, vertexAt_corner _ _ _ _ _ hi]; exact ha
  have s2 : vertexAt m (pre ++ (f.a.bytes ++ f.b.bytes ++ f.c.bytes ++ post)) (i + 12) = .ok b := by
    rw [e2, vertexAt_corner _ _ _ _ _ (by rw [List.length_append, Corner.length, hi])]; exact hb
  have s3 : vertexAt m (pre ++ (f.a.bytes ++ f.b.bytes ++ f.c.bytes ++ post)) (i + 24) = .ok c := by
    rw [e3, vertexAt_corner _ _ _ _ _ (by rw [List.length_append, List.length_append, Corner.length, Corner.length, hi])]; exact hc
  unfold triangleAt Facet.corners36
  rw [s1, s2, s3]
  rfl

theorem Facet.length36 (f : Facet) : f.corners36.length = 36 := rfl

theorem Facet.length (f : Facet) : f.bytes.length = 50 := by
  unfold Facet.bytes
  rw [List.length_append, List.length_append, f.hnormal, f.hflags, Facet.length36]

theorem facets_length (fs : List Facet) : (fs.flatMap Facet.bytes).length = 50 * fs.length := by
  induction fs with
  | nil => rfl
  | cons f fs ih => rw [List.flatMap_cons, List.length_append, ih, Facet.length, List.length_cons]; ring

theorem binaryFaces_facets (m : Matrix) (fs : List Facet) (rest : List UInt8)
    (h : ∀ f ∈ fs, FitsTri (m.imageTri f.corners)) :
    ∃ ts, binaryFaces m fs.length (fs.flatMap Facet.bytes ++ rest) = .ok (some ts) ∧
      List.Forall₂ (fun f t => TriAt (m.imageTri f.corners) t) fs ts := by
  induction fs with
  | nil => exact ⟨[], rfl, .nil⟩
  | cons f fs ih =>
    obtain ⟨ts, e, hts⟩ := ih fun g hg => h g (List.mem_cons_of_mem _ hg)
    obtain ⟨t, et, ht⟩ := triangleAt_facet m f.normal f.flags f 12 f.hnormal.symm (h f List.mem_cons_self)
    refine ⟨t :: ts, ?_, .cons ht hts⟩
    rw [List.flatMap_cons, List.append_assoc, List.length_cons]
    unfold binaryFaces
    rw [if_neg (by rw [List.length_append, Facet.length]; omega),
      show (f.bytes ++ (fs.flatMap Facet.bytes ++ rest)).take 50 = f.bytes by
        rw [List.take_append_of_le_length (by rw [Facet.length]), List.take_of_length_le (by rw [Facet.length])],
      show (f.bytes ++ (fs.flatMap Facet.bytes ++ rest)).drop 50 = fs.flatMap Facet.bytes ++ rest by
        rw [List.drop_append_of_le_length (by rw [Facet.length]), List.drop_of_length_le (by rw [Facet.length]), List.nil_append],
      show f.bytes = f.normal ++ (f.corners36 ++ f.flags) by unfold Facet.bytes; rw [List.append_assoc], et, e]
    rfl

theorem binary_facets (m : Matrix) (header count rest : List UInt8) (fs : List Facet) (hh : header.length = 80)
    (hc : count.length = 4) (hr : rest.length < 50) (h : ∀ f ∈ fs, FitsTri (m.imageTri f.corners)) :
    ∃ ts, binary m (header ++ count ++ fs.flatMap Facet.bytes ++ rest) = .ok (some ts) ∧
      List.Forall₂ (fun f t => TriAt (m.imageTri f.corners) t) fs ts := by
  obtain ⟨ts, e, hts⟩ := binaryFaces_facets m fs rest h
  refine ⟨ts, ?_, hts⟩
  have hl : (header ++ count ++ fs.flatMap Facet.bytes ++ rest).length = 84 + 50 * fs.length + rest.length := by
    simp only [List.length_append, facets_length, hh, hc]
  unfold binary
  rw [if_neg (by omega), if_neg (by omega), hl,
    show (84 + 50 * fs.length + rest.length - 84) / 50 = fs.length by omega,
    show (header ++ count ++ fs.flatMap Facet.bytes ++ rest).drop 84 = fs.flatMap Facet.bytes ++ rest by
      rw [List.append_assoc, List.drop_append_of_le_length (by rw [List.length_append, hh, hc]),
        List.drop_of_length_le (by rw [List.length_append, hh, hc]), List.nil_append]]
  exact e

/-! ## The beginning of the file -/

theorem skip_space (space : List UInt8) (c : UInt8) (r : List UInt8) (h : ∀ b ∈ space, isSpace b = true)
    (hc : isSpace c = false) : skip (space ++ c :: r) = c :: r := by
  unfold skip
  induction space with
  | nil => rw [List.nil_append, List.dropWhile_cons, if_neg (by rw [hc]; decide)]
  | cons b bs ih =>
    rw [List.cons_append, List.dropWhile_cons, if_pos (h b List.mem_cons_self)]
    exact ih fun b hb => h b (List.mem_cons_of_mem _ hb)

theorem isSpace_iff (b : UInt8) : isSpace b = true ↔ b.toNat = 32 ∨ 9 ≤ b.toNat ∧ b.toNat ≤ 13 := by
  unfold isSpace
  rw [Bool.or_eq_true, Bool.and_eq_true, beq_iff_eq, decide_eq_true_iff, decide_eq_true_iff, UInt8.le_iff_toNat_le,
    UInt8.le_iff_toNat_le, ← UInt8.toNat_inj]
  rfl

theorem isDigit_iff (b : UInt8) : isDigit b = true ↔ 48 ≤ b.toNat ∧ b.toNat ≤ 57 := by
  unfold isDigit
  rw [Bool.and_eq_true, decide_eq_true_iff, decide_eq_true_iff, UInt8.le_iff_toNat_le, UInt8.le_iff_toNat_le]
  rfl

theorem lower_space (b : UInt8) (h : isSpace b = true) : lower b = b := by
  rw [isSpace_iff] at h
  unfold lower
  rw [if_neg]
  rw [Bool.and_eq_true, decide_eq_true_iff, decide_eq_true_iff, UInt8.le_iff_toNat_le, UInt8.le_iff_toNat_le]
  simp only [UInt8.reduceToNat]
  omega

theorem white_false {b : UInt8} (h : ¬ White b) : isSpace b = false := by
  cases hb : isSpace b with
  | false => rfl
  | true => exact absurd ((isSpace_iff b).mp hb) h

theorem lower_letter (b c : UInt8) (h1 : 97 ≤ c.toNat) (h2 : c.toNat ≤ 122) : lower b = c ↔ b = c ∨ b = c - 32 := by
  unfold lower
  have e : ((65 : UInt8) ≤ b && b ≤ 90) = true ↔ 65 ≤ b.toNat ∧ b.toNat ≤ 90 := by
    rw [Bool.and_eq_true, decide_eq_true_iff, decide_eq_true_iff, UInt8.le_iff_toNat_le, UInt8.le_iff_toNat_le]
    rfl
  have hb := b.toNat_lt
  have h32 : (c - 32).toNat = c.toNat - 32 := by
    rw [UInt8.toNat_sub_of_le _ _ (by rw [UInt8.le_iff_toNat_le]; simp only [UInt8.reduceToNat]; omega)]
    rfl
  rw [← UInt8.toNat_inj, ← UInt8.toNat_inj (a := b), ← UInt8.toNat_inj (a := b), h32]
  split
  · rename_i h
    rw [e] at h
    rw [UInt8.toNat_add]
    simp only [UInt8.reduceToNat]
    omega
  · rename_i h
    rw [e] at h
    omega

theorem spells_iff (bs : List UInt8) : Spells bs "solid" ↔ bs.map lower = ascii "solid" := by
  unfold Spells
  have hl : ∀ c ∈ ascii "solid", 97 ≤ c.toNat ∧ c.toNat ≤ 122 := by decide
  generalize ascii "solid" = cs at hl
  induction bs generalizing cs with
  | nil => cases cs <;> simp
  | cons b bs ih =>
    cases cs with
    | nil => simp
    | cons c cs =>
      have ih' : List.Forall₂ (fun b c => b = c ∨ b = c - 32) bs cs ↔ bs.map lower = cs :=
        ih cs fun c h => hl c (List.mem_cons_of_mem _ h)
      rw [List.forall₂_cons, ih', List.map_cons, List.cons.injEq,
        lower_letter b c (hl c List.mem_cons_self).1 (hl c List.mem_cons_self).2]

theorem isText_not (file : List UInt8) (h : NotSolid file) : isText file = some false := by
  obtain ⟨space, c, r, rfl, hs, hc, hl, hn⟩ := h
  rw [spells_iff] at hn
  unfold isText
  rw [skip_space space c r (fun b h => (isSpace_iff b).mpr (hs b h)) (white_false hc), if_neg (by rw [List.length_cons]; omega),
    decide_eq_false hn]

theorem isText_solid (file : List UInt8) (h : IsSolid file) : isText file = some true := by
  obtain ⟨space, w, r, rfl, hs, hw⟩ := h
  rw [spells_iff] at hw
  have hlen : w.length = 5 := by have := congrArg List.length hw; rw [List.length_map] at this; exact this
  obtain ⟨c, cs, rfl⟩ : ∃ c cs, w = c :: cs := by
    cases w with
    | nil => cases hlen
    | cons c cs => exact ⟨c, cs, rfl⟩
  have hc : isSpace c = false := by
    cases hcs : isSpace c with
    | false => rfl
    | true =>
      have h1 : lower c = 115 := by
        have := congrArg (fun l => l.getD 0 0) hw
        exact this
      rw [lower_space c hcs] at h1
      rw [h1] at hcs
      exact absurd hcs (by decide)
  unfold isText
  rw [List.append_assoc, List.cons_append, skip_space space c (cs ++ r) (fun b h => (isSpace_iff b).mpr (hs b h)) hc,
    if_neg (by rw [List.length_cons, List.length_append]; rw [List.length_cons] at hlen; omega)]
  rw [show (c :: (cs ++ r)).take 5 = c :: cs by
    rw [← List.cons_append, List.take_append_of_le_length (by omega), List.take_of_length_le (by omega)]]
  rw [decide_eq_true hw]

end Verif.Load
