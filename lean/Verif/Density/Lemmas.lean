import Verif.Density.Model
import Verif.Density.Spec
import Mathlib.Algebra.BigOperators.Intervals
import Mathlib.Algebra.Order.BigOperators.Group.Finset
import Mathlib.Tactic.Linarith
import Mathlib.Tactic.Ring
import Mathlib.Tactic.FieldSimp
import Mathlib.Tactic.Positivity
import Mathlib.Tactic.NormNum

/-! # Lemmas about densities given by an image -/

namespace Verif.Density

open Spec

theorem loop_sum (body : ℤ → ℕ × ℕ → Option (ℕ × ℕ)) (f g : ℤ → ℕ) (l : List ℤ)
    (h : ∀ i ∈ l, ∀ s, body i s = some (s.1 + f i, s.2 + g i)) (s : ℕ × ℕ) :
    loop body l s = some (s.1 + (l.map f).sum, s.2 + (l.map g).sum) := by
  induction l generalizing s with
  | nil => simp [loop]
  | cons a l ih =>
    rw [loop, h a (by simp), Option.bind_some, ih (fun i hi => h i (by simp [hi]))]
    simp [Nat.add_assoc]

theorem mem_ints (a b i : ℤ) : i ∈ ints a b ↔ a ≤ i ∧ i ≤ b := by
  unfold ints
  rw [List.mem_map]
  constructor
  · rintro ⟨n, hn, rfl⟩
    have := List.mem_range.1 hn
    omega
  · rintro ⟨h1, h2⟩
    exact ⟨(i - a).toNat, List.mem_range.2 (by omega), by omega⟩

theorem sum_ints (a b : ℤ) (f : ℤ → ℕ) : ((ints a b).map f).sum = ∑ i ∈ Finset.Icc a b, f i := by
  have h : Finset.Icc a b = (Finset.range (b + 1 - a).toNat).map
      (Nat.castEmbedding.trans <| addLeftEmbedding a) := Int.Icc_eq_finset_map a b
  rw [h, Finset.sum_map]
  unfold ints
  rw [List.map_map]
  rfl

theorem sum_channels (n : ℕ) (f : ℕ → ℕ) :
    ∑ i ∈ Finset.Icc (0 : ℤ) ((n : ℤ) - 1), f i.toNat = ∑ z ∈ Finset.range n, f z := by
  rw [← sum_ints]
  unfold ints
  rw [List.map_map]
  have : ((n : ℤ) - 1 + 1 - 0).toNat = n := by omega
  rw [this]
  have e : (f ∘ Int.toNat) ∘ (fun (k : ℕ) => 0 + (k : ℤ)) = f := by
    funext k
    simp
  change (List.map ((f ∘ Int.toNat) ∘ fun (k : ℕ) => 0 + (k : ℤ)) (List.range n)).sum = _
  rw [e]
  rfl

theorem read_ok (im : Image) (hv : im.Valid) (x y : ℤ) (z : ℕ) (hx : 0 ≤ x ∧ x < im.width) (hy : 0 ≤ y ∧ y < im.height)
    (hz : z < im.channels) : im.read x y z = some (bright im.data im.width im.height im.channels x y z) := by
  obtain ⟨_, _, _, hl⟩ := hv
  obtain ⟨x, rfl⟩ := Int.eq_ofNat_of_zero_le hx.1
  obtain ⟨y, rfl⟩ := Int.eq_ofNat_of_zero_le hy.1
  have hx' : x < im.width := by omega
  have hy' : y < im.height := by omega
  have e : ((im.height : ℤ) - 1 - y) * im.width + x = (((im.height - 1 - y) * im.width + x : ℕ) : ℤ) := by
    have : ((im.height - 1 - y : ℕ) : ℤ) = (im.height : ℤ) - 1 - y := by omega
    push_cast
    rw [this]
  have e2 : (((im.height : ℤ) - 1 - y) * im.width + x) * im.channels + z =
      ((((im.height - 1 - y) * im.width + x) * im.channels + z : ℕ) : ℤ) := by
    rw [e]; push_cast; rfl
  have hlt : ((im.height - 1 - y) * im.width + x) * im.channels + z < im.data.length := by
    rw [hl]
    have h1 : (im.height - 1 - y) * im.width + x < im.width * im.height := by
      have : (im.height - 1 - y + 1) * im.width ≤ im.height * im.width := Nat.mul_le_mul_right _ (by omega)
      nlinarith
    have h2 : ((im.height - 1 - y) * im.width + x + 1) * im.channels ≤ im.width * im.height * im.channels :=
      Nat.mul_le_mul_right _ h1
    nlinarith
  unfold Image.read bright
  simp only [Int.ofNat_eq_natCast, Int.toNat_natCast] at *
  rw [e2, if_neg (by omega), Int.toNat_natCast, List.getElem?_eq_getElem hlt, List.getD_eq_getElem?_getD,
    List.getElem?_eq_getElem hlt]
  rfl

theorem addPixel_ok (im : Image) (hv : im.Valid) (x y : ℤ) (hx : 0 ≤ x ∧ x < im.width) (hy : 0 ≤ y ∧ y < im.height)
    (s : ℕ × ℕ) : addPixel im x y s =
      some (s.1 + ∑ z ∈ Finset.range im.channels, bright im.data im.width im.height im.channels x y z,
        s.2 + im.channels) := by
  unfold addPixel
  rw [loop_sum _ (fun z => bright im.data im.width im.height im.channels x y z.toNat) (fun _ => 1)]
  · rw [sum_ints, sum_ints, sum_channels im.channels (fun z => bright im.data im.width im.height im.channels x y z)]
    simp
  · intro i hi t
    have := (mem_ints _ _ _).1 hi
    rw [read_ok im hv x y _ hx hy (by omega)]
    rfl

theorem pixels_ok (im : Image) (hv : im.Valid) (a b c d : ℤ) (ha : 0 ≤ a) (hb : b < im.width) (hc : 0 ≤ c)
    (hd : d < im.height) :
    loop (fun x => loop (fun y => addPixel im x y) (ints c d)) (ints a b) (0, 0) =
      some (∑ x ∈ Finset.Icc a b, ∑ y ∈ Finset.Icc c d, ∑ z ∈ Finset.range im.channels,
        bright im.data im.width im.height im.channels x y z,
        (Finset.Icc a b).card * (Finset.Icc c d).card * im.channels) := by
  rw [loop_sum _ (fun x => ∑ y ∈ Finset.Icc c d, ∑ z ∈ Finset.range im.channels,
    bright im.data im.width im.height im.channels x y z) (fun _ => (Finset.Icc c d).card * im.channels)]
  · rw [sum_ints, sum_ints]
    simp [Nat.mul_assoc]
  · intro x hx s
    have hx := (mem_ints _ _ _).1 hx
    rw [loop_sum _ (fun y => ∑ z ∈ Finset.range im.channels,
      bright im.data im.width im.height im.channels x y z) (fun _ => im.channels)]
    · rw [sum_ints, sum_ints]
      simp
    · intro y hy t
      have hy := (mem_ints _ _ _).1 hy
      exact addPixel_ok im hv x y (by omega) (by omega) t

theorem mean_range (C R : Finset ℤ) (n : ℕ) (v : ℤ → ℤ → ℕ → ℕ) (h : ∀ x y z, v x y z ≤ 255) :
    0 ≤ mean C R n v ∧ mean C R n v ≤ 255 := by
  unfold mean
  constructor
  · positivity
  · have hs : ∑ x ∈ C, ∑ y ∈ R, ∑ z ∈ Finset.range n, v x y z ≤ C.card * R.card * n * 255 := by
      calc _ ≤ ∑ x ∈ C, ∑ y ∈ R, ∑ z ∈ Finset.range n, 255 :=
            Finset.sum_le_sum fun x _ => Finset.sum_le_sum fun y _ => Finset.sum_le_sum fun z _ => h x y z
        _ = _ := by simp [Nat.mul_assoc]
    rcases Nat.eq_zero_or_pos (C.card * R.card * n) with h0 | h0
    · rw [h0]; simp
    · rw [div_le_iff₀ (by exact_mod_cast h0)]
      have : ((∑ x ∈ C, ∑ y ∈ R, ∑ z ∈ Finset.range n, v x y z : ℕ) : ℚ) ≤ (C.card * R.card * n * 255 : ℕ) := by
        exact_mod_cast hs
      push_cast at this ⊢
      linarith

theorem mean_mono (C R : Finset ℤ) (n : ℕ) (v w : ℤ → ℤ → ℕ → ℕ)
    (h : ∀ x ∈ C, ∀ y ∈ R, ∀ z, z < n → v x y z ≤ w x y z) : mean C R n v ≤ mean C R n w := by
  unfold mean
  apply div_le_div_of_nonneg_right _ (by positivity)
  have : ∑ x ∈ C, ∑ y ∈ R, ∑ z ∈ Finset.range n, v x y z ≤ ∑ x ∈ C, ∑ y ∈ R, ∑ z ∈ Finset.range n, w x y z :=
    Finset.sum_le_sum fun x hx => Finset.sum_le_sum fun y hy => Finset.sum_le_sum fun z hz =>
      h x hx y hy z (Finset.mem_range.1 hz)
  exact_mod_cast this

theorem mean_const (C R : Finset ℤ) (n : ℕ) (b : ℕ) (v : ℤ → ℤ → ℕ → ℕ) (hC : C.Nonempty) (hR : R.Nonempty) (hn : 0 < n)
    (h : ∀ x ∈ C, ∀ y ∈ R, ∀ z, z < n → v x y z = b) : mean C R n v = b := by
  unfold mean
  have hs : ∑ x ∈ C, ∑ y ∈ R, ∑ z ∈ Finset.range n, v x y z = C.card * R.card * n * b := by
    calc _ = ∑ x ∈ C, ∑ y ∈ R, ∑ z ∈ Finset.range n, b :=
          Finset.sum_congr rfl fun x hx => Finset.sum_congr rfl fun y hy => Finset.sum_congr rfl fun z hz =>
            h x hx y hy z (Finset.mem_range.1 hz)
      _ = _ := by simp [Nat.mul_assoc]
  have h0 : 0 < C.card * R.card * n := by
    have := hC.card_pos
    have := hR.card_pos
    positivity
  rw [hs]
  have h0' : ((C.card * R.card * n : ℕ) : ℚ) ≠ 0 := by exact_mod_cast h0.ne'
  rw [Nat.cast_mul _ b, mul_div_cancel_left₀ _ h0']

/-- One coordinate of the pixel under a point, if the scales agree. -/
theorem cell_between (n a b : ℕ) (L W H : ℤ) (hL : 0 < L) (hW : 0 < W) (hH : 0 < H) (hsW : n * W = a * L)
    (hsH : n * H = b * L) (first lo hi p : ℤ) (h1 : lo ≤ p) (h2 : p ≤ hi) (h3 : first ≤ p) (h4 : p < first + L)
    (hn : 0 < n) (ha : 0 < a) :
    max 0 (((lo - first - 1) * a).tdiv W) ≤ cell n first L p ∧
      cell n first L p ≤ min ((n : ℤ) - 1) (((hi - first + 1) * b).tdiv H) := by
  have hn' : (0 : ℤ) < n := by exact_mod_cast hn
  have ha' : (0 : ℤ) < a := by exact_mod_cast ha
  have hb' : (0 : ℤ) ≤ b := Int.natCast_nonneg b
  have hc : cell n first L p = ((p - first) * n) / L := by
    unfold cell
    have e : (((p : ℚ) - first) * n) = (((p - first) * n : ℤ) : ℚ) := by push_cast; rfl
    rw [e, Int.floor_div_cast_of_nonneg hL.le, Int.floor_intCast]
  have hp : 0 ≤ p - first := by omega
  rw [hc]
  refine ⟨max_le (Int.ediv_nonneg (by positivity) hL.le) ?_, le_min ?_ ?_⟩
  · rcases le_or_gt 0 (lo - first - 1) with h | h
    · rw [Int.tdiv_eq_ediv_of_nonneg (by positivity), Int.le_ediv_iff_mul_le hL]
      have hu := Int.ediv_mul_le ((lo - first - 1) * a) (ne_of_gt hW)
      generalize (lo - first - 1) * a / W = u at hu ⊢
      have : u * W ≤ (p - first) * a := le_trans hu (mul_le_mul_of_nonneg_right (by omega) ha'.le)
      have h5 : u * L * a ≤ (p - first) * n * a := by
        calc u * L * a = u * (a * L) := by ring
          _ = u * W * n := by rw [← hsW]; ring
          _ ≤ (p - first) * a * n := mul_le_mul_of_nonneg_right this hn'.le
          _ = _ := by ring
      exact le_of_mul_le_mul_right h5 ha'
    · refine le_trans ?_ (Int.ediv_nonneg (by positivity) hL.le)
      have e : (lo - first - 1) * (a : ℤ) = -((first + 1 - lo) * a) := by ring
      rw [e, Int.neg_tdiv]
      have : 0 ≤ ((first + 1 - lo) * (a : ℤ)).tdiv W :=
        Int.tdiv_nonneg (mul_nonneg (by omega) ha'.le) hW.le
      omega
  · have : (p - first) * n / L < n := Int.ediv_lt_of_lt_mul hL (by nlinarith)
    omega
  · have hq := Int.ediv_mul_le ((p - first) * n) (ne_of_gt hL)
    rw [Int.tdiv_eq_ediv_of_nonneg (mul_nonneg (by omega) hb'), Int.le_ediv_iff_mul_le hH]
    generalize (p - first) * n / L = q at hq ⊢
    have h5 : q * H * n ≤ (p - first) * b * n := by
      calc q * H * n = q * (n * H) := by ring
        _ = q * L * b := by rw [hsH]; ring
        _ ≤ (p - first) * n * b := mul_le_mul_of_nonneg_right hq hb'
        _ = _ := by ring
    exact le_trans (le_of_mul_le_mul_right h5 hn') (mul_le_mul_of_nonneg_right (by omega) hb')

end Verif.Density
