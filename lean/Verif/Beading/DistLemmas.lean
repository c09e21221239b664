import Verif.Beading.Model
import Mathlib.Algebra.Order.BigOperators.Group.List
import Mathlib.Tactic.Linarith
import Mathlib.Tactic.FieldSimp

/-! # Lemmas on the distribution of the widths -/

set_option linter.dupNamespace false

namespace Verif.Beading

theorem trunc_nonneg {q : ℚ} (h : 0 ≤ q) : 0 ≤ trunc q := by
  unfold trunc; rw [if_pos h]; exact Int.floor_nonneg.2 h

theorem trunc_le {q : ℚ} (h : 0 ≤ q) : (trunc q : ℚ) ≤ q := by
  unfold trunc; rw [if_pos h]; exact Int.floor_le q

theorem lt_trunc_add {q : ℚ} (h : 0 ≤ q) : q < trunc q + 1 := by
  unfold trunc; rw [if_pos h]; exact Int.lt_floor_add_one q

theorem trunc_nonpos {q : ℚ} (h : q ≤ 0) : trunc q ≤ 0 := by
  unfold trunc
  split
  · have : q = 0 := le_antisymm h (by assumption)
    subst this; simp
  · exact Int.ceil_nonpos.2 h

theorem le_trunc {q : ℚ} (h : q ≤ 0) : q ≤ trunc q := by
  unfold trunc
  split
  · have : q = 0 := le_antisymm h (by assumption)
    subst this; simp
  · exact Int.le_ceil q

theorem trunc_lt_add {q : ℚ} (h : q ≤ 0) : (trunc q : ℚ) < q + 1 := by
  unfold trunc
  split
  · have : q = 0 := le_antisymm h (by assumption)
    subst this; simp
  · exact Int.ceil_lt_add_one q

theorem trunc_zero : trunc 0 = 0 := by unfold trunc; simp

/-- A truncated number is within the range that contains zero. -/
theorem trunc_mono {q r : ℚ} (h : q ≤ r) : trunc q ≤ trunc r := by
  by_cases hq : 0 ≤ q
  · unfold trunc; rw [if_pos hq, if_pos (le_trans hq h)]; exact Int.floor_le_floor h
  · by_cases hr : 0 ≤ r
    · exact le_trans (trunc_nonpos (by linarith)) (trunc_nonneg hr)
    · unfold trunc; rw [if_neg hq, if_neg hr]; exact Int.ceil_le_ceil h

theorem trunc_int (z : Int) : trunc z = z := by unfold trunc; simp

theorem falloff_bounds (r : Int) : 0 < falloff r ∧ falloff r ≤ 1 := by
  unfold falloff
  split
  · rename_i h
    have h1 : (1 : ℚ) ≤ ((r - 1 : Int) : ℚ) := by exact_mod_cast (by omega : (1 : Int) ≤ r - 1)
    have h0 : (0 : ℚ) < ((r - 1 : Int) : ℚ) := by linarith
    refine ⟨by positivity, ?_⟩
    rw [div_le_one h0, div_le_iff₀ h0]
    nlinarith
  · exact ⟨one_pos, le_refl _⟩

theorem weight_nonneg (r : Int) (n i : Nat) : 0 ≤ weight r n i := le_max_left _ _

/-- The weights are symmetric. -/
theorem weight_symm (r : Int) {n i : Nat} (h : i < n) : weight r n (n - 1 - i) = weight r n i := by
  unfold weight
  have : (((n - 1 - i : Nat) : ℚ)) = (n : ℚ) - 1 - i := by
    rw [Nat.cast_sub (by omega), Nat.cast_sub (by omega)]; simp
  rw [this]
  have e : (n : ℚ) - 1 - i - ((n : ℚ) - 1) / 2 = -(i - ((n : ℚ) - 1) / 2) := by ring
  dsimp only
  rw [e, mul_assoc, mul_assoc, neg_mul_neg]

theorem weight_middle (r : Int) (n : Nat) : 0 < weight r n (n / 2) := by
  unfold weight
  obtain ⟨h0, h1⟩ := falloff_bounds r
  refine lt_of_lt_of_le ?_ (le_max_right _ _)
  have hd : ((n / 2 : Nat) : ℚ) - ((n : ℚ) - 1) / 2 = 0 ∨ ((n / 2 : Nat) : ℚ) - ((n : ℚ) - 1) / 2 = 1 / 2 := by
    rcases Nat.even_or_odd' n with ⟨k, hk | hk⟩
    · right
      have : n / 2 = k := by omega
      rw [this, hk]; push_cast; ring
    · left
      have : n / 2 = k := by omega
      rw [this, hk]; push_cast; ring
  rcases hd with hd | hd
  · rw [hd]; simp
  · rw [hd]; linarith

theorem sum_map_nonneg {l : List Nat} {f : Nat → ℚ} (h : ∀ i, 0 ≤ f i) : 0 ≤ (l.map f).sum := by
  induction l with
  | nil => simp
  | cons a l ih => simp only [List.map_cons, List.sum_cons]; linarith [h a]

theorem le_sum_map {l : List Nat} {f : Nat → ℚ} (h : ∀ i, 0 ≤ f i) {a : Nat} (ha : a ∈ l) : f a ≤ (l.map f).sum := by
  induction l with
  | nil => simp at ha
  | cons b l ih =>
    simp only [List.map_cons, List.sum_cons]
    rcases List.mem_cons.1 ha with rfl | ha
    · linarith [sum_map_nonneg (l := l) h]
    · linarith [ih ha, h b]

theorem totalWeight_pos (r : Int) {n : Nat} (h : 0 < n) : 0 < totalWeight r n :=
  lt_of_lt_of_le (weight_middle r n) (le_sum_map (weight_nonneg r n) (List.mem_range.2 (by omega)))

/-- The share of a bead. -/
def share (r : Int) (n i : Nat) : ℚ := weight r n i / totalWeight r n

theorem share_nonneg (r : Int) {n : Nat} (h : 0 < n) (i : Nat) : 0 ≤ share r n i :=
  div_nonneg (weight_nonneg _ _ _) (le_of_lt (totalWeight_pos r h))

theorem share_le_one (r : Int) {n : Nat} {i : Nat} (h : i < n) : share r n i ≤ 1 := by
  unfold share
  rw [div_le_one (totalWeight_pos r (by omega))]
  exact le_sum_map (weight_nonneg r n) (List.mem_range.2 h)

theorem share_symm (r : Int) {n i : Nat} (h : i < n) : share r n (n - 1 - i) = share r n i := by
  unfold share; rw [weight_symm r h]

theorem share_sum (r : Int) {n : Nat} (h : 0 < n) : ((List.range n).map (share r n)).sum = 1 := by
  have : (List.range n).map (share r n) = ((List.range n).map (weight r n)).map fun x => x * (totalWeight r n)⁻¹ := by
    rw [List.map_map]; apply List.map_congr_left; intro i _; unfold share; rw [div_eq_mul_inv]; rfl
  have hs : ∀ (l : List ℚ) (c : ℚ), (l.map fun x => x * c).sum = l.sum * c := by
    intro l c
    induction l with
    | nil => simp
    | cons a l ih => simp only [List.map_cons, List.sum_cons, ih]; ring
  rw [this, hs]
  exact mul_inv_cancel₀ (ne_of_gt (totalWeight_pos r h))

/-- With an even number of beads no bead gets more than half. -/
theorem share_le_half (r : Int) {n : Nat} (he : n % 2 = 0) {i : Nat} (h : i < n) : share r n i ≤ 1 / 2 := by
  have h1 := share_symm r h
  have hne : n - 1 - i ≠ i := by omega
  have key : ∀ (l : List Nat), l.Nodup → i ∈ l → n - 1 - i ∈ l → share r n i + share r n (n - 1 - i) ≤ (l.map (share r n)).sum := by
    intro l hl hi hj
    have p : l.Perm (i :: l.erase i) := List.perm_cons_erase hi
    rw [(p.map _).sum_eq, List.map_cons, List.sum_cons]
    have hj' : n - 1 - i ∈ l.erase i := (List.Nodup.mem_erase_iff hl).2 ⟨hne, hj⟩
    have := le_sum_map (share_nonneg r (by omega : 0 < n)) hj'
    linarith
  have := key (List.range n) List.nodup_range (List.mem_range.2 h) (List.mem_range.2 (by omega))
  rw [share_sum r (by omega), h1] at this
  linarith

theorem distWidths_eq (w r t : Int) (n : Nat) :
    distWidths w r t n = (List.range n).map fun i => w + trunc (((t - n * w : Int) : ℚ) * share r n i) := rfl

theorem distWidths_length (w r t : Int) (n : Nat) : (distWidths w r t n).length = n := by unfold distWidths; simp

theorem distWidths_symm (w r t : Int) (n : Nat) : (distWidths w r t n).reverse = distWidths w r t n := by
  apply List.ext_getElem
  · simp
  · intro i h1 h2
    rw [distWidths_length] at h2
    simp only [List.getElem_reverse, distWidths_eq, List.getElem_map, List.getElem_range, List.length_map, List.length_range]
    rw [share_symm r h2]

/-- Every bead is at least as wide as the optimum, less what is lacking. -/
theorem distWidths_ge (w r t : Int) (n : Nat) : ∀ x ∈ distWidths w r t n, w + min 0 (t - n * w) ≤ x := by
  intro x hx
  rw [distWidths_eq, List.mem_map] at hx
  obtain ⟨i, hi, rfl⟩ := hx
  rw [List.mem_range] at hi
  have h0 := share_nonneg r (by omega : 0 < n) i
  have h1 := share_le_one r hi
  generalize t - n * w = d at *
  have : min 0 d ≤ trunc ((d : ℚ) * share r n i) := by
    rcases le_total 0 d with hd | hd
    · rw [min_eq_left hd]
      exact trunc_nonneg (mul_nonneg (by exact_mod_cast hd) h0)
    · rw [min_eq_right hd]
      have hd' : (d : ℚ) ≤ 0 := by exact_mod_cast hd
      have : (d : ℚ) ≤ trunc ((d : ℚ) * share r n i) := le_trans (by nlinarith) (le_trunc (by nlinarith))
      exact_mod_cast this
  omega

/-- With an even number of beads, half of what is lacking. -/
theorem distWidths_ge_half (w r t : Int) (n : Nat) (he : n % 2 = 0) : ∀ x ∈ distWidths w r t n, 2 * w + min 0 (t - n * w) ≤ 2 * x := by
  intro x hx
  rw [distWidths_eq, List.mem_map] at hx
  obtain ⟨i, hi, rfl⟩ := hx
  rw [List.mem_range] at hi
  have h0 := share_nonneg r (by omega : 0 < n) i
  have h1 := share_le_half r he hi
  generalize t - n * w = d at *
  have : min 0 d ≤ 2 * trunc ((d : ℚ) * share r n i) := by
    rcases le_total 0 d with hd | hd
    · rw [min_eq_left hd]
      have := trunc_nonneg (mul_nonneg (show (0 : ℚ) ≤ d by exact_mod_cast hd) h0)
      omega
    · rw [min_eq_right hd]
      have hd' : (d : ℚ) ≤ 0 := by exact_mod_cast hd
      have : (d : ℚ) ≤ 2 * trunc ((d : ℚ) * share r n i) := by
        have h2 := le_trunc (show (d : ℚ) * share r n i ≤ 0 by nlinarith)
        nlinarith
      exact_mod_cast this
  omega

theorem sum_trunc_bounds (d : Int) (f : Nat → ℚ) (hf : ∀ i, 0 ≤ f i) (l : List Nat) :
    (0 ≤ d → ((l.map fun i => trunc ((d : ℚ) * f i)).sum : ℚ) ≤ d * (l.map f).sum ∧
      (d : ℚ) * (l.map f).sum ≤ (l.map fun i => trunc ((d : ℚ) * f i)).sum + l.length) ∧
    (d ≤ 0 → (d : ℚ) * (l.map f).sum ≤ ((l.map fun i => trunc ((d : ℚ) * f i)).sum : ℚ) ∧
      ((l.map fun i => trunc ((d : ℚ) * f i)).sum : ℚ) ≤ d * (l.map f).sum + l.length) := by
  induction l with
  | nil => simp
  | cons a l ih =>
    simp only [List.map_cons, List.sum_cons, List.length_cons]
    push_cast
    refine ⟨fun hd => ?_, fun hd => ?_⟩
    · obtain ⟨h1, h2⟩ := ih.1 hd
      have hd' : (0 : ℚ) ≤ d := by exact_mod_cast hd
      have hp : 0 ≤ (d : ℚ) * f a := mul_nonneg hd' (hf a)
      have := trunc_le hp
      have := lt_trunc_add hp
      constructor <;> nlinarith
    · obtain ⟨h1, h2⟩ := ih.2 hd
      have hd' : (d : ℚ) ≤ 0 := by exact_mod_cast hd
      have hp : (d : ℚ) * f a ≤ 0 := mul_nonpos_of_nonpos_of_nonneg hd' (hf a)
      have := le_trunc hp
      have := trunc_lt_add hp
      constructor <;> nlinarith

theorem sum_map_add_const (w : Int) (f : Nat → Int) (l : List Nat) : (l.map fun i => w + f i).sum = l.length * w + (l.map f).sum := by
  induction l with
  | nil => simp
  | cons a l ih => simp only [List.map_cons, List.sum_cons, List.length_cons, ih]; push_cast; ring

/-- The widths add up to the thickness, up to one unit per bead; rounding is towards the optimal width. -/
theorem distWidths_sum (w r t : Int) {n : Nat} (hn : 0 < n) :
    (n * w ≤ t → (distWidths w r t n).sum ≤ t ∧ t ≤ (distWidths w r t n).sum + n) ∧
    (t ≤ n * w → t ≤ (distWidths w r t n).sum ∧ (distWidths w r t n).sum ≤ t + n) := by
  rw [distWidths_eq, sum_map_add_const w]
  obtain ⟨h1, h2⟩ := sum_trunc_bounds (t - n * w) (share r n) (share_nonneg r hn) (List.range n)
  rw [share_sum r hn, List.length_range] at h1 h2
  rw [List.length_range]
  generalize ((List.range n).map fun i => trunc (((t - n * w : Int) : ℚ) * share r n i)).sum = S at *
  refine ⟨fun h => ?_, fun h => ?_⟩
  · obtain ⟨a, b⟩ := h1 (by omega)
    have a' : S ≤ t - n * w := by rw [mul_one] at a; exact_mod_cast a
    have b' : t - n * w ≤ S + n := by rw [mul_one] at b; exact_mod_cast b
    constructor <;> omega
  · obtain ⟨a, b⟩ := h2 (by omega)
    have a' : t - n * w ≤ S := by rw [mul_one] at a; exact_mod_cast a
    have b' : S ≤ t - n * w + n := by rw [mul_one] at b; exact_mod_cast b
    constructor <;> omega

/-- At the optimal thickness all beads have the optimal width. -/
theorem distWidths_optimal (w r : Int) (n : Nat) : distWidths w r (n * w) n = List.replicate n w := by
  rw [distWidths_eq]
  have : (fun i => w + trunc (((n * w - n * w : Int) : ℚ) * share r n i)) = fun _ => w := by
    funext i; rw [sub_self]; simp [trunc_zero]
  rw [this]; simp

end Verif.Beading
