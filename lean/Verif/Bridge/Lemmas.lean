import Verif.Bridge.Spec
import Verif.Scarf.SumLemmas

/-! # Lemmas on what parts of a wall are bridges -/

namespace Verif.Bridge

open Verif.Order (Pt)
open Verif.Walls (size)
open Verif.Scarf (size_comm size_nonneg size_zero)

/-! ## Subsegments -/

theorem parity (b : Bool) (k : Nat) : (!b) = decide (k % 2 = 0) ↔ b = decide ((k + 1) % 2 = 0) := by
  rcases Nat.mod_two_eq_zero_or_one k with hk | hk
  · have : (k + 1) % 2 = 1 := by omega
    rw [hk, this]
    cases b <;> simp
  · have : (k + 1) % 2 = 0 := by omega
    rw [hk, this]
    cases b <;> simp

theorem mem_scan {minLen len : Int} {s e : ℚ} {b : Bool} {pos : ℚ} {xs : List ℚ} {ab : ℚ × ℚ} :
    ab ∈ scan minLen len s e b pos xs ↔ ∃ (k : Nat) (lo hi : ℚ), (pos :: xs)[k]? = some lo ∧ (xs ++ [1])[k]? = some hi ∧ b = decide (k % 2 = 0) ∧
      ab ∈ addSub minLen len s e lo hi := by
  induction xs generalizing b pos with
  | nil =>
    unfold scan
    constructor
    · intro h
      cases b
      · simp at h
      · exact ⟨0, pos, 1, rfl, rfl, rfl, by simpa using h⟩
    · rintro ⟨k, lo, hi, h1, h2, h3, h4⟩
      cases k with
      | zero =>
        simp at h1 h2 h3
        subst h1 h2 h3
        simpa using h4
      | succ k => simp at h1
  | cons x xs ih =>
    unfold scan
    rw [List.mem_append, ih]
    constructor
    · rintro (h | ⟨k, lo, hi, h1, h2, h3, h4⟩)
      · cases b
        · simp at h
        · exact ⟨0, pos, x, rfl, rfl, rfl, by simpa using h⟩
      · refine ⟨k + 1, lo, hi, by simpa using h1, by simpa using h2, ?_, h4⟩
        exact (parity b k).mp h3
    · rintro ⟨k, lo, hi, h1, h2, h3, h4⟩
      cases k with
      | zero =>
        left
        simp at h1 h2 h3
        subst h1 h2 h3
        simpa using h4
      | succ k =>
        right
        refine ⟨k, lo, hi, by simpa using h1, by simpa using h2, ?_, h4⟩
        exact (parity b k).mpr h3

theorem sort_perm (xs : List ℚ) : (sort xs).Perm xs := List.perm_insertionSort _ _

theorem sort_sorted (xs : List ℚ) : (sort xs).Pairwise (· ≤ ·) := by
  unfold sort
  exact List.pairwise_insertionSort (· ≤ ·) xs

theorem inverseLerp_range {s e x : ℚ} (hse : s < e) (h1 : s ≤ x) (h2 : x ≤ e) : 0 ≤ inverseLerp s e x ∧ inverseLerp s e x ≤ 1 := by
  unfold inverseLerp
  rw [if_neg hse.ne]
  have : 0 < e - s := by linarith
  constructor
  · apply div_nonneg <;> linarith
  · rw [div_le_one this]; linarith

theorem inverseLerp_mono {s e x y : ℚ} (hse : s < e) (h : x ≤ y) : inverseLerp s e x ≤ inverseLerp s e y := by
  unfold inverseLerp
  rw [if_neg hse.ne, if_neg hse.ne]
  have : 0 < e - s := by linarith
  rw [div_le_div_iff_of_pos_right this]
  linarith

theorem inverseLerp_lt {s e x u : ℚ} (hse : s < e) : inverseLerp s e x < u ↔ x < s + u * (e - s) := by
  unfold inverseLerp
  rw [if_neg hse.ne]
  have : 0 < e - s := by linarith
  rw [div_lt_iff₀ this]
  constructor <;> intro h <;> linarith

theorem lt_inverseLerp {s e x u : ℚ} (hse : s < e) : u < inverseLerp s e x ↔ s + u * (e - s) < x := by
  unfold inverseLerp
  rw [if_neg hse.ne]
  have : 0 < e - s := by linarith
  rw [lt_div_iff₀ this]
  constructor <;> intro h <;> linarith

theorem mem_addSub {minLen len : Int} {s e lo hi : ℚ} {ab : ℚ × ℚ} (h : ab ∈ addSub minLen len s e lo hi) :
    minLen ≤ ⌊(hi - lo) * len⌋ ∧ s ≤ hi ∧ lo ≤ e ∧ ab = (inverseLerp s e (max lo s), inverseLerp s e (min hi e)) := by
  unfold addSub at h
  split at h
  · rename_i hc
    exact ⟨hc.1, hc.2.1, hc.2.2, List.mem_singleton.mp h⟩
  · simp at h

theorem scan_long {minLen len : Int} {s e : ℚ} (hse : s < e) {b : Bool} {xs : List ℚ} {u : ℚ} (h0 : 0 < u) (h1 : u < 1) :
    (∃ ab ∈ scan minLen len s e b 0 xs, ab.1 < u ∧ u < ab.2) ↔ Long b xs len minLen (s + u * (e - s)) := by
  have hp : 0 < e - s := by linarith
  have ht0 : s < s + u * (e - s) := by nlinarith
  have ht1 : s + u * (e - s) < e := by nlinarith
  constructor
  · rintro ⟨ab, hm, ha, hb⟩
    obtain ⟨k, lo, hi, g1, g2, g3, g4⟩ := mem_scan.mp hm
    obtain ⟨m1, m2, m3, rfl⟩ := mem_addSub g4
    rw [inverseLerp_lt hse, max_lt_iff] at ha
    rw [lt_inverseLerp hse, lt_min_iff] at hb
    exact ⟨k, lo, hi, g1, g2, ha.1, hb.1, g3, m1⟩
  · rintro ⟨k, lo, hi, g1, g2, g3, g4, g5, g6⟩
    refine ⟨(inverseLerp s e (max lo s), inverseLerp s e (min hi e)), mem_scan.mpr ⟨k, lo, hi, g1, g2, g5, ?_⟩, ?_, ?_⟩
    · unfold addSub
      rw [if_pos ⟨g6, by linarith, by linarith⟩]
      simp
    · rw [inverseLerp_lt hse, max_lt_iff]; exact ⟨g3, ht0⟩
    · rw [lt_inverseLerp hse, lt_min_iff]; exact ⟨g4, ht1⟩

theorem scan_ordered {minLen len : Int} {s e : ℚ} (hse : s < e) {b : Bool} {pos : ℚ} {xs : List ℚ} (hs : (pos :: xs).Pairwise (· ≤ ·))
    (hx : ∀ x ∈ pos :: xs, 0 ≤ x ∧ x ≤ 1) :
    (∀ ab ∈ scan minLen len s e b pos xs, 0 ≤ ab.1 ∧ ab.1 ≤ ab.2 ∧ ab.2 ≤ 1 ∧ inverseLerp s e (max pos s) ≤ ab.1) ∧
      (scan minLen len s e b pos xs).Pairwise fun x y => x.2 ≤ y.1 := by
  have one : ∀ lo hi : ℚ, lo ≤ hi → ∀ ab ∈ addSub minLen len s e lo hi, 0 ≤ ab.1 ∧ ab.1 ≤ ab.2 ∧ ab.2 ≤ 1 ∧
      inverseLerp s e (max lo s) ≤ ab.1 ∧ ab.2 ≤ inverseLerp s e (max hi s) := by
    intro lo hi hlh ab hab
    obtain ⟨m1, m2, m3, rfl⟩ := mem_addSub hab
    dsimp only
    have r1 := inverseLerp_range hse (le_max_right lo s) (max_le m3 hse.le)
    have r2 := inverseLerp_range hse (le_min m2 hse.le) (min_le_right hi e)
    refine ⟨r1.1, inverseLerp_mono hse (le_min (max_le hlh m2) (max_le m3 hse.le)), r2.2, le_refl _, inverseLerp_mono hse ?_⟩
    exact le_trans (min_le_left _ _) (le_max_left _ _)
  have pw : ∀ lo hi : ℚ, (addSub minLen len s e lo hi).Pairwise fun x y => x.2 ≤ y.1 := by
    intro lo hi
    unfold addSub
    split <;> simp
  induction xs generalizing b pos with
  | nil =>
    unfold scan
    cases b
    · simp
    · simp only [if_true]
      have := (hx pos (by simp)).2
      exact ⟨fun ab h => by obtain ⟨a1, a2, a3, a4, -⟩ := one pos 1 this ab h; exact ⟨a1, a2, a3, a4⟩, pw _ _⟩
  | cons x xs ih =>
    unfold scan
    have hpx : pos ≤ x := List.rel_of_pairwise_cons hs (by simp)
    obtain ⟨i1, i2⟩ := ih (b := !b) (pos := x) (List.Pairwise.of_cons hs) (fun y hy => hx y (List.mem_cons_of_mem _ hy))
    have hmono : inverseLerp s e (max pos s) ≤ inverseLerp s e (max x s) := inverseLerp_mono hse (max_le_max_right _ hpx)
    constructor
    · intro ab hm
      rcases List.mem_append.mp hm with h | h
      · cases b
        · simp at h
        · obtain ⟨a1, a2, a3, a4, -⟩ := one pos x hpx ab (by simpa using h)
          exact ⟨a1, a2, a3, a4⟩
      · obtain ⟨a1, a2, a3, a4⟩ := i1 ab h
        exact ⟨a1, a2, a3, le_trans hmono a4⟩
    · rw [List.pairwise_append]
      refine ⟨?_, i2, ?_⟩
      · cases b
        · simp
        · simpa using pw pos x
      · intro ab hab cd hcd
        cases b
        · simp at hab
        · obtain ⟨-, -, -, -, a5⟩ := one pos x hpx ab (by simpa using hab)
          exact le_trans a5 (i1 cd hcd).2.2.2

theorem long_len {b : Bool} {xs : List ℚ} (hx : ∀ x ∈ xs, 0 ≤ x ∧ x ≤ 1) {len minLen : Int} (hl : 0 ≤ len) {t : ℚ}
    (h : Long b xs len minLen t) : minLen ≤ len := by
  obtain ⟨k, lo, hi, g1, g2, -, -, -, g6⟩ := h
  have h0 : 0 ≤ lo := by
    have := List.mem_of_getElem? g1
    rcases List.mem_cons.mp this with rfl | h
    · exact le_refl _
    · exact (hx _ h).1
  have h1 : hi ≤ 1 := by
    have := List.mem_of_getElem? g2
    rcases List.mem_append.mp this with h | h
    · exact (hx _ h).2
    · simp at h; rw [h]
  have hl' : (0 : ℚ) ≤ len := by exact_mod_cast hl
  have : (hi - lo) * len ≤ ((len : Int) : ℚ) := by nlinarith
  have := Int.floor_le_iff.mpr (lt_of_le_of_lt this (by linarith : ((len : Int) : ℚ) < len + 1))
  omega

/-! ## Anchoring -/

/-- What is left of the length to search. -/
def left : Int → List (Bool × Int) → Int
  | S, [] => S
  | S, e :: l => left (max 0 (S - e.2)) l

theorem supported_append (S : Int) (x y : List (Bool × Int)) : supported S (x ++ y) = supported S x + supported (left S x) y := by
  induction x generalizing S with
  | nil => simp [supported, left]
  | cons e x ih => simp only [List.cons_append, supported, left]; rw [ih]; omega

theorem left_nonneg {S : Int} (h : 0 ≤ S) (x : List (Bool × Int)) : 0 ≤ left S x := by
  induction x generalizing S with
  | nil => exact h
  | cons e x ih => exact ih (le_max_left _ _)

theorem supported_zero (x : List (Bool × Int)) (hx : ∀ e ∈ x, 0 ≤ e.2) : supported 0 x = 0 := by
  induction x with
  | nil => rfl
  | cons e x ih =>
    have h0 := hx e (by simp)
    have : max 0 (0 - e.2) = 0 := by omega
    simp only [supported]
    rw [this, ih (fun f hf => hx f (List.mem_cons_of_mem _ hf))]
    split <;> omega

theorem supported_nonneg {S : Int} (hS : 0 ≤ S) (x : List (Bool × Int)) (hx : ∀ e ∈ x, 0 ≤ e.2) : 0 ≤ supported S x := by
  induction x generalizing S with
  | nil => exact le_refl _
  | cons e x ih =>
    have h0 := hx e (by simp)
    have := ih (le_max_left 0 (S - e.2)) (fun f hf => hx f (List.mem_cons_of_mem _ hf))
    simp only [supported]
    split <;> omega

theorem walkSegment_eq (a : Anchor) (ls : List Int) (hne : ls ≠ []) :
    walkSegment a ls = ⟨a.over != decide ((ls.length - 1) % 2 = 1), a.need - supported a.search (flags a.over ls), left a.search (flags a.over ls)⟩ := by
  induction ls generalizing a with
  | nil => exact absurd rfl hne
  | cons l ls ih =>
    cases ls with
    | nil =>
      simp only [walkSegment, account, flags, supported, left, List.length_cons, List.length_nil]
      cases a.over <;> simp
    | cons l' ls =>
      unfold walkSegment
      rw [ih _ (by simp)]
      simp only [account, flags, supported, left, List.length_cons]
      rcases Nat.mod_two_eq_zero_or_one ls.length with h | h
      · have : (ls.length + 1) % 2 = 1 := by omega
        cases ho : a.over <;> simp [h, this, sub_sub]
      · have : (ls.length + 1) % 2 = 0 := by omega
        cases ho : a.over <;> simp [h, this, sub_sub]

theorem stretches_length (p q : Pt) (xs : List ℚ) : (stretches p q xs).length = xs.length + 1 := by
  unfold stretches
  simp

theorem stretches_ne (p q : Pt) (xs : List ℚ) : stretches p q xs ≠ [] := by
  intro h
  have := stretches_length p q xs
  rw [h] at this
  simp at this

theorem stretches_nonneg (p q : Pt) (xs : List ℚ) : ∀ l ∈ stretches p q xs, 0 ≤ l := by
  intro l hl
  unfold stretches at hl
  obtain ⟨e, -, rfl⟩ := List.mem_map.mp hl
  exact size_nonneg _ _

theorem flags_nonneg (b : Bool) (ls : List Int) (h : ∀ l ∈ ls, 0 ≤ l) : ∀ e ∈ flags b ls, 0 ≤ e.2 := by
  induction ls generalizing b with
  | nil => simp [flags]
  | cons l ls ih =>
    intro e he
    simp only [flags] at he
    rcases List.mem_cons.mp he with rfl | he
    · exact h l (by simp)
    · exact ih _ (fun m hm => h m (List.mem_cons_of_mem _ hm)) e he

theorem gaps_nonneg (p : Pt) (l : List Pt) : ∀ e ∈ gaps p l, 0 ≤ e := by
  induction l generalizing p with
  | nil => simp [gaps]
  | cons x l ih =>
    intro e he
    simp only [gaps] at he
    rcases List.mem_cons.mp he with rfl | he
    · exact size_nonneg _ _
    · exact ih x e he

theorem ahead_nonneg (M : Mask) (pts : List Pt) (forward : Bool) (k : Nat) (p : Pt) (i : Nat) (b : Bool) : ∀ e ∈ ahead M pts forward k p i b, 0 ≤ e.2 := by
  induction k generalizing p i b with
  | zero => simp [ahead]
  | succ k ih =>
    intro e he
    unfold ahead at he
    split at he
    · simp at he
    · rcases List.mem_append.mp he with he | he
      · exact flags_nonneg _ _ (gaps_nonneg _ _) e he
      · exact ih _ _ _ e he

theorem walkStep (M : Mask) (p q : Pt) (a : Anchor) :
    walkSegment a (stretches p q (sort (M.cross p q))) = ⟨a.over != decide ((M.cross p q).length % 2 = 1),
      a.need - supported a.search (flags a.over (stretches p q (sort (M.cross p q)))), left a.search (flags a.over (stretches p q (sort (M.cross p q))))⟩ := by
  rw [walkSegment_eq _ _ (stretches_ne _ _ _), stretches_length, (sort_perm _).length_eq, Nat.add_sub_cancel]

theorem gaps_eq (p : Pt) (l : List Pt) : (((p :: l).zip (p :: l).tail).map fun e => size e.2 e.1) = gaps p l := by
  induction l generalizing p with
  | nil => rfl
  | cons x l ih =>
    have := ih x
    simp only [List.tail_cons, List.zip_cons_cons, List.map_cons, gaps] at this ⊢
    rw [← this]

theorem stretches_eq (p q : Pt) (xs : List ℚ) : stretches p q (sort xs) = gaps p ((xs.insertionSort (· ≤ ·)).map (Scarf.lerpPt p q) ++ [q]) := by
  unfold stretches sort
  exact gaps_eq _ _

theorem neighbour_eq (back : Bool) {n i : Nat} (hi : i < n) : neighbour back n i = nextIndex back n i := by
  unfold neighbour nextIndex
  cases back
  · simp only [Bool.false_eq_true, if_false]
    split
    · rename_i h; rw [h, Nat.mod_self]
    · rw [Nat.mod_eq_of_lt (by omega)]
  · simp only [if_true]
    split
    · rename_i h; rw [h, Nat.zero_add, Nat.mod_eq_of_lt (by omega)]
    · rw [show i + n - 1 = i - 1 + n by omega, Nat.add_mod_right, Nat.mod_eq_of_lt (by omega)]

theorem walk_spec (M : Mask) (pts : List Pt) (forward : Bool) (n : Nat) {p : Pt} {i : Nat} {a r : Anchor} (hS : 0 ≤ a.search)
    (h : walk M pts forward n p i a = some r) :
    ∃ k, ∀ k' ≥ k, r.need ≤ 0 ↔ a.need ≤ supported a.search (ahead M pts forward k' p i a.over) := by
  induction n generalizing p i a with
  | zero =>
    unfold walk at h
    split at h
    · simp at h
    · rename_i hc
      injection h with h
      subst h
      refine ⟨0, fun k' _ => ?_⟩
      by_cases h0 : a.search = 0
      · rw [h0, supported_zero _ (ahead_nonneg _ _ _ _ _ _ _)]
      · have := supported_nonneg hS (ahead M pts forward k' p i a.over) (ahead_nonneg _ _ _ _ _ _ _)
        constructor <;> intro <;> omega
  | succ n ih =>
    unfold walk at h
    split at h
    · obtain ⟨q, hq, h⟩ := Option.bind_eq_some_iff.mp h
      rw [walkStep] at h
      obtain ⟨k, hk⟩ := ih (a := ⟨_, _, _⟩) (left_nonneg hS _) h
      refine ⟨k + 1, fun k' hk' => ?_⟩
      obtain ⟨m, rfl⟩ : ∃ m, k' = m + 1 := ⟨k' - 1, by omega⟩
      rw [hk m (by omega)]
      have he : ahead M pts forward (m + 1) p i a.over = flags a.over (stretches p q (sort (M.cross p q))) ++
        ahead M pts forward m q (nextIndex forward pts.length i) (a.over != decide ((M.cross p q).length % 2 = 1)) := by
        rw [ahead, hq, stretches_eq, neighbour_eq forward (List.getElem?_eq_some_iff.mp hq).1]
      rw [he, supported_append]
      dsimp only
      constructor <;> intro <;> omega
    · rename_i hc
      injection h with h
      subst h
      refine ⟨0, fun k' _ => ?_⟩
      by_cases h0 : a.search = 0
      · rw [h0, supported_zero _ (ahead_nonneg _ _ _ _ _ _ _)]
      · have := supported_nonneg hS (ahead M pts forward k' p i a.over) (ahead_nonneg _ _ _ _ _ _ _)
        constructor <;> intro <;> omega

/-! ## It ends -/

theorem walk_mono (M : Mask) (pts : List Pt) (forward : Bool) (n : Nat) {p : Pt} {i : Nat} {a r : Anchor}
    (h : walk M pts forward n p i a = some r) {m : Nat} (hm : n ≤ m) : walk M pts forward m p i a = some r := by
  induction n generalizing p i a m with
  | zero =>
    unfold walk at h ⊢
    split at h
    · simp at h
    · rename_i hc; rw [if_neg hc]; exact h
  | succ n ih =>
    obtain ⟨m, rfl⟩ : ∃ m', m = m' + 1 := ⟨m - 1, by omega⟩
    unfold walk at h ⊢
    split
    · rename_i hc
      rw [if_pos hc] at h
      obtain ⟨q, hq, h⟩ := Option.bind_eq_some_iff.mp h
      dsimp only
      rw [hq]
      exact ih h (by omega)
    · rename_i hc
      rw [if_neg hc] at h
      exact h

/-- The indices that follow. -/
def iter (forward : Bool) (n i : Nat) : Nat → Nat
  | 0 => i
  | m + 1 => iter forward n (nextIndex forward n i) m

theorem nextIndex_lt {forward : Bool} {n i : Nat} (h : 0 < n) : nextIndex forward n i < n := by
  unfold nextIndex
  split <;> exact Nat.mod_lt _ h

theorem iter_eq (forward : Bool) {n i : Nat} (hi : i < n) (m : Nat) : iter forward n i m = (i + m * (if forward then n - 1 else 1)) % n := by
  induction m generalizing i with
  | zero => simp [iter, Nat.mod_eq_of_lt hi]
  | succ m ih =>
    rw [iter, ih (nextIndex_lt (by omega))]
    unfold nextIndex
    cases forward
    · simp only [Bool.false_eq_true, if_false]
      rw [Nat.mod_add_mod]
      congr 1
      ring
    · simp only [if_true]
      rw [show i + n - 1 = i + (n - 1) by omega, Nat.mod_add_mod]
      congr 1
      ring

theorem iter_surj (forward : Bool) {n i j : Nat} (hi : i < n) (hj : j < n) : ∃ m, iter forward n i m = j := by
  cases forward
  · refine ⟨j + n - i, ?_⟩
    rw [iter_eq _ hi]
    simp only [Bool.false_eq_true, if_false, Nat.mul_one]
    rw [show i + (j + n - i) = j + n by omega, Nat.add_mod_right, Nat.mod_eq_of_lt hj]
  · refine ⟨i + n - j, ?_⟩
    rw [iter_eq _ hi]
    simp only [if_true]
    have : i + (i + n - j) * (n - 1) = j + n * (i + n - j - 1) := by
      obtain ⟨d, hd⟩ : ∃ d, i + n = j + d + 1 := ⟨i + n - j - 1, by omega⟩
      obtain ⟨e, he⟩ : ∃ e, n = e + 1 := ⟨n - 1, by omega⟩
      rw [show i + n - j = d + 1 by omega, show n - 1 = e by omega, Nat.add_sub_cancel, he]
      have : i + e = j + d := by omega
      nlinarith
    rw [this, Nat.add_mul_mod_self_left, Nat.mod_eq_of_lt hj]

theorem chain_sum {p q : Pt} (hpq : p ≠ q) (ps : List Pt) : ∃ l ∈ (((p :: (ps ++ [q])).zip (ps ++ [q])).map fun e => size e.2 e.1), 1 ≤ l := by
  induction ps generalizing p with
  | nil =>
    refine ⟨size q p, by simp, ?_⟩
    have h1 := size_nonneg q p
    have h2 : size q p ≠ 0 := fun h => hpq (size_zero.mp h).symm
    omega
  | cons x ps ih =>
    by_cases hx : p = x
    · subst hx
      obtain ⟨l, hl, h1⟩ := ih hpq
      refine ⟨l, ?_, h1⟩
      simp only [List.cons_append, List.zip_cons_cons, List.map_cons, List.mem_cons]
      right
      exact hl
    · refine ⟨size x p, by simp, ?_⟩
      have h1 := size_nonneg x p
      have h2 : size x p ≠ 0 := fun h => hx (size_zero.mp h).symm
      omega

theorem left_le (S : Int) (hS : 0 ≤ S) (x : List (Bool × Int)) (hx : ∀ e ∈ x, 0 ≤ e.2) : left S x ≤ S := by
  induction x generalizing S with
  | nil => exact le_refl _
  | cons e x ih =>
    have h0 := hx e (by simp)
    have := ih (max 0 (S - e.2)) (le_max_left _ _) (fun f hf => hx f (List.mem_cons_of_mem _ hf))
    simp only [left]
    omega

theorem left_lt (S : Int) (hS : 0 < S) (x : List (Bool × Int)) (hx : ∀ e ∈ x, 0 ≤ e.2) (h1 : ∃ e ∈ x, 1 ≤ e.2) : left S x < S := by
  induction x generalizing S with
  | nil => obtain ⟨e, he, -⟩ := h1; simp at he
  | cons e x ih =>
    have h0 := hx e (by simp)
    have hx' : ∀ f ∈ x, 0 ≤ f.2 := fun f hf => hx f (List.mem_cons_of_mem _ hf)
    simp only [left]
    by_cases he : 1 ≤ e.2
    · have := left_le (max 0 (S - e.2)) (le_max_left _ _) x hx'
      omega
    · obtain ⟨f, hf, h2⟩ := h1
      rcases List.mem_cons.mp hf with rfl | hf
      · exact absurd h2 he
      · have hS' : max 0 (S - e.2) = S := by omega
        rw [hS']
        exact ih S hS hx' ⟨f, hf, h2⟩

theorem flags_exists (b : Bool) (ls : List Int) (h : ∃ l ∈ ls, 1 ≤ l) : ∃ e ∈ flags b ls, 1 ≤ e.2 := by
  induction ls generalizing b with
  | nil => obtain ⟨l, hl, -⟩ := h; simp at hl
  | cons l ls ih =>
    obtain ⟨m, hm, h1⟩ := h
    rcases List.mem_cons.mp hm with rfl | hm
    · exact ⟨(b, m), by simp [flags], h1⟩
    · obtain ⟨e, he, h2⟩ := ih (!b) ⟨m, hm, h1⟩
      exact ⟨e, by simp [flags, he], h2⟩

theorem walk_ends (M : Mask) (pts : List Pt) (forward : Bool) {x y : Pt} (hx : x ∈ pts) (hy : y ∈ pts) (hxy : x ≠ y) (S : Nat) :
    ∀ {p : Pt} {i : Nat} {a : Anchor}, i < pts.length → 0 ≤ a.search → a.search ≤ S → ∃ n r, walk M pts forward n p i a = some r := by
  have stop : ∀ {p : Pt} {i : Nat} {a : Anchor}, ¬(0 < a.search ∧ 0 < a.need) → ∃ n r, walk M pts forward n p i a = some r := by
    intro p i a h
    exact ⟨0, a, by unfold walk; rw [if_neg h]⟩
  induction S with
  | zero => intro p i a _ h1 h2; exact stop (by omega)
  | succ S ih =>
    -- some following line has a length
    have far : ∀ (d : Nat) {p : Pt} {i : Nat} {a : Anchor}, i < pts.length → 0 ≤ a.search → a.search ≤ (S + 1 : Nat) →
        pts[iter forward pts.length i d]? ≠ some p → ∃ n r, walk M pts forward n p i a = some r := by
      intro d
      induction d with
      | zero =>
        intro p i a hi h1 h2 hd
        by_cases hc : 0 < a.search ∧ 0 < a.need
        · have hq : pts[i]? = some pts[i] := List.getElem?_eq_getElem hi
          have hpq : p ≠ pts[i] := by
            rintro rfl
            exact hd (by rw [iter]; exact hq)
          have hlt := left_lt a.search hc.1 (flags a.over (stretches p pts[i] (sort (M.cross p pts[i])))) (flags_nonneg _ _ (stretches_nonneg _ _ _))
            (flags_exists _ _ (by
              have := chain_sum hpq ((sort (M.cross p pts[i])).map (Scarf.lerpPt p pts[i]))
              unfold stretches
              simpa using this))
          obtain ⟨n, r, hn⟩ := ih (p := pts[i]) (i := nextIndex forward pts.length i)
            (a := walkSegment a (stretches p pts[i] (sort (M.cross p pts[i])))) (nextIndex_lt (by omega))
            (by rw [walkStep]; exact left_nonneg h1 _) (by rw [walkStep]; dsimp only; omega)
          refine ⟨n + 1, r, ?_⟩
          unfold walk
          rw [if_pos hc]
          dsimp only
          rw [hq]
          exact hn
        · exact stop hc
      | succ d ihd =>
        intro p i a hi h1 h2 hd
        by_cases hc : 0 < a.search ∧ 0 < a.need
        · have hq : pts[i]? = some pts[i] := List.getElem?_eq_getElem hi
          have hle := left_le a.search h1 (flags a.over (stretches p pts[i] (sort (M.cross p pts[i])))) (flags_nonneg _ _ (stretches_nonneg _ _ _))
          have hgo : ∃ n r, walk M pts forward n pts[i] (nextIndex forward pts.length i)
              (walkSegment a (stretches p pts[i] (sort (M.cross p pts[i])))) = some r := by
            by_cases hpq : p = pts[i]
            · exact ihd (nextIndex_lt (by omega)) (by rw [walkStep]; exact left_nonneg h1 _) (by rw [walkStep]; dsimp only; omega)
                (by rw [← hpq]; rw [iter] at hd; exact hd)
            · have hlt := left_lt a.search hc.1 (flags a.over (stretches p pts[i] (sort (M.cross p pts[i])))) (flags_nonneg _ _ (stretches_nonneg _ _ _))
                (flags_exists _ _ (by
                  have := chain_sum hpq ((sort (M.cross p pts[i])).map (Scarf.lerpPt p pts[i]))
                  unfold stretches
                  simpa using this))
              exact ih (nextIndex_lt (by omega)) (by rw [walkStep]; exact left_nonneg h1 _) (by rw [walkStep]; dsimp only; omega)
          obtain ⟨n, r, hn⟩ := hgo
          refine ⟨n + 1, r, ?_⟩
          unfold walk
          rw [if_pos hc]
          dsimp only
          rw [hq]
          exact hn
        · exact stop hc
    intro p i a hi h1 h2
    have hz : ∃ z ∈ pts, z ≠ p := by
      by_cases h : x = p
      · exact ⟨y, hy, fun h' => hxy (h.trans h'.symm)⟩
      · exact ⟨x, hx, h⟩
    obtain ⟨z, hz, hzp⟩ := hz
    obtain ⟨j, hj, rfl⟩ := List.getElem_of_mem hz
    obtain ⟨d, hd⟩ := iter_surj forward hi hj
    exact far d hi h1 h2 (by rw [hd, List.getElem?_eq_getElem hj]; simpa using hzp)

theorem tip_spec (M : Mask) (pts : List Pt) (i : Nat) (tip other : Pt) (forward : Bool) (width : Int) (xs : List ℚ) (hi : i < pts.length)
    (hw : 0 ≤ width) (ht : tip ∈ pts) (ho : other ∈ pts) (hne : tip ≠ other) (hx : M.inside tip = false → xs ≠ []) :
    ∃ n0, ∀ rounds ≥ n0, ∃ b, tipAnchored M pts rounds i tip other (M.inside tip) forward width xs = some b ∧
      (b = true ↔ Anchored M pts i tip forward
        (inner (M.inside tip) (size other tip) (if forward then xs.head? else xs.getLast?.map fun x => 1 - x)) width) := by
  have hneed : (if M.inside tip then some width
      else (if forward then xs.head? else xs.getLast?.map fun x => 1 - x).map fun (c : ℚ) => width - ⌊c * (size other tip : ℚ)⌋) =
      some (width - inner (M.inside tip) (size other tip) (if forward then xs.head? else xs.getLast?.map fun x => 1 - x)) := by
    unfold inner
    cases hin : M.inside tip
    · have hx' := hx hin
      simp only [Bool.false_eq_true, if_false]
      cases forward
      · simp only [Bool.false_eq_true, if_false]
        rw [List.getLast?_eq_getLast_of_ne_nil hx']
        rfl
      · simp only [if_true]
        rw [List.head?_eq_some_head hx']
        rfl
    · simp
  generalize inner (M.inside tip) (size other tip) (if forward then xs.head? else xs.getLast?.map fun x => 1 - x) = inn at *
  by_cases hpos : 0 < width - inn
  · have hi' : nextIndex forward pts.length i < pts.length := nextIndex_lt (by omega)
    obtain ⟨n0, r, hr⟩ := walk_ends M pts forward ht ho hne (width * 2).toNat (p := tip) (i := nextIndex forward pts.length i)
      (a := ⟨M.inside tip, width - inn, width * 2⟩) hi' (by dsimp only; omega) (by dsimp only; omega)
    obtain ⟨k, hk⟩ := walk_spec M pts forward n0 (by dsimp only; omega) hr
    refine ⟨n0, fun rounds hrn => ⟨decide (r.need ≤ 0), ?_, ?_⟩⟩
    · unfold tipAnchored
      rw [hneed]
      dsimp only [Option.bind_some]
      rw [if_pos hpos, walk_mono M pts forward n0 hr hrn]
      rfl
    · rw [decide_eq_true_iff]
      unfold Anchored
      rw [neighbour_eq forward hi]
      dsimp only at hk
      constructor
      · intro h
        right
        refine ⟨k, fun k' hk' => ?_⟩
        have := (hk k' hk').mp h
        omega
      · rintro (h | ⟨k1, h⟩)
        · omega
        · have h1 := h (max k k1) (le_max_right _ _)
          exact (hk (max k k1) (le_max_left _ _)).mpr (by omega)
  · refine ⟨0, fun rounds _ => ⟨true, ?_, ?_⟩⟩
    · unfold tipAnchored
      rw [hneed]
      dsimp only [Option.bind_some]
      rw [if_neg hpos]
    · simp only [true_iff]
      left
      omega

end Verif.Bridge
