import Verif.Overhang.Model
import Mathlib.Tactic.Linarith
import Mathlib.Tactic.Ring
import Mathlib.Tactic.Positivity
import Mathlib.Tactic.SplitIfs
import Mathlib.Tactic.ByContra
import Mathlib.Tactic.Push

namespace Verif.Overhang

open Spec

/-! ## Rounding -/

theorem llround_mono {p q : ℚ} (h : p ≤ q) : llround p ≤ llround q := by
  unfold llround
  by_cases hp : 0 ≤ p
  · rw [if_pos hp, if_pos (le_trans hp h)]
    exact Int.floor_mono (by linarith)
  · rw [if_neg hp]
    by_cases hq : 0 ≤ q
    · rw [if_pos hq]
      have h1 : (0 : Int) ≤ ⌊-p + 1 / 2⌋ := Int.floor_nonneg.2 (by linarith)
      have h2 : (0 : Int) ≤ ⌊q + 1 / 2⌋ := Int.floor_nonneg.2 (by linarith)
      omega
    · rw [if_neg hq]
      have := Int.floor_mono (show -q + 1 / 2 ≤ -p + 1 / 2 by linarith)
      omega

theorem llround_int (n : Int) : llround (n : ℚ) = n := by
  unfold llround
  have hf : ∀ m : Int, ⌊(m : ℚ) + 1 / 2⌋ = m := by
    intro m
    rw [Int.floor_eq_iff]
    constructor <;> linarith
  split_ifs with h
  · exact hf n
  · have := hf (-n)
    push_cast at this
    omega

theorem along_zero (a b : P3) : along a b 0 = a := by
  have h0 : llround 0 = 0 := by have := llround_int 0; simpa using this
  unfold along
  simp [h0]

theorem along_one (a b : P3) : along a b 1 = b := by
  unfold along
  rw [mul_one, mul_one, mul_one, llround_int, llround_int, llround_int]
  cases a; cases b; simp

theorem square_le {s t a b : Int} (h : (a ≤ s ∧ s ≤ t ∧ t ≤ b) ∨ (b ≤ t ∧ t ≤ s ∧ s ≤ a)) : (t - s) ^ 2 ≤ (b - a) ^ 2 := by
  rcases h with ⟨h1, h2, h3⟩ | ⟨h1, h2, h3⟩
  · nlinarith
  · nlinarith

theorem round_between (v : Int) {a s t b : ℚ} (h1 : a ≤ s) (h2 : s ≤ t) (h3 : t ≤ b) (x : Int) :
    ((x + llround (v * t)) - (x + llround (v * s))) ^ 2 ≤ ((x + llround (v * b)) - (x + llround (v * a))) ^ 2 := by
  apply square_le
  by_cases hv : (0 : ℚ) ≤ v
  · left
    refine ⟨?_, ?_, ?_⟩ <;> apply Int.add_le_add_left <;> apply llround_mono <;> exact mul_le_mul_of_nonneg_left (by assumption) hv
  · right
    have hv' : (v : ℚ) ≤ 0 := by linarith
    refine ⟨?_, ?_, ?_⟩ <;> apply Int.add_le_add_left <;> apply llround_mono <;> exact mul_le_mul_of_nonpos_left (by assumption) hv'

theorem dist2_mono (p q : P3) {a s t b : ℚ} (h1 : a ≤ s) (h2 : s ≤ t) (h3 : t ≤ b) :
    dist2 (along p q t) (along p q s) ≤ dist2 (along p q b) (along p q a) := by
  have hx := round_between (q.x - p.x) h1 h2 h3 p.x
  have hy := round_between (q.y - p.y) h1 h2 h3 p.y
  have hz := round_between (q.z - p.z) h1 h2 h3 p.z
  unfold dist2 along
  dsimp only
  linarith

/-! ## The loop -/

/-- What is left of the crossings. -/
structure Left (ms : List Reg) (τ : ℚ) (xss : List (List ℚ)) : Prop where
  len : xss.length + 1 = ms.length
  sorted : ∀ (i : Nat) (xs : List ℚ), xss[i]? = some xs → xs.Pairwise (· ≤ ·)
  mem : ∀ (i : Nat) (xs : List ℚ) (r : Reg), xss[i]? = some xs → ms[i]? = some r → ∀ x, x ∈ xs ↔ x ∈ r.cuts ∧ τ < x

theorem mem_dropWhile {xs : List ℚ} {t x : ℚ} (h : xs.Pairwise (· ≤ ·)) :
    x ∈ xs.dropWhile (fun x => decide (x ≤ t)) ↔ x ∈ xs ∧ t < x := by
  induction xs with
  | nil => simp
  | cons y ys ih =>
    rw [List.pairwise_cons] at h
    rw [List.dropWhile_cons]
    by_cases hy : y ≤ t
    · rw [if_pos (by simpa using hy), ih h.2, List.mem_cons]
      constructor
      · exact fun ⟨h1, h2⟩ => ⟨Or.inr h1, h2⟩
      · rintro ⟨h1 | h1, h2⟩
        · exact absurd h2 (by rw [h1]; exact not_lt.2 hy)
        · exact ⟨h1, h2⟩
    · rw [if_neg (by simpa using hy)]
      constructor
      · intro hx
        refine ⟨hx, ?_⟩
        rcases List.mem_cons.1 hx with hx | hx
        · rw [hx]; exact not_le.1 hy
        · exact lt_of_lt_of_le (not_le.1 hy) (h.1 x hx)
      · exact fun hx => hx.1

theorem left_remove {ms : List Reg} {τ c : ℚ} {xss : List (List ℚ)} (h : Left ms τ xss) (hc : τ ≤ c) : Left ms c (removePrevious c xss) := by
  unfold removePrevious
  refine ⟨by rw [List.length_map]; exact h.len, ?_, ?_⟩
  · intro i xs hx
    rw [List.getElem?_map] at hx
    cases he : xss[i]? with
    | none => rw [he] at hx; cases hx
    | some ys =>
      rw [he] at hx; cases hx
      exact (h.sorted i ys he).sublist (List.dropWhile_sublist _)
  · intro i xs r hx hr x
    rw [List.getElem?_map] at hx
    cases he : xss[i]? with
    | none => rw [he] at hx; cases hx
    | some ys =>
      rw [he] at hx; cases hx
      rw [mem_dropWhile (h.sorted i ys he), h.mem i ys r he hr x]
      constructor
      · exact fun ⟨h1, h2⟩ => ⟨h1.1, h2⟩
      · exact fun ⟨h1, h2⟩ => ⟨⟨h1, lt_of_le_of_lt hc h2⟩, h2⟩

theorem getElem?_dropLast' {α : Type} (l : List α) (i : Nat) (h : i + 1 < l.length) : l.dropLast[i]? = l[i]? := by
  rw [List.dropLast_eq_take, List.getElem?_take_of_lt (by omega)]

theorem left_start {ms : List Reg} (hne : ms ≠ []) {τ : ℚ} (hc : ∀ i r, i + 1 < ms.length → ms[i]? = some r → ∀ c ∈ r.cuts, τ < c) : Left ms τ (crossings ms) := by
  have hl : ms.length ≠ 0 := fun h => hne (List.length_eq_zero_iff.1 h)
  unfold crossings
  have key : ∀ i xs, (ms.dropLast.map fun r => r.cuts.insertionSort (· ≤ ·))[i]? = some xs → ∃ r, ms[i]? = some r ∧ i + 1 < ms.length ∧ xs = r.cuts.insertionSort (· ≤ ·) := by
    intro i xs hx
    rw [List.getElem?_map] at hx
    cases he : ms.dropLast[i]? with
    | none => rw [he] at hx; cases hx
    | some r =>
      rw [he] at hx; cases hx
      have hi : i < ms.dropLast.length := (List.getElem?_eq_some_iff.1 he).1
      rw [List.length_dropLast] at hi
      exact ⟨r, by rw [← getElem?_dropLast' ms i (by omega), he], by omega, rfl⟩
  refine ⟨by rw [List.length_map, List.length_dropLast]; omega, ?_, ?_⟩
  · intro i xs hx
    obtain ⟨r, _, _, hxs⟩ := key i xs hx
    rw [hxs]
    exact List.pairwise_insertionSort (· ≤ ·) r.cuts
  · intro i xs r hx hr x
    obtain ⟨r', hr', hi, hxs⟩ := key i xs hx
    rw [hr] at hr'; cases hr'
    rw [hxs, List.mem_insertionSort]
    exact ⟨fun hm => ⟨hm, hc i r hi hr x hm⟩, fun hm => hm.1⟩

/-- The first crossing of a region that is left. -/
theorem head_spec {ms : List Reg} {τ : ℚ} {xss : List (List ℚ)} (h : Left ms τ xss) (i : Nat) (hi : i + 1 < ms.length) :
    ∃ r, ms[i]? = some r ∧
      match (xss.getD i []).head? with
      | none => ∀ c ∈ r.cuts, c ≤ τ
      | some c => c ∈ r.cuts ∧ τ < c ∧ ∀ d ∈ r.cuts, τ < d → c ≤ d := by
  have hx : i < xss.length := by have := h.len; omega
  have hms : i < ms.length := by omega
  refine ⟨ms[i], List.getElem?_eq_getElem hms, ?_⟩
  have hxs : xss[i]? = some xss[i] := List.getElem?_eq_getElem hx
  rw [List.getD_eq_getElem?_getD, hxs, Option.getD_some]
  have hm := h.mem i _ _ hxs (List.getElem?_eq_getElem hms)
  have hs := h.sorted i _ hxs
  cases hh : xss[i] with
  | nil =>
    intro c hc
    rw [hh] at hm
    by_contra hlt
    exact absurd ((hm c).2 ⟨hc, not_le.1 hlt⟩) (by simp)
  | cons y ys =>
    rw [hh] at hm hs
    have hy := (hm y).1 (by simp)
    refine ⟨hy.1, hy.2, ?_⟩
    intro d hd hlt
    rcases List.mem_cons.1 ((hm d).2 ⟨hd, hlt⟩) with he | he
    · exact le_of_eq he.symm
    · exact (List.pairwise_cons.1 hs).1 d he

theorem current_none {ms : List Reg} {τ : ℚ} {xss : List (List ℚ)} (h : Left ms τ xss) {i : Nat} (hi : ms.length ≤ i + 1) : current xss i = none := by
  unfold current
  rw [List.getD_eq_getElem?_getD, List.getElem?_eq_none (by have := h.len; omega)]
  rfl

/-- What the next crossing is. -/
theorem next_spec {ms : List Reg} {τ : ℚ} {xss : List (List ℚ)} (h : Left ms τ xss) {i : Nat} (hi : i < ms.length) :
    match next xss i with
    | none => (∀ r, i + 1 < ms.length → ms[i]? = some r → ∀ c ∈ r.cuts, c ≤ τ) ∧ (∀ r, 0 < i → ms[i - 1]? = some r → ∀ c ∈ r.cuts, c ≤ τ)
    | some (c, j) => τ < c
        ∧ (∀ r, i + 1 < ms.length → ms[i]? = some r → ∀ d ∈ r.cuts, τ < d → c ≤ d)
        ∧ (∀ r, 0 < i → ms[i - 1]? = some r → ∀ d ∈ r.cuts, τ < d → c ≤ d)
        ∧ ((j = i + 1 ∧ i + 1 < ms.length ∧ (∃ r, ms[i]? = some r ∧ c ∈ r.cuts) ∧ current xss i = some c)
           ∨ (j + 1 = i ∧ (∃ r, ms[i - 1]? = some r ∧ c ∈ r.cuts) ∧ inner xss i = some c)) := by
  have hcur : current xss i = none ∧ (∀ r, i + 1 < ms.length → ms[i]? = some r → ∀ c ∈ r.cuts, c ≤ τ)
      ∨ ∃ c, current xss i = some c ∧ i + 1 < ms.length ∧ τ < c ∧ (∃ r, ms[i]? = some r ∧ c ∈ r.cuts) ∧ (∀ r, i + 1 < ms.length → ms[i]? = some r → ∀ d ∈ r.cuts, τ < d → c ≤ d) := by
    by_cases hl : i + 1 < ms.length
    · obtain ⟨r, hr, hm⟩ := head_spec h i hl
      cases hh : (xss.getD i []).head? with
      | none =>
        rw [hh] at hm
        exact Or.inl ⟨hh, fun r' _ hr' => by rw [hr] at hr'; cases hr'; exact hm⟩
      | some c =>
        rw [hh] at hm
        exact Or.inr ⟨c, hh, hl, hm.2.1, ⟨r, hr, hm.1⟩, fun r' _ hr' => by rw [hr] at hr'; cases hr'; exact hm.2.2⟩
    · exact Or.inl ⟨current_none h (by omega), fun r h1 => absurd h1 hl⟩
  have hinn : inner xss i = none ∧ (∀ r, 0 < i → ms[i - 1]? = some r → ∀ c ∈ r.cuts, c ≤ τ)
      ∨ ∃ c, inner xss i = some c ∧ 0 < i ∧ τ < c ∧ (∃ r, ms[i - 1]? = some r ∧ c ∈ r.cuts) ∧ (∀ r, 0 < i → ms[i - 1]? = some r → ∀ d ∈ r.cuts, τ < d → c ≤ d) := by
    unfold inner
    by_cases hl : 0 < i
    · rw [if_pos hl]
      obtain ⟨r, hr, hm⟩ := head_spec h (i - 1) (by omega)
      cases hh : (xss.getD (i - 1) []).head? with
      | none =>
        rw [hh] at hm
        exact Or.inl ⟨rfl, fun r' _ hr' => by rw [hr] at hr'; cases hr'; exact hm⟩
      | some c =>
        rw [hh] at hm
        exact Or.inr ⟨c, rfl, hl, hm.2.1, ⟨r, hr, hm.1⟩, fun r' _ hr' => by rw [hr] at hr'; cases hr'; exact hm.2.2⟩
    · rw [if_neg hl]
      exact Or.inl ⟨rfl, fun r h1 => absurd h1 hl⟩
  unfold next
  rcases hcur with ⟨h1, h2⟩ | ⟨c, h1, hil, hc, hrc, h2⟩ <;> rcases hinn with ⟨h3, h4⟩ | ⟨n, h3, hip, hn, hrn, h4⟩
  · rw [h1, h3]
    exact ⟨h2, h4⟩
  · rw [h1, h3]
    refine ⟨hn, ?_, h4, Or.inr ⟨by omega, hrn, rfl⟩⟩
    intro r hl hr d hd hlt
    exact absurd (h2 r hl hr d hd) (not_le.2 hlt)
  · rw [h1, h3]
    refine ⟨hc, h2, ?_, Or.inl ⟨rfl, hil, hrc, rfl⟩⟩
    intro r hl hr d hd hlt
    exact absurd (h4 r hl hr d hd) (not_le.2 hlt)
  · rw [h1, h3]
    dsimp only
    by_cases hlt : n > c
    · rw [if_pos hlt]
      refine ⟨hc, h2, ?_, Or.inl ⟨rfl, hil, hrc, rfl⟩⟩
      intro r hl hr d hd hd'
      exact le_trans (le_of_lt hlt) (h4 r hl hr d hd hd')
    · rw [if_neg hlt]
      refine ⟨hn, ?_, h4, Or.inr ⟨by omega, hrn, rfl⟩⟩
      intro r hl hr d hd hd'
      exact le_trans (not_lt.1 hlt) (h2 r hl hr d hd hd')

/-! ### The loop ends -/

theorem sum_dropWhile_le (xss : List (List ℚ)) (t : ℚ) : ((removePrevious t xss).map List.length).sum ≤ (xss.map List.length).sum := by
  unfold removePrevious
  induction xss with
  | nil => simp
  | cons x xs ih =>
    simp only [List.map_cons, List.sum_cons]
    have := (List.dropWhile_sublist (fun y => decide (y ≤ t)) (l := x)).length_le
    omega

theorem sum_dropWhile_lt {xss : List (List ℚ)} {t : ℚ} {i : Nat} (h : (xss.getD i []).head? = some t) :
    ((removePrevious t xss).map List.length).sum < (xss.map List.length).sum := by
  induction xss generalizing i with
  | nil => simp at h
  | cons x xs ih =>
    have htail := sum_dropWhile_le xs t
    unfold removePrevious at htail ⊢
    simp only [List.map_cons, List.sum_cons]
    cases i with
    | zero =>
      rw [List.getD_cons_zero] at h
      cases x with
      | nil => cases h
      | cons y ys =>
        cases h
        rw [List.dropWhile_cons, if_pos (by simp)]
        have := (List.dropWhile_sublist (fun z => decide (z ≤ t)) (l := ys)).length_le
        rw [List.length_cons]
        omega
    | succ i =>
      rw [List.getD_cons_succ] at h
      have h1 := ih h
      unfold removePrevious at h1
      have := (List.dropWhile_sublist (fun y => decide (y ≤ t)) (l := x)).length_le
      omega

theorem next_bound {xss : List (List ℚ)} {i j : Nat} {t : ℚ} (hi : i ≤ xss.length) (h : next xss i = some (t, j)) :
    j ≤ xss.length ∧ ((removePrevious t xss).map List.length).sum < (xss.map List.length).sum := by
  have hcur : ∀ c, current xss i = some c → i < xss.length := by
    intro c hc
    by_contra hn
    unfold current at hc
    rw [List.getD_eq_getElem?_getD, List.getElem?_eq_none (by omega)] at hc
    cases hc
  have hinn : ∀ c, inner xss i = some c → (xss.getD (i - 1) []).head? = some c := by
    intro c hc
    unfold inner at hc
    by_cases h0 : i > 0
    · rw [if_pos h0] at hc; exact hc
    · rw [if_neg h0] at hc; cases hc
  unfold next at h
  cases hc : current xss i with
  | none =>
    cases hn : inner xss i with
    | none => rw [hc, hn] at h; cases h
    | some n =>
      rw [hc, hn] at h; cases h
      exact ⟨by omega, sum_dropWhile_lt (hinn _ hn)⟩
  | some c =>
    cases hn : inner xss i with
    | none =>
      rw [hc, hn] at h; cases h
      exact ⟨hcur _ hc, sum_dropWhile_lt hc⟩
    | some n =>
      rw [hc, hn] at h
      dsimp only at h
      split_ifs at h with hlt
      · cases h
        exact ⟨hcur _ hc, sum_dropWhile_lt hc⟩
      · cases h
        exact ⟨by omega, sum_dropWhile_lt (hinn _ hn)⟩

theorem walk_isSome (f : Nat) : ∀ (xss : List (List ℚ)) (i : Nat), i ≤ xss.length → (xss.map List.length).sum < f → ∃ l, walk f xss i = some l ∧ ∃ b t, l = b ++ [(1, t)] := by
  induction f with
  | zero => intro xss i _ h; omega
  | succ f ih =>
    intro xss i hi hf
    unfold walk
    rw [if_neg (by omega)]
    cases hn : next xss i with
    | none => exact ⟨_, rfl, [], i, rfl⟩
    | some p =>
      obtain ⟨t, j⟩ := p
      obtain ⟨h1, h2⟩ := next_bound hi hn
      obtain ⟨l, hl, b, k, hb⟩ := ih (removePrevious t xss) j (by unfold removePrevious; rw [List.length_map]; exact h1) (by omega)
      dsimp only
      rw [hl]
      exact ⟨(t, i) :: l, rfl, (t, i) :: b, k, by rw [hb]; rfl⟩

theorem startRegion_lt {ms : List Reg} (h : ms ≠ []) : startRegion ms < ms.length := by
  have hl : ms.length ≠ 0 := fun h' => h (List.length_eq_zero_iff.1 h')
  unfold startRegion
  cases hf : ms.dropLast.findIdx? fun r => r.has 0 with
  | none => rw [Option.getD_none]; omega
  | some i =>
    rw [Option.getD_some]
    have := (List.findIdx?_eq_some_iff_getElem.1 hf).1
    rw [List.length_dropLast] at this
    omega

/-! ### The pieces are in their regions -/

/-- The pieces from `τ`: they are in order and end at crossings (the last one at 1), and in each one the property of its region holds. -/
def Chain (In : ℚ → Nat → Prop) (Cut : ℚ → Prop) : ℚ → List (ℚ × Nat) → Prop
  | _, [] => False
  | τ, [(c, i)] => c = 1 ∧ ∀ t, τ < t → t < c → In t i
  | τ, (c, i) :: m :: ms => τ < c ∧ Cut c ∧ (∀ t, τ < t → t < c → In t i) ∧ Chain In Cut c (m :: ms)

/-- The point before a place, such that there is nothing of a list between. -/
theorem before_exists (l : List ℚ) (τ c : ℚ) (h : τ < c) : ∃ s, τ < s ∧ s < c ∧ ∀ x ∈ l, ¬ (s ≤ x ∧ x < c) := by
  induction l with
  | nil => exact ⟨(τ + c) / 2, by linarith, by linarith, by simp⟩
  | cons y ys ih =>
    obtain ⟨s, h1, h2, h3⟩ := ih
    by_cases hy : s ≤ y ∧ y < c
    · refine ⟨(y + c) / 2, by linarith [hy.1, hy.2], by linarith [hy.2], ?_⟩
      intro x hx
      rcases List.mem_cons.1 hx with hx | hx
      · rw [hx]; intro ⟨h4, _⟩; linarith [hy.2]
      · intro ⟨h4, h5⟩
        exact h3 x hx ⟨by linarith [hy.1, hy.2], h5⟩
    · refine ⟨s, h1, h2, ?_⟩
      intro x hx
      rcases List.mem_cons.1 hx with hx | hx
      · rw [hx]; exact hy
      · exact h3 x hx

/-- After `τ`, as long as there is no crossing, the region is `i`. -/
def After (ms : List Reg) (τ : ℚ) (i : Nat) : Prop :=
  ∀ t, τ < t → t ≤ 1 → (∀ r, i + 1 < ms.length → ms[i]? = some r → ∀ c ∈ r.cuts, ¬ (τ < c ∧ c ≤ t)) →
    (∀ r, 0 < i → ms[i - 1]? = some r → ∀ c ∈ r.cuts, ¬ (τ < c ∧ c ≤ t)) → InRegion ms t i

/-- Being in no inner region is decided by the next inner one. -/
theorem inRegion_of {ms : List Reg} (hr : Regions ms) {t : ℚ} (h0 : 0 ≤ t) (h1 : t ≤ 1) {i : Nat} {r : Reg} (hi : ms[i]? = some r)
    (hin : i + 1 < ms.length → r.has t = true) (hout : ∀ s, 0 < i → ms[i - 1]? = some s → s.has t = false) : InRegion ms t i := by
  refine ⟨r, hi, hin, ?_⟩
  have hlt : i < ms.length := (List.getElem?_eq_some_iff.1 hi).1
  have key : ∀ d, d < i → ∀ s, ms[i - 1 - d]? = some s → s.has t = false := by
    intro d
    induction d with
    | zero => intro hd s hs; exact hout s (by omega) (by simpa using hs)
    | succ d ih =>
      intro hd s hs
      have hs' : ms[i - 1 - d]? = some ms[i - 1 - d] := List.getElem?_eq_getElem (by omega)
      have hf := ih (by omega) _ hs'
      by_contra hc
      have hc' : s.has t = true := by simpa using hc
      have he : i - 1 - (d + 1) + 1 = i - 1 - d := by omega
      have := hr.nested (i - 1 - (d + 1)) s _ (by omega) hs (by rw [he]; exact hs') t h0 h1 hc'
      rw [this] at hf
      cases hf
  intro j s hj hs
  exact key (i - 1 - j) (by omega) s (by rw [show i - 1 - (i - 1 - j) = j by omega]; exact hs)

theorem after_start {ms : List Reg} (hr : Regions ms) : After ms 0 (startRegion ms) := by
  have hlt := startRegion_lt hr.nonempty
  intro t ht h1 hcur hinn
  refine inRegion_of hr (le_of_lt ht) h1 (List.getElem?_eq_getElem hlt) ?_ ?_
  · intro hi
    have hg := List.getElem?_eq_getElem hlt
    have hf := hr.faithful _ _ hi hg
    rw [← hf.same 0 t (le_refl 0) (le_of_lt ht) h1 (fun c hc hcc => hcur _ hi hg c hc ⟨(hf.inner c hc).1, hcc.2⟩)]
    revert hi hg hf hcur hinn
    generalize hgen : startRegion ms = k at hlt ⊢
    intro hcur hinn hi hg hf
    unfold startRegion at hgen
    cases hf' : ms.dropLast.findIdx? fun r => r.has 0 with
    | none => rw [hf', Option.getD_none] at hgen; omega
    | some i =>
      rw [hf', Option.getD_some] at hgen
      subst hgen
      obtain ⟨hb, hp, _⟩ := List.findIdx?_eq_some_iff_getElem.1 hf'
      rw [List.getElem_dropLast] at hp
      exact hp
  · intro s h0 hs
    have hf := hr.faithful _ _ (by omega) hs
    rw [← hf.same 0 t (le_refl 0) (le_of_lt ht) h1 (fun c hc hcc => hinn _ h0 hs c hc ⟨(hf.inner c hc).1, hcc.2⟩)]
    revert h0 hs hf hcur hinn
    generalize hgen : startRegion ms = k at hlt ⊢
    intro hcur hinn h0 hs hf
    unfold startRegion at hgen
    cases hf' : ms.dropLast.findIdx? fun r => r.has 0 with
    | none =>
      rw [List.findIdx?_eq_none_iff] at hf'
      have hmem : s ∈ ms.dropLast := List.mem_of_getElem? (by rw [getElem?_dropLast' ms (k - 1) (by omega)]; exact hs)
      have := hf' s hmem
      simpa using this
    | some i =>
      rw [hf', Option.getD_some] at hgen
      subst hgen
      obtain ⟨hb, _, hq⟩ := List.findIdx?_eq_some_iff_getElem.1 hf'
      have h3 := hq (i - 1) (by omega)
      rw [List.getElem_dropLast] at h3
      have h4 : ms[i - 1]? = some ms[i - 1] := List.getElem?_eq_getElem (by omega)
      rw [hs] at h4; cases h4
      simpa using h3

theorem after_out {ms : List Reg} (hr : Regions ms) {τ c : ℚ} (hτ0 : 0 ≤ τ) {i : Nat} (ha : After ms τ i) (hc : τ < c)
    (hl : i + 1 < ms.length) {r : Reg} (hri : ms[i]? = some r) (hcr : c ∈ r.cuts)
    (h1 : ∀ r, i + 1 < ms.length → ms[i]? = some r → ∀ d ∈ r.cuts, τ < d → c ≤ d)
    (h2 : ∀ r, 0 < i → ms[i - 1]? = some r → ∀ d ∈ r.cuts, τ < d → c ≤ d) : After ms c (i + 1) := by
  intro t ht ht1 hcur hinn
  have hf := hr.faithful i r hl hri
  -- a place just before the crossing
  have hnext : ms[i + 1]? = some ms[i + 1] := List.getElem?_eq_getElem hl
  obtain ⟨s, hs1, hs2, hs3⟩ := before_exists (r.cuts ++ ms[i + 1].cuts) τ c hc
  have hins : InRegion ms s i := by
    apply ha s hs1 (by linarith)
    · intro r' hl' hr' d hd hdd
      exact absurd (h1 r' hl' hr' d hd hdd.1) (by linarith [hdd.2])
    · intro r' hl' hr' d hd hdd
      exact absurd (h2 r' hl' hr' d hd hdd.1) (by linarith [hdd.2])
  obtain ⟨r', hr', hhas, _⟩ := hins
  rw [hri] at hr'; cases hr'
  have hhas := hhas hl
  refine inRegion_of hr (by linarith) ht1 hnext ?_ ?_
  · intro hl2
    have hf2 := hr.faithful (i + 1) _ hl2 hnext
    have hs : (ms[i + 1]).has s = true := hr.nested i r _ (by omega) hri hnext s (by linarith) (by linarith) hhas
    rw [← hf2.same s t (by linarith) (by linarith) ht1 ?_]
    · exact hs
    · intro d hd hdd
      rcases lt_trichotomy d c with h | h | h
      · exact hs3 d (List.mem_append.2 (Or.inr hd)) ⟨hdd.1, h⟩
      · subst h
        exact hr.apart i r _ (by omega) hri hnext d hcr hd
      · exact hcur _ hl2 hnext d hd ⟨h, hdd.2⟩
  · intro q _ hq
    rw [show i + 1 - 1 = i by omega, hri] at hq
    cases hq
    rw [hf.change c hcr s t (by linarith) hs2 ht ht1 ?_, hhas]
    · rfl
    · intro d hd hd1 hd2
      rcases lt_trichotomy d c with h | h | h
      · exact absurd ⟨hd1, h⟩ (hs3 d (List.mem_append.2 (Or.inl hd)))
      · exact h
      · exact absurd ⟨h, hd2⟩ (hinn r (by omega) (by rw [show i + 1 - 1 = i by omega]; exact hri) d hd)

theorem after_in {ms : List Reg} (hr : Regions ms) {τ c : ℚ} (hτ0 : 0 ≤ τ) {i j : Nat} (hj : j + 1 = i) (hi : i < ms.length) (ha : After ms τ i) (hc : τ < c)
    {r : Reg} (hri : ms[j]? = some r) (hcr : c ∈ r.cuts)
    (h1 : ∀ r, i + 1 < ms.length → ms[i]? = some r → ∀ d ∈ r.cuts, τ < d → c ≤ d)
    (h2 : ∀ r, 0 < i → ms[i - 1]? = some r → ∀ d ∈ r.cuts, τ < d → c ≤ d) : After ms c j := by
  subst hj
  intro t ht ht1 hcur hinn
  have hf := hr.faithful j r hi hri
  have hjlt : j - 1 < ms.length := by omega
  have hprev : ms[j - 1]? = some ms[j - 1] := List.getElem?_eq_getElem hjlt
  obtain ⟨s, hs1, hs2, hs3⟩ := before_exists (r.cuts ++ ms[j - 1].cuts) τ c hc
  have hins : InRegion ms s (j + 1) := by
    apply ha s hs1 (by linarith)
    · intro r' hl' hr' d hd hdd
      exact absurd (h1 r' hl' hr' d hd hdd.1) (by linarith [hdd.2])
    · intro r' hl' hr' d hd hdd
      exact absurd (h2 r' hl' hr' d hd hdd.1) (by linarith [hdd.2])
  obtain ⟨_, _, _, hnot⟩ := hins
  refine inRegion_of hr (by linarith) ht1 hri ?_ ?_
  · intro _
    rw [hf.change c hcr s t (by linarith) hs2 ht ht1 ?_, hnot j r (by omega) hri]
    · rfl
    · intro d hd hd1 hd2
      rcases lt_trichotomy d c with h | h | h
      · exact absurd ⟨hd1, h⟩ (hs3 d (List.mem_append.2 (Or.inl hd)))
      · exact h
      · exact absurd ⟨h, hd2⟩ (hcur r hi hri d hd)
  · intro q h0 hq
    have hq' := hq
    rw [hprev] at hq
    cases hq
    have hf2 := hr.faithful (j - 1) _ (by omega) hprev
    rw [← hf2.same s t (by linarith) (by linarith) ht1 ?_]
    · exact hnot (j - 1) _ (by omega) hprev
    · intro d hd hdd
      rcases lt_trichotomy d c with h | h | h
      · exact hs3 d (List.mem_append.2 (Or.inr hd)) ⟨hdd.1, h⟩
      · subst h
        exact hr.apart (j - 1) _ r (by omega) hprev (by rw [show j - 1 + 1 = j by omega]; exact hri) d hd hcr
      · exact hinn _ h0 hprev d hd ⟨h, hdd.2⟩

/-- A place where a region is crossed. -/
def IsCut (ms : List Reg) (c : ℚ) : Prop := ∃ i r, i + 1 < ms.length ∧ ms[i]? = some r ∧ c ∈ r.cuts

theorem chain_cons {In : ℚ → Nat → Prop} {Cut : ℚ → Prop} {τ c : ℚ} {i : Nat} {l : List (ℚ × Nat)} (h1 : τ < c) (h2 : Cut c)
    (h3 : ∀ t, τ < t → t < c → In t i) (h4 : Chain In Cut c l) : Chain In Cut τ ((c, i) :: l) := by
  cases l with
  | nil => exact absurd h4 (by simp [Chain])
  | cons m ms => exact ⟨h1, h2, h3, h4⟩

theorem walk_chain {ms : List Reg} (hr : Regions ms) (f : Nat) : ∀ (τ : ℚ) (xss : List (List ℚ)) (i : Nat) (l : List (ℚ × Nat)),
    0 ≤ τ → Left ms τ xss → i < ms.length → After ms τ i → walk f xss i = some l → Chain (InRegion ms) (IsCut ms) τ l := by
  induction f with
  | zero => intro τ xss i l _ _ _ _ h; cases h
  | succ f ih =>
    intro τ xss i l h0 hl hi ha hw
    unfold walk at hw
    have hlen := hl.len
    rw [if_neg (by omega)] at hw
    have hn := next_spec hl hi
    cases hnx : next xss i with
    | none =>
      rw [hnx] at hn hw
      cases hw
      refine ⟨rfl, ?_⟩
      intro t ht ht1
      apply ha t ht (le_of_lt ht1)
      · intro r hl' hr' c hc hcc
        exact absurd (hn.1 r hl' hr' c hc) (not_le.2 hcc.1)
      · intro r hl' hr' c hc hcc
        exact absurd (hn.2 r hl' hr' c hc) (not_le.2 hcc.1)
    | some p =>
      obtain ⟨c, j⟩ := p
      rw [hnx] at hn hw
      dsimp only at hn hw
      obtain ⟨hc, h1, h2, hj⟩ := hn
      cases hw' : walk f (removePrevious c xss) j with
      | none => rw [hw'] at hw; cases hw
      | some l' =>
        rw [hw'] at hw
        cases hw
        have hbefore : ∀ t, τ < t → t < c → InRegion ms t i := by
          intro t ht htc
          have hc1 : c ≤ 1 := by
            rcases hj with ⟨_, hil, ⟨r, hri, hcr⟩, _⟩ | ⟨hji, ⟨r, hri, hcr⟩, _⟩
            · exact le_of_lt ((hr.faithful i r hil hri).inner c hcr).2
            · exact le_of_lt ((hr.faithful (i - 1) r (by omega) hri).inner c hcr).2
          apply ha t ht (by linarith)
          · intro r hl' hr' d hd hdd
            exact absurd (h1 r hl' hr' d hd hdd.1) (by linarith [hdd.2])
          · intro r hl' hr' d hd hdd
            exact absurd (h2 r hl' hr' d hd hdd.1) (by linarith [hdd.2])
        have hl2 := left_remove hl (le_of_lt hc)
        rcases hj with ⟨hji, hil, ⟨r, hri, hcr⟩, _⟩ | ⟨hji, ⟨r, hri, hcr⟩, _⟩
        · subst hji
          exact chain_cons hc ⟨i, r, hil, hri, hcr⟩ hbefore
            (ih c _ _ _ (by linarith) hl2 hil (after_out hr h0 ha hc hil hri hcr h1 h2) hw')
        · refine chain_cons hc ⟨i - 1, r, by omega, hri, hcr⟩ hbefore
            (ih c _ _ _ (by linarith) hl2 (by omega) (after_in hr h0 hji hi ha hc (by rw [show j = i - 1 by omega]; exact hri) hcr h1 h2) hw')

/-! ### Short pieces, merging -/

/-- The region at a place, given the pieces. -/
def lookup (l : List (ℚ × Nat)) (t : ℚ) : Option Nat := (l.find? fun m => decide (t ≤ m.1)).map Prod.snd

theorem lookup_cons (m : ℚ × Nat) (l : List (ℚ × Nat)) (t : ℚ) : lookup (m :: l) t = if t ≤ m.1 then some m.2 else lookup l t := by
  unfold lookup
  rw [List.find?_cons]
  by_cases h : t ≤ m.1
  · simp [h]
  · simp [h]

theorem lookup_append_right {l k : List (ℚ × Nat)} {t : ℚ} (h : ∀ m ∈ l, m.1 < t) : lookup (l ++ k) t = lookup k t := by
  induction l with
  | nil => rfl
  | cons m l ih =>
    rw [List.cons_append, lookup_cons, if_neg (not_le.2 (h m (by simp))), ih (fun x hx => h x (by simp [hx]))]

theorem lookup_append_left {l k : List (ℚ × Nat)} {t : ℚ} {i : Nat} (h : lookup l t = some i) : lookup (l ++ k) t = some i := by
  induction l with
  | nil => cases h
  | cons m l ih =>
    rw [List.cons_append, lookup_cons]
    rw [lookup_cons] at h
    by_cases hm : t ≤ m.1
    · rw [if_pos hm] at h ⊢; exact h
    · rw [if_neg hm] at h ⊢; exact ih h

theorem lookup_setBack {l : List (ℚ × Nat)} {t b : ℚ} {i : Nat} (hb : t ≤ b) (h : lookup l t = some i) : lookup (setBack l b) t = some i := by
  induction l with
  | nil => cases h
  | cons m l ih =>
    cases l with
    | nil =>
      rw [lookup_cons] at h
      unfold setBack
      rw [lookup_cons, if_pos hb]
      by_cases hm : t ≤ m.1
      · rw [if_pos hm] at h; exact h
      · rw [if_neg hm] at h; cases h
    | cons n l =>
      unfold setBack
      rw [lookup_cons] at h ⊢
      by_cases hm : t ≤ m.1
      · rw [if_pos hm] at h ⊢; exact h
      · rw [if_neg hm] at h ⊢; exact ih h

theorem keep_sublist (pos : ℚ → P3) (cur : P3) (l : List (ℚ × Nat)) : (keep pos cur l).Sublist l := by
  induction l generalizing cur with
  | nil => exact List.Sublist.refl _
  | cons m l ih =>
    unfold keep
    split_ifs
    · exact (ih _).cons_cons m
    · exact (ih _).cons m

/-- The piece of a chain that contains a place. -/
theorem chain_piece {In : ℚ → Nat → Prop} {Cut : ℚ → Prop} {l : List (ℚ × Nat)} {τ t : ℚ} (h : Chain In Cut τ l) (ht : τ < t) (ht1 : t < 1) (hcut : ¬ Cut t) :
    ∃ p c i q s, l = p ++ (c, i) :: q ∧ s = (p.getLast?.map Prod.fst).getD τ ∧ s < t ∧ t < c ∧ (s = τ ∨ Cut s) ∧ (q = [] ∧ c = 1 ∨ Cut c) ∧ In t i
      ∧ (∀ m ∈ p, m.1 ≤ s) ∧ τ ≤ s := by
  induction l generalizing τ with
  | nil => exact absurd h (by simp [Chain])
  | cons m l ih =>
    obtain ⟨c, i⟩ := m
    cases l with
    | nil =>
      obtain ⟨h1, h2⟩ := h
      exact ⟨[], c, i, [], τ, rfl, rfl, ht, by rw [h1]; exact ht1, Or.inl rfl, Or.inl ⟨rfl, h1⟩, h2 t ht (by rw [h1]; exact ht1), by simp, le_refl τ⟩
    | cons n l =>
      obtain ⟨h1, h2, h3, h4⟩ := h
      by_cases hc : t < c
      · exact ⟨[], c, i, n :: l, τ, rfl, rfl, ht, hc, Or.inl rfl, Or.inr h2, h3 t ht hc, by simp, le_refl τ⟩
      · have hlt : c < t := lt_of_le_of_ne (not_lt.1 hc) (fun he => hcut (he ▸ h2))
        obtain ⟨p, c', i', q, s, e1, e2, e3, e4, e5, e6, e7, e8, e9⟩ := ih h4 hlt
        refine ⟨(c, i) :: p, c', i', q, s, by rw [e1]; rfl, ?_, e3, e4, ?_, e6, e7, ?_, by linarith⟩
        · cases p with
          | nil => exact e2
          | cons y ys => rw [e2, List.getLast?_cons_cons]; simp [List.getLast?_cons]
        · rcases e5 with e5 | e5
          · exact Or.inr (e5 ▸ h2)
          · exact Or.inr e5
        · intro m hm
          rcases List.mem_cons.1 hm with hm | hm
          · rw [hm]; exact e9
          · exact e8 m hm

theorem keep_append (pos : ℚ → P3) (τ : ℚ) (p q : List (ℚ × Nat)) :
    keep pos (pos τ) (p ++ q) = keep pos (pos τ) p ++ keep pos (pos ((p.getLast?.map Prod.fst).getD τ)) q := by
  induction p generalizing τ with
  | nil => simp [keep]
  | cons m p ih =>
    have hlast : ((m :: p).getLast?.map Prod.fst).getD τ = (p.getLast?.map Prod.fst).getD m.1 := by
      cases p with
      | nil => rfl
      | cons y ys => rw [List.getLast?_cons_cons]; simp [List.getLast?_cons]
    rw [hlast, List.cons_append, keep, keep, ih m.1]
    split_ifs
    · rfl
    · rfl

/-- A piece that is not too short keeps its region. -/
theorem lookup_filter {pos : ℚ → P3} {p q : List (ℚ × Nat)} {c s t : ℚ} {i : Nat} {l : List (ℚ × Nat)} (hl : l = p ++ (c, i) :: q)
    (hs : s = (p.getLast?.map Prod.fst).getD 0) (hst : s < t) (htc : t < c) (hp : ∀ m ∈ p, m.1 ≤ s) (hd : Spec.dist2 (pos c) (pos s) ≥ 25)
    (ht1 : t ≤ 1) (hlast : ∃ b k, l = b ++ [(1, k)]) : lookup (filterMoves pos l) t = some i := by
  unfold filterMoves
  obtain ⟨b, k, hb⟩ := hlast
  have hgl : l.getLast? = some (1, k) := by rw [hb]; simp
  rw [hgl]
  dsimp only
  have hkeep : ∀ m ∈ keep pos (pos 0) p, m.1 < t := fun m hm => lt_of_le_of_lt (hp m ((keep_sublist _ _ _).subset hm)) hst
  cases hq : q with
  | nil =>
    rw [hq] at hl
    have hdl : l.dropLast = p := by rw [hl]; simp
    have hck : (1, k) = (c, i) := by
      have : l.getLast? = some (c, i) := by rw [hl]; simp
      rw [hgl] at this
      exact Option.some.inj this
    have hc1 : c = 1 := (congrArg Prod.fst hck).symm
    rw [hdl, ← hs, if_pos (Or.inr (by rw [← hc1]; exact hd)), lookup_append_right hkeep, hck, lookup_cons, if_pos (le_of_lt htc)]
  | cons y ys =>
    rw [hq] at hl
    have hdl : l.dropLast = p ++ (c, i) :: (y :: ys).dropLast := by
      rw [hl, List.dropLast_append_cons, List.dropLast_cons_of_ne_nil (by simp)]
    rw [hdl, keep_append, ← hs]
    have hk : keep pos (pos s) ((c, i) :: (y :: ys).dropLast) = (c, i) :: keep pos (pos c) (y :: ys).dropLast := by
      rw [keep, if_pos hd]
    rw [hk]
    have hlk : lookup (keep pos (pos 0) p ++ (c, i) :: keep pos (pos c) (y :: ys).dropLast) t = some i := by
      rw [lookup_append_right hkeep, lookup_cons, if_pos (le_of_lt htc)]
    split_ifs
    · exact lookup_append_left hlk
    · exact lookup_setBack ht1 hlk

/-- Merging keeps the speed everywhere. -/
theorem mergeFrom_lookup (speed : Nat → ℚ) (m : ℚ × Nat) (l : List (ℚ × Nat)) (t : ℚ) (h : (m :: l).Pairwise (fun a b => a.1 ≤ b.1)) :
    (lookup (mergeFrom speed m l) t).map speed = (lookup (m :: l) t).map speed := by
  induction l generalizing m with
  | nil => rfl
  | cons x l ih =>
    rw [List.pairwise_cons] at h
    obtain ⟨h1, h2⟩ := h
    have hx := h1 x (by simp)
    unfold mergeFrom
    by_cases he : speed x.2 = speed m.2
    · rw [if_pos he, ih (x.1, m.2) (by rw [List.pairwise_cons] at h2 ⊢; exact h2)]
      rw [lookup_cons, lookup_cons, lookup_cons]
      dsimp only
      by_cases hm : t ≤ m.1
      · rw [if_pos hm, if_pos (le_trans hm hx)]
      · rw [if_neg hm]
        by_cases hxt : t ≤ x.1
        · rw [if_pos hxt, if_pos hxt, Option.map_some, Option.map_some, he]
        · rw [if_neg hxt, if_neg hxt]
    · rw [if_neg he, lookup_cons, lookup_cons]
      by_cases hm : t ≤ m.1
      · rw [if_pos hm, if_pos hm]
      · rw [if_neg hm, if_neg hm, ih x h2]

/-! ### Order of the pieces -/

/-- Nondecreasing, not before `τ`, ending with 1. -/
def Asc (τ : ℚ) (l : List (ℚ × Nat)) : Prop := l.Pairwise (fun a b => a.1 ≤ b.1) ∧ (∀ m ∈ l, τ ≤ m.1 ∧ m.1 ≤ 1) ∧ ∃ b k, l = b ++ [(1, k)]

theorem walk_asc {ms : List Reg} (hcuts : ∀ i r, i + 1 < ms.length → ms[i]? = some r → ∀ c ∈ r.cuts, 0 ≤ c ∧ c ≤ 1) (f : Nat) :
    ∀ (τ : ℚ) (xss : List (List ℚ)) (i : Nat) (l : List (ℚ × Nat)),
    τ ≤ 1 → Left ms τ xss → i < ms.length → walk f xss i = some l → Asc τ l ∧ ∀ m ∈ l, 0 ≤ m.1 := by
  induction f with
  | zero => intro τ xss i l _ _ _ h; cases h
  | succ f ih =>
    intro τ xss i l h0 hl hi hw
    unfold walk at hw
    have hlen := hl.len
    rw [if_neg (by omega)] at hw
    have hn := next_spec hl hi
    cases hnx : next xss i with
    | none =>
      rw [hnx] at hw
      cases hw
      exact ⟨⟨by simp, by simpa using h0, [], i, rfl⟩, by simp⟩
    | some p =>
      obtain ⟨c, j⟩ := p
      rw [hnx] at hn hw
      dsimp only at hn hw
      obtain ⟨hc, h1, h2, hj⟩ := hn
      cases hw' : walk f (removePrevious c xss) j with
      | none => rw [hw'] at hw; cases hw
      | some l' =>
        rw [hw'] at hw
        cases hw
        have hc01 : 0 ≤ c ∧ c ≤ 1 := by
          rcases hj with ⟨_, hil, ⟨r, hri, hcr⟩, _⟩ | ⟨hji, ⟨r, hri, hcr⟩, _⟩
          · exact hcuts i r hil hri c hcr
          · exact hcuts (i - 1) r (by omega) hri c hcr
        have hc1 := hc01.2
        have hjl : j < ms.length := by
          rcases hj with ⟨e, hil, _⟩ | ⟨hji, _⟩ <;> omega
        obtain ⟨⟨g1, g2, b, k, g3⟩, g4⟩ := ih c _ _ _ hc1 (left_remove hl (le_of_lt hc)) hjl hw'
        refine ⟨⟨?_, ?_, (c, i) :: b, k, by rw [g3]; rfl⟩, ?_⟩
        · rw [List.pairwise_cons]
          exact ⟨fun m hm => (g2 m hm).1, g1⟩
        · intro m hm
          rcases List.mem_cons.1 hm with hm | hm
          · rw [hm]; exact ⟨le_of_lt hc, hc1⟩
          · exact ⟨le_trans (le_of_lt hc) (g2 m hm).1, (g2 m hm).2⟩
        · intro m hm
          rcases List.mem_cons.1 hm with hm | hm
          · rw [hm]; exact hc01.1
          · exact g4 m hm

theorem setBack_spec (l : List (ℚ × Nat)) (hne : l ≠ []) (h : l.Pairwise (fun a b => a.1 ≤ b.1)) (τ : ℚ) (hb : ∀ m ∈ l, τ ≤ m.1 ∧ m.1 ≤ 1) :
    Asc τ (setBack l 1) ∧ ∀ m ∈ setBack l 1, ∃ n ∈ l, n.2 = m.2 := by
  induction l generalizing τ with
  | nil => exact absurd rfl hne
  | cons m l ih =>
    cases l with
    | nil =>
      have := hb m (by simp)
      refine ⟨⟨by simp [setBack], ?_, [], m.2, rfl⟩, ?_⟩
      · intro x hx
        have : x = (1, m.2) := by simpa [setBack] using hx
        rw [this]; exact ⟨by linarith [(hb m (by simp)).1, (hb m (by simp)).2], le_refl _⟩
      · intro x hx
        have : x = (1, m.2) := by simpa [setBack] using hx
        exact ⟨m, by simp, by rw [this]⟩
    | cons n l =>
      rw [List.pairwise_cons] at h
      obtain ⟨⟨g1, g2, b, k, g3⟩, g4⟩ := ih (by simp) h.2 m.1 (fun x hx => ⟨h.1 x hx, (hb x (List.mem_cons_of_mem _ hx)).2⟩)
      unfold setBack
      refine ⟨⟨?_, ?_, m :: b, k, by rw [g3]; rfl⟩, ?_⟩
      · rw [List.pairwise_cons]
        exact ⟨fun x hx => (g2 x hx).1, g1⟩
      · intro x hx
        rcases List.mem_cons.1 hx with hx | hx
        · rw [hx]; exact hb m (by simp)
        · exact ⟨le_trans (hb m (by simp)).1 (g2 x hx).1, (g2 x hx).2⟩
      · intro x hx
        rcases List.mem_cons.1 hx with hx | hx
        · exact ⟨m, by simp, by rw [hx]⟩
        · obtain ⟨y, hy, he⟩ := g4 x hx
          exact ⟨y, List.mem_cons_of_mem _ hy, he⟩

theorem filter_asc {pos : ℚ → P3} {l : List (ℚ × Nat)} (h : Asc 0 l) : Asc 0 (filterMoves pos l) := by
  obtain ⟨h1, h2, b, k, h3⟩ := h
  have hgl : l.getLast? = some (1, k) := by rw [h3]; simp
  have hdl : l.dropLast = b := by rw [h3]; simp
  unfold filterMoves
  rw [hgl]
  dsimp only
  rw [hdl]
  have hsub := keep_sublist pos (pos 0) b
  have hkb : ∀ m ∈ keep pos (pos 0) b, 0 ≤ m.1 ∧ m.1 ≤ 1 := fun m hm => h2 m (by rw [h3]; exact List.mem_append.2 (Or.inl (hsub.subset hm)))
  have hkp : (keep pos (pos 0) b ++ [((1 : ℚ), k)]).Pairwise (fun (a b : ℚ × Nat) => a.1 ≤ b.1) := by
    rw [h3] at h1
    exact h1.sublist (List.Sublist.append hsub (List.Sublist.refl _))
  by_cases hc : (keep pos (pos 0) b).isEmpty = true ∨ Spec.dist2 (pos 1) (pos ((b.getLast?.map Prod.fst).getD 0)) ≥ 25
  · rw [if_pos hc]
    refine ⟨hkp, ?_, _, k, rfl⟩
    intro m hm
    rcases List.mem_append.1 hm with hm | hm
    · exact hkb m hm
    · have : m = (1, k) := by simpa using hm
      rw [this]; exact ⟨by norm_num, le_refl _⟩
  · rw [if_neg hc]
    have hne : keep pos (pos 0) b ≠ [] := fun he => hc (Or.inl (by rw [he]; rfl))
    exact (setBack_spec _ hne (hkp.sublist (List.sublist_append_left _ _)) 0 hkb).1

theorem mergeFrom_asc (speed : Nat → ℚ) (m : ℚ × Nat) (l : List (ℚ × Nat)) (τ : ℚ) (h : Asc τ (m :: l)) :
    Asc τ (mergeFrom speed m l) ∧ ((mergeFrom speed m l).map fun x => speed x.2).IsChain (· ≠ ·) ∧ ∃ x q, mergeFrom speed m l = x :: q ∧ speed x.2 = speed m.2 := by
  induction l generalizing m τ with
  | nil => exact ⟨h, by simp [mergeFrom], m, [], rfl, rfl⟩
  | cons x l ih =>
    obtain ⟨h1, h2, b, k, h3⟩ := h
    have h1' := List.pairwise_cons.1 h1
    have hne : b ≠ [] := by rintro rfl; simp at h3
    obtain ⟨b', hb'⟩ : ∃ b', b = m :: b' := by
      cases b with
      | nil => exact absurd rfl hne
      | cons y ys => exact ⟨ys, by rw [List.cons_append] at h3; rw [(List.cons.inj h3).1]⟩
    have h3' : x :: l = b' ++ [(1, k)] := by rw [hb', List.cons_append] at h3; exact (List.cons.inj h3).2
    unfold mergeFrom
    by_cases he : speed x.2 = speed m.2
    · rw [if_pos he]
      have hasc : Asc τ ((x.1, m.2) :: l) := by
        refine ⟨?_, ?_, ?_⟩
        · have := List.pairwise_cons.1 h1'.2
          rw [List.pairwise_cons]; exact this
        · intro y hy
          rcases List.mem_cons.1 hy with hy | hy
          · rw [hy]; exact h2 x (by simp)
          · exact h2 y (by simp [hy])
        · cases b' with
          | nil =>
            have h5 : x = (1, k) ∧ l = [] := by simpa using h3'
            exact ⟨[], m.2, by rw [h5.1, h5.2]; rfl⟩
          | cons y ys =>
            rw [List.cons_append] at h3'
            exact ⟨(x.1, m.2) :: ys, k, by rw [(List.cons.inj h3').2]; rfl⟩
      obtain ⟨g1, g2, y, q, g3, g4⟩ := ih (x.1, m.2) τ hasc
      exact ⟨g1, g2, y, q, g3, g4⟩
    · rw [if_neg he]
      obtain ⟨⟨g1, g2, b2, k2, g3⟩, g4, y, q, g5, g6⟩ := ih x m.1 ⟨h1'.2, fun y hy => ⟨h1'.1 y hy, (h2 y (by simp [hy])).2⟩, b', k, h3'⟩
      refine ⟨⟨?_, ?_, m :: b2, k2, by rw [g3]; rfl⟩, ?_, m, _, rfl, rfl⟩
      · rw [List.pairwise_cons]
        exact ⟨fun y hy => (g2 y hy).1, g1⟩
      · intro y hy
        rcases List.mem_cons.1 hy with hy | hy
        · rw [hy]; exact h2 m (by simp)
        · exact ⟨le_trans (h2 m (by simp)).1 (g2 y hy).1, (g2 y hy).2⟩
      · rw [g5] at g4 ⊢
        rw [List.map_cons, List.map_cons, List.isChain_cons_cons]
        refine ⟨?_, by rw [List.map_cons] at g4; exact g4⟩
        rw [g6]
        exact fun h => he h.symm

/-! ## The longest overhang -/

theorem foldl_update (ms : List (Nat × Bool)) : ∀ s : Track, (s.now = false → s.cur = 0) →
    ((ms.foldl update s).now = false → (ms.foldl update s).cur = 0)
    ∧ max (ms.foldl update s).cur (ms.foldl update s).max = max ((runs s.cur ms).foldr max 0) s.max := by
  induction ms with
  | nil => intro s hs; exact ⟨hs, by simp [runs]⟩
  | cons m ms ih =>
    intro s hs
    rw [List.foldl_cons]
    obtain ⟨l, o⟩ := m
    obtain ⟨now, cur, mx⟩ := s
    cases o <;> cases now
    · have h0 : cur = 0 := hs rfl
      subst h0
      obtain ⟨h1, h2⟩ := ih (update ⟨false, 0, mx⟩ (l, false)) (by simp [update])
      refine ⟨h1, ?_⟩
      rw [h2]
      simp [update, runs]
    · obtain ⟨h1, h2⟩ := ih (update ⟨true, cur, mx⟩ (l, false)) (by simp [update])
      refine ⟨h1, ?_⟩
      rw [h2]
      simp only [update, runs, List.foldr_cons]
      simp
      omega
    · have h0 : cur = 0 := hs rfl
      subst h0
      obtain ⟨h1, h2⟩ := ih (update ⟨false, 0, mx⟩ (l, true)) (by simp [update])
      refine ⟨h1, ?_⟩
      rw [h2]
      simp [update, runs]
    · obtain ⟨h1, h2⟩ := ih (update ⟨true, cur, mx⟩ (l, true)) (by simp [update])
      refine ⟨h1, ?_⟩
      rw [h2]
      simp [update, runs]

/-! ## The regions -/

theorem lastOfChunks_ne (m : ℚ × ℚ × Bool) (l : List (ℚ × ℚ × Bool)) : ∃ x xs, lastOfChunks m l = x :: xs := by
  induction l generalizing m with
  | nil => exact ⟨_, _, rfl⟩
  | cons y ys ih =>
    unfold lastOfChunks
    split_ifs
    · exact ih y
    · exact ⟨_, _, rfl⟩

theorem pointSpeed_none {supported : ℚ → Prop} {L : ℚ} (l : List (ℚ × ℚ)) (hne : l ≠ []) (h1 : ∀ y ∈ l, ¬ supported y.1) (h2 : ∀ y ∈ l, y.2 = L) : pointSpeed supported l = L := by
  classical
  induction l with
  | nil => exact absurd rfl hne
  | cons m l ih =>
    cases l with
    | nil => rw [pointSpeed]; exact h2 m (by simp)
    | cons n l =>
      rw [pointSpeed, if_neg (h1 m (by simp))]
      exact ih (by simp) (fun y hy => h1 y (List.mem_cons_of_mem _ hy)) (fun y hy => h2 y (List.mem_cons_of_mem _ hy))

theorem pointSpeed_append {supported : ℚ → Prop} (A : List (ℚ × ℚ)) (z : ℚ × ℚ) :
    (∃ before a f after, A = before ++ (a, f) :: after ∧ (∀ b ∈ before, ¬ supported b.1) ∧ supported a ∧ pointSpeed supported (A ++ [z]) = f)
    ∨ ((∀ b ∈ A, ¬ supported b.1) ∧ pointSpeed supported (A ++ [z]) = z.2) := by
  classical
  induction A with
  | nil => exact Or.inr ⟨by simp, rfl⟩
  | cons m A ih =>
    have hstep : pointSpeed supported (m :: A ++ [z]) = if supported m.1 then m.2 else pointSpeed supported (A ++ [z]) := by
      cases A with
      | nil => rfl
      | cons n A => rfl
    rw [hstep]
    by_cases hm : supported m.1
    · rw [if_pos hm]
      exact Or.inl ⟨[], m.1, m.2, A, rfl, by simp, hm, rfl⟩
    · rw [if_neg hm]
      rcases ih with ⟨b, a, f, c, h1, h2, h3, h4⟩ | ⟨h1, h2⟩
      · refine Or.inl ⟨m :: b, a, f, c, by rw [h1]; rfl, ?_, h3, h4⟩
        intro x hx
        rcases List.mem_cons.1 hx with hx | hx
        · rw [hx]; exact hm
        · exact h2 x hx
      · refine Or.inr ⟨?_, h2⟩
        intro x hx
        rcases List.mem_cons.1 hx with hx | hx
        · rw [hx]; exact hm
        · exact h1 x hx

/-- The speed of a point before merging: that of the first region that has it; the last one has all. -/
theorem pointSpeed_chunks {supported : ℚ → Prop} (hmono : ∀ a b, a ≤ b → b < 90 → supported a → supported b) (hno : ∀ a, 90 ≤ a → ¬ supported a)
    {L : ℚ} (m : ℚ × ℚ × Bool) (l : List (ℚ × ℚ × Bool)) (hs : (m :: l).Pairwise (fun a b => a.1 ≤ b.1)) (hL : ∀ y ∈ m :: l, 90 ≤ y.1 → y.2.1 = L) :
    pointSpeed supported (lastOfChunks m l) = pointSpeed supported ((m :: l).map fun x => (x.1, x.2.1)) := by
  classical
  induction l generalizing m with
  | nil => rfl
  | cons x l ih =>
    have hs' := List.pairwise_cons.1 hs
    have hih := ih x hs'.2 (fun y hy => hL y (List.mem_cons_of_mem _ hy))
    unfold lastOfChunks
    rw [List.map_cons, List.map_cons]
    by_cases hc : m.2.2 = true ∧ x.2.2 = true ∧ m.2.1 = x.2.1
    · rw [if_pos hc, hih, pointSpeed]
      by_cases hm : supported m.1
      · rw [if_pos hm]
        by_cases h90 : x.1 < 90
        · have hx : supported x.1 := hmono _ _ (hs'.1 x (by simp)) h90 hm
          rw [hc.2.2]
          cases l with
          | nil => rfl
          | cons y ys => rw [List.map_cons, List.map_cons, pointSpeed, if_pos hx]
        · have hge : ∀ y ∈ x :: l, 90 ≤ y.1 := by
            intro y hy
            rcases List.mem_cons.1 hy with hy | hy
            · rw [hy]; exact not_lt.1 h90
            · exact le_trans (not_lt.1 h90) ((List.pairwise_cons.1 hs'.2).1 y hy)
          have hx : m.2.1 = L := by rw [hc.2.2]; exact hL x (by simp) (not_lt.1 h90)
          dsimp only
          rw [hx]
          apply pointSpeed_none
          · simp
          · intro y hy
            obtain ⟨z, hz, he⟩ := List.mem_map.1 hy
            rw [← he]
            exact hno _ (hge z hz)
          · intro y hy
            obtain ⟨z, hz, he⟩ := List.mem_map.1 hy
            rw [← he]
            exact hL z (List.mem_cons_of_mem _ hz) (hge z hz)
      · rw [if_neg hm, List.map_cons]
    · rw [if_neg hc]
      obtain ⟨y, ys, hy⟩ := lastOfChunks_ne x l
      rw [hy, pointSpeed, pointSpeed]
      rw [hy, List.map_cons] at hih
      rw [hih]

end Verif.Overhang
