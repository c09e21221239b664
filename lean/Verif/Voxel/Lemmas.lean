import Verif.Voxel.Model
import Mathlib.Tactic.Linarith
import Mathlib.Tactic.FieldSimp
import Mathlib.Tactic.Positivity
import Mathlib.Tactic.Ring

/-! # Voxels: lemmas -/

namespace Verif.Voxel

open Spec

/-- The cell of a coordinate has it, at least on its border. -/
theorem toGrid_spec (c x : Int) (hc : 0 < c) : toGrid c x * c ≤ x ∧ x ≤ (toGrid c x + 1) * c := by
  rw [toGrid]
  split
  · rename_i hx
    have h : x.tdiv c = -((-x) / c) := by
      rw [← Int.tdiv_eq_ediv_of_nonneg (by omega), Int.neg_tdiv, Int.neg_neg]
    rw [h]
    have h1 := Int.mul_ediv_add_emod (-x) c
    have h2 := Int.emod_nonneg (-x) (show c ≠ 0 by omega)
    have h3 := Int.emod_lt_of_pos (-x) hc
    generalize (-x) / c = q at *
    constructor <;> nlinarith
  · rename_i hx
    rw [Int.tdiv_eq_ediv_of_nonneg (by omega)]
    have h1 := Int.mul_ediv_add_emod x c
    have h2 := Int.emod_nonneg x (show c ≠ 0 by omega)
    have h3 := Int.emod_lt_of_pos x hc
    generalize x / c = q at *
    constructor <;> nlinarith

/-- Which dimension is taken. -/
theorem exit_spec (size start diff cell : P3) :
    match exit size start diff cell with
    | none => ∀ d, diff d = 0
    | some (d, q) => diff d ≠ 0 ∧ q = leaves size start diff cell d ∧ ∀ d', diff d' ≠ 0 → q ≤ leaves size start diff cell d' := by
  have key : ∀ (l : List (Fin 3)) (best : Option (Fin 3 × Rat)) (seen : Fin 3 → Prop),
      (match best with
        | none => ∀ d, seen d → diff d = 0
        | some (d, q) => diff d ≠ 0 ∧ q = leaves size start diff cell d ∧ ∀ d', seen d' → diff d' ≠ 0 → q ≤ leaves size start diff cell d') →
      (match l.foldl (better size start diff cell) best with
        | none => ∀ d, (seen d ∨ d ∈ l) → diff d = 0
        | some (d, q) => diff d ≠ 0 ∧ q = leaves size start diff cell d ∧ ∀ d', (seen d' ∨ d' ∈ l) → diff d' ≠ 0 → q ≤ leaves size start diff cell d') := by
    intro l
    induction l with
    | nil => intro best seen h; simpa using h
    | cons x xs ih =>
      intro best seen h
      rw [List.foldl_cons]
      have hx : (match better size start diff cell best x with
        | none => ∀ d, (seen d ∨ d = x) → diff d = 0
        | some (d, q) => diff d ≠ 0 ∧ q = leaves size start diff cell d ∧ ∀ d', (seen d' ∨ d' = x) → diff d' ≠ 0 → q ≤ leaves size start diff cell d') := by
        rw [better]
        by_cases h0 : diff x = 0
        · rw [if_pos h0]
          cases best with
          | none =>
            dsimp only at h ⊢
            rintro d (hd | rfl)
            · exact h d hd
            · exact h0
          | some b =>
            obtain ⟨b, r⟩ := b
            dsimp only at h ⊢
            refine ⟨h.1, h.2.1, ?_⟩
            rintro d' (hd | rfl) hne
            · exact h.2.2 d' hd hne
            · exact absurd h0 hne
        · rw [if_neg h0]
          cases best with
          | none =>
            dsimp only at h ⊢
            refine ⟨h0, rfl, ?_⟩
            rintro d' (hd | rfl) hne
            · exact absurd (h d' hd) hne
            · exact le_refl _
          | some b =>
            obtain ⟨b, r⟩ := b
            dsimp only at h ⊢
            by_cases hq : leaves size start diff cell x < r
            · rw [if_pos hq]
              dsimp only
              refine ⟨h0, rfl, ?_⟩
              rintro d' (hd | rfl) hne
              · exact le_trans (le_of_lt hq) (h.2.2 d' hd hne)
              · exact le_refl _
            · rw [if_neg hq]
              dsimp only
              refine ⟨h.1, h.2.1, ?_⟩
              rintro d' (hd | rfl) hne
              · exact h.2.2 d' hd hne
              · exact not_lt.1 hq
      have := ih (better size start diff cell best x) (fun d => seen d ∨ d = x) hx
      cases hr : xs.foldl (better size start diff cell) (better size start diff cell best x) with
      | none =>
        rw [hr] at this
        dsimp only at this ⊢
        intro d hd
        exact this d (by rw [List.mem_cons] at hd; tauto)
      | some r =>
        obtain ⟨r1, r2⟩ := r
        rw [hr] at this
        dsimp only at this ⊢
        refine ⟨this.1, this.2.1, ?_⟩
        intro d hd
        exact this.2.2 d (by rw [List.mem_cons] at hd; tauto)
  have := key [0, 1, 2] none (fun _ => False) (by intro d hd; exact hd.elim)
  rw [exit]
  have hm : ∀ d : Fin 3, d ∈ ([0, 1, 2] : List (Fin 3)) := by decide
  cases hr : [0, 1, 2].foldl (better size start diff cell) none with
  | none =>
    rw [hr] at this
    exact fun d => this d (Or.inr (hm d))
  | some r =>
    obtain ⟨r1, r2⟩ := r
    rw [hr] at this
    exact ⟨this.1, this.2.1, fun d' => this.2.2 d' (Or.inr (hm d'))⟩

/-- Where the line leaves a cell, in one dimension. -/
theorem leaves_mul {size start diff cell : P3} {d : Fin 3} (h : diff d ≠ 0) :
    (start d : Rat) + leaves size start diff cell d * diff d = cell d * size d + if 0 < diff d then (size d : Rat) else 0 := by
  have h' : (diff d : Rat) ≠ 0 := by exact_mod_cast h
  rw [leaves, div_mul_cancel₀ _ h']
  split <;> push_cast <;> ring

/-- Until the line leaves the cell it is in it. -/
theorem stays {size start diff cell : P3} {t0 t : Rat} (h : In size cell (along start diff t0)) (h0 : t0 ≤ t)
    (h1 : ∀ d, diff d ≠ 0 → t ≤ leaves size start diff cell d) : In size cell (along start diff t) := by
  intro d
  obtain ⟨a, b⟩ := h d
  simp only [along] at a b ⊢
  rcases lt_trichotomy (diff d) 0 with hd | hd | hd
  · have hl := leaves_mul (size := size) (start := start) (cell := cell) (show diff d ≠ 0 by omega)
    rw [if_neg (by omega)] at hl
    have hd' : (diff d : Rat) < 0 := by exact_mod_cast hd
    have h2 := h1 d (by omega)
    constructor
    · nlinarith
    · nlinarith
  · rw [hd] at a b ⊢
    simp only [Int.cast_zero, mul_zero, add_zero] at a b ⊢
    exact ⟨a, b⟩
  · have hl := leaves_mul (size := size) (start := start) (cell := cell) (show diff d ≠ 0 by omega)
    rw [if_pos hd] at hl
    have hd' : (0 : Rat) < diff d := by exact_mod_cast hd
    have h2 := h1 d (by omega)
    constructor
    · nlinarith
    · nlinarith

/-- The line leaves a cell only after it was in it. -/
theorem leaves_ge {size start diff cell : P3} {t0 : Rat} {d : Fin 3} (h : In size cell (along start diff t0)) (hd : diff d ≠ 0) : t0 ≤ leaves size start diff cell d := by
  obtain ⟨a, b⟩ := h d
  simp only [along] at a b
  have hl := leaves_mul (size := size) (start := start) (cell := cell) hd
  rcases lt_or_gt_of_ne hd with hd | hd
  · rw [if_neg (by omega)] at hl
    have hd' : (diff d : Rat) < 0 := by exact_mod_cast hd
    by_contra hc
    nlinarith
  · rw [if_pos hd] at hl
    have hd' : (0 : Rat) < diff d := by exact_mod_cast hd
    by_contra hc
    nlinarith

/-- The next cell. -/
def next (diff cell : P3) (d : Fin 3) : P3 := fun d' => if d' = d then cell d' + (if 0 < diff d then 1 else -1) else cell d'

theorem next_in {size start diff cell : P3} {d : Fin 3} (hs : ∀ d, 0 < size d) (h : In size cell (along start diff (leaves size start diff cell d))) (hd : diff d ≠ 0) :
    In size (next diff cell d) (along start diff (leaves size start diff cell d)) := by
  intro d'
  by_cases he : d' = d
  · subst he
    have hl := leaves_mul (size := size) (start := start) (cell := cell) hd
    have hs' : (0 : Rat) < size d' := by exact_mod_cast hs d'
    simp only [along, next, if_true]
    rw [hl]
    split
    · push_cast
      constructor <;> nlinarith
    · push_cast
      constructor <;> nlinarith
  · simp only [next, if_neg he]
    exact h d'

/-- How many rounds there are left, at most. -/
def left (size end' diff cell : P3) (d : Fin 3) : Nat :=
  if 0 < diff d then (end' d / size d - cell d).toNat else if diff d < 0 then (cell d + (-end' d) / size d + 1).toNat else 0

def total (size end' diff cell : P3) : Nat := left size end' diff cell 0 + left size end' diff cell 1 + left size end' diff cell 2

theorem left_next {size start diff cell : P3} {d : Fin 3} (hs : ∀ d, 0 < size d) (hd : diff d ≠ 0) (hq : ¬ 1 < leaves size start diff cell d) :
    total size (fun d => start d + diff d) diff (next diff cell d) < total size (fun d => start d + diff d) diff cell := by
  have hl := leaves_mul (size := size) (start := start) (cell := cell) hd
  have hstep : left size (fun d => start d + diff d) diff (next diff cell d) d < left size (fun d => start d + diff d) diff cell d := by
    have hsd := hs d
    rcases lt_or_gt_of_ne hd with h | h
    · rw [if_neg (by omega)] at hl
      have hd' : (diff d : Rat) < 0 := by exact_mod_cast h
      have h1 : (start d : Rat) + diff d ≤ cell d * size d := by nlinarith
      have h2 : start d + diff d ≤ cell d * size d := by exact_mod_cast h1
      have h3 : -cell d ≤ (-(start d + diff d)) / size d := by
        rw [Int.le_ediv_iff_mul_le hsd]
        linarith
      simp only [left, next, if_true, if_neg (show ¬ 0 < diff d by omega), if_pos h]
      omega
    · rw [if_pos h] at hl
      have hd' : (0 : Rat) < diff d := by exact_mod_cast h
      have h1 : (cell d * size d + size d : Rat) ≤ start d + diff d := by nlinarith
      have h2 : cell d * size d + size d ≤ start d + diff d := by exact_mod_cast h1
      have h3 : cell d + 1 ≤ (start d + diff d) / size d := by
        rw [Int.le_ediv_iff_mul_le hsd]
        linarith
      simp only [left, next, if_true, if_pos h]
      omega
  have hother : ∀ d', d' ≠ d → left size (fun d => start d + diff d) diff (next diff cell d) d' = left size (fun d => start d + diff d) diff cell d' := by
    intro d' he
    simp only [left, next, if_neg he]
  have h3 : ∀ d : Fin 3, d = 0 ∨ d = 1 ∨ d = 2 := by decide
  rw [total, total]
  rcases h3 d with rfl | rfl | rfl
  · rw [hother 1 (by decide), hother 2 (by decide)]; omega
  · rw [hother 0 (by decide), hother 2 (by decide)]; omega
  · rw [hother 0 (by decide), hother 1 (by decide)]; omega

/-- The loop, from a place on the line. -/
theorem walkLoop_spec {size start diff : P3} (hs : ∀ d, 0 < size d) (hd : ∃ d, diff d ≠ 0) {n : Nat} {cell : P3} {t0 : Rat} (h0 : 0 ≤ t0) (ht : t0 ≤ 1)
    (hin : In size cell (along start diff t0)) (hn : total size (fun d => start d + diff d) diff cell < n) :
    ∃ l, walkLoop size start diff n cell = some l ∧ l.head? = some cell ∧
      (∀ t, t0 ≤ t → t ≤ 1 → ∃ v ∈ l, In size v (along start diff t)) ∧ (∀ v ∈ l, ∃ t, t0 ≤ t ∧ t ≤ 1 ∧ In size v (along start diff t)) ∧
      l.IsChain Beside ∧ (l.Nodup ∧ ∀ v ∈ l, total size (fun d => start d + diff d) diff v ≤ total size (fun d => start d + diff d) diff cell) ∧ ∃ v, l.getLast? = some v ∧ In size v (along start diff 1) := by
  induction n generalizing cell t0 with
  | zero => omega
  | succ n ih =>
    have he := exit_spec size start diff cell
    rw [walkLoop]
    cases hx : exit size start diff cell with
    | none =>
      rw [hx] at he
      obtain ⟨d, hd⟩ := hd
      exact absurd (he d) hd
    | some r =>
      obtain ⟨d, q⟩ := r
      rw [hx] at he
      dsimp only at he ⊢
      obtain ⟨e1, e2, e3⟩ := he
      have hq0 : t0 ≤ q := by rw [e2]; exact leaves_ge hin e1
      by_cases hq : 1 < q
      · rw [if_pos hq]
        have hall : ∀ t, t0 ≤ t → t ≤ 1 → In size cell (along start diff t) := fun t h1 h2 => stays hin h1 fun d' hd' => le_trans h2 (le_trans (le_of_lt hq) (e3 d' hd'))
        refine ⟨[cell], rfl, rfl, fun t h1 h2 => ⟨cell, by simp, hall t h1 h2⟩, ?_, List.IsChain.singleton _, ⟨List.nodup_singleton _, by intro v hv; rw [List.mem_singleton] at hv; rw [hv]⟩, cell, rfl, hall 1 ht (le_refl _)⟩
        intro v hv
        rw [List.mem_singleton] at hv
        subst hv
        exact ⟨t0, le_refl _, ht, hin⟩
      · rw [if_neg hq]
        have hall : ∀ t, t0 ≤ t → t ≤ q → In size cell (along start diff t) := fun t h1 h2 => stays hin h1 fun d' hd' => le_trans h2 (e3 d' hd')
        have hnext : In size (next diff cell d) (along start diff q) := by
          have := hall q hq0 (le_refl _)
          rw [e2] at this ⊢
          exact next_in hs this e1
        have hlt := left_next (size := size) (start := start) (cell := cell) hs e1 (by rw [← e2]; exact hq)
        obtain ⟨l, l1, l2, l3, l4, l5, ⟨l7, l8⟩, l6⟩ := ih (cell := next diff cell d) (t0 := q) (le_trans h0 hq0) (not_lt.1 hq) hnext (by omega)
        refine ⟨cell :: l, ?_, rfl, ?_, ?_, ?_, ⟨?_, ?_⟩, ?_⟩
        · change (walkLoop size start diff n (next diff cell d)).map _ = _
          rw [l1]
          rfl
        · intro t h1 h2
          by_cases htq : t ≤ q
          · exact ⟨cell, by simp, hall t h1 htq⟩
          · obtain ⟨v, hv, hv'⟩ := l3 t (le_of_not_ge htq) h2
            exact ⟨v, List.mem_cons_of_mem _ hv, hv'⟩
        · intro v hv
          rcases List.mem_cons.1 hv with rfl | hv
          · exact ⟨t0, le_refl _, ht, hin⟩
          · obtain ⟨t, a, b, c⟩ := l4 v hv
            exact ⟨t, le_trans hq0 a, b, c⟩
        · cases l with
          | nil => simp at l2
          | cons x xs =>
            simp only [List.head?_cons, Option.some.injEq] at l2
            subst l2
            refine List.IsChain.cons_cons ?_ l5
            refine ⟨d, ?_, ?_⟩
            · simp only [next, if_true]
              split
              · exact Or.inl rfl
              · exact Or.inr (by omega)
            · intro d' hne
              simp only [next, if_neg hne]
        · refine List.nodup_cons.2 ⟨fun hmem => ?_, l7⟩
          have := l8 cell hmem
          omega
        · intro v hv
          rcases List.mem_cons.1 hv with rfl | hv
          · exact le_refl _
          · have := l8 v hv
            omega
        · obtain ⟨v, v1, v2⟩ := l6
          exact ⟨v, by rw [List.getLast?_cons, v1]; rfl, v2⟩

theorem walkLoop_mono {size start diff : P3} {n n' : Nat} {cell : P3} {l : List P3} (h : walkLoop size start diff n cell = some l) (hn : n ≤ n') : walkLoop size start diff n' cell = some l := by
  induction n generalizing n' cell l with
  | zero => simp [walkLoop] at h
  | succ n ih =>
    obtain ⟨m, rfl⟩ : ∃ m, n' = m + 1 := ⟨n' - 1, by omega⟩
    rw [walkLoop] at h ⊢
    cases hx : exit size start diff cell with
    | none => rw [hx] at h; simp at h
    | some r =>
      obtain ⟨d, q⟩ := r
      rw [hx] at h
      dsimp only at h ⊢
      by_cases hq : 1 < q
      · rw [if_pos hq] at h ⊢
        exact h
      · rw [if_neg hq] at h ⊢
        rw [Option.map_eq_some_iff] at h ⊢
        obtain ⟨l', h1, h2⟩ := h
        exact ⟨l', ih h1 (by omega), h2⟩

/-- A cell has all places between two it has. -/
theorem in_between {size cell start diff : P3} (h0 : In size cell (along start diff 0)) (h1 : In size cell (along start diff 1)) {t : Rat} (a : 0 ≤ t) (b : t ≤ 1) :
    In size cell (along start diff t) := by
  intro d
  obtain ⟨p, q⟩ := h0 d
  obtain ⟨r, s⟩ := h1 d
  simp only [along] at p q r s ⊢
  constructor <;> nlinarith

theorem toCell_in (size p : P3) (hs : ∀ d, 0 < size d) : In size (toCell size p) fun d => p d := by
  intro d
  obtain ⟨a, b⟩ := toGrid_spec (size d) (p d) (hs d)
  dsimp only [toCell]
  exact ⟨by exact_mod_cast a, by exact_mod_cast b⟩

theorem along_zero (start diff : P3) : along start diff 0 = fun d => (start d : Rat) := by
  funext d
  simp [along]

theorem along_one (start end' : P3) : along start (fun d => end' d - start d) 1 = fun d => (end' d : Rat) := by
  funext d
  simp [along]

theorem mem_upTo {a b x : Int} : x ∈ upTo a b ↔ a ≤ x ∧ x < b := by
  simp only [upTo, List.mem_map, List.mem_range]
  constructor
  · rintro ⟨i, hi, rfl⟩
    omega
  · rintro ⟨h1, h2⟩
    exact ⟨(x - a).toNat, by omega, by omega⟩

/-- The distance of a cell, as a part. -/
theorem relDist_spec {m s x : Int} (hs : 0 < s) (hm : 0 ≤ m) (hx : InRange s x) :
    ∃ a k, 0 ≤ a ∧ a ≤ k ∧ 1 ≤ k ∧ (2 * k ≤ s ∨ a = 0 ∧ k = 1) ∧ relDist m (-(s.tdiv 2)) (s - s.tdiv 2) x = m * a / k ∧ far s x = (a : Rat) / k := by
  obtain ⟨h1, h2⟩ := hx
  have ht : s.tdiv 2 = s / 2 := Int.tdiv_eq_ediv_of_nonneg (by omega)
  rw [ht]
  by_cases hn : x < 0
  · refine ⟨-x, s / 2, by omega, by omega, by omega, Or.inl (by omega), ?_, ?_⟩
    · rw [relDist]
      rw [if_pos hn, if_neg (show ¬ -(s / 2) = 0 by omega), Int.tdiv_neg, ← Int.neg_tdiv, Int.tdiv_eq_ediv_of_nonneg (by nlinarith), Int.mul_neg]
    · rw [far, if_pos hn]
      push_cast
      rw [neg_div, div_neg]
  · by_cases h0 : s - s / 2 - 1 = 0
    · refine ⟨0, 1, by omega, by omega, by omega, Or.inr ⟨rfl, rfl⟩, ?_, ?_⟩
      · rw [relDist]
        rw [if_neg hn, if_pos h0]
        have : x = 0 := by omega
        subst this
        simp
      · have : x = 0 := by omega
        subst this
        simp [far]
    · refine ⟨x, s - s / 2 - 1, by omega, by omega, by omega, Or.inl (by omega), ?_, ?_⟩
      · rw [relDist]
        rw [if_neg hn, if_neg h0, Int.tdiv_eq_ediv_of_nonneg (by nlinarith [show 0 ≤ x by omega])]
      · rw [far, if_neg hn]

theorem div_bounds (m k : Int) (hk : 0 < k) : k * (m / k) ≤ m ∧ m < k * (m / k) + k := by
  have h1 := Int.mul_ediv_add_emod m k
  have h2 := Int.emod_nonneg m (show k ≠ 0 by omega)
  have h3 := Int.emod_lt_of_pos m hk
  omega

/-- Two parts are at most a whole, as the code computes it. -/
theorem two_parts {M s1 s2 s3 a k b m : Int} (hM : M = s1 * s2 * s3) (h3 : 0 < s3) (p1 : 0 < s1) (p2 : 0 < s2)
    (a0 : 0 ≤ a) (ak : a ≤ k) (k1 : 1 ≤ k) (ks : 2 * k ≤ s1 ∨ a = 0 ∧ k = 1)
    (b0 : 0 ≤ b) (bm : b ≤ m) (m1 : 1 ≤ m) (ms : 2 * m ≤ s2 ∨ b = 0 ∧ m = 1) :
    M * a / k + M * b / m ≤ M ↔ a * m + b * k ≤ k * m := by
  obtain ⟨x1, x2⟩ := div_bounds (M * a) k (by omega)
  obtain ⟨y1, y2⟩ := div_bounds (M * b) m (by omega)
  generalize M * a / k = X at *
  generalize M * b / m = Y at *
  have hkm : 1 ≤ k * m := by nlinarith
  constructor
  · intro h
    by_contra hc
    rcases ks with ks | ⟨rfl, rfl⟩
    · rcases ms with ms | ⟨rfl, rfl⟩
      · have hM4 : 4 * (k * m) ≤ M := by
          have : 4 * (k * m) ≤ s1 * s2 := by nlinarith
          have : s1 * s2 ≤ M := by rw [hM]; nlinarith [Int.mul_pos p1 p2]
          omega
        have e1 : M * (a * m + b * k) ≤ k * m * (X + Y) + 2 * (k * m) := by nlinarith
        have e2 : M * (k * m + 1) ≤ M * (a * m + b * k) := by
          apply Int.mul_le_mul_of_nonneg_left <;> omega
        have e3 : k * m * (X + Y) ≤ k * m * M := by
          apply Int.mul_le_mul_of_nonneg_left <;> omega
        nlinarith
      · simp at hc
        omega
    · simp at hc
      omega
  · intro h
    have hM0 : 0 ≤ M := by rw [hM]; positivity
    have e1 : k * m * (X + Y) ≤ M * (a * m + b * k) := by nlinarith
    have e2 : M * (a * m + b * k) ≤ M * (k * m) := Int.mul_le_mul_of_nonneg_left h hM0
    have e3 : k * m * (X + Y) ≤ k * m * M := by nlinarith
    exact le_of_mul_le_mul_left e3 (by omega)

/-- Three parts. -/
theorem three_parts {M s1 s2 s3 a k b m c n : Int} (hM : M = s1 * s2 * s3) (p1 : 0 < s1) (p2 : 0 < s2) (p3 : 0 < s3)
    (a0 : 0 ≤ a) (ak : a ≤ k) (k1 : 1 ≤ k) (ks : 2 * k ≤ s1 ∨ a = 0 ∧ k = 1)
    (b0 : 0 ≤ b) (bm : b ≤ m) (m1 : 1 ≤ m) (ms : 2 * m ≤ s2 ∨ b = 0 ∧ m = 1)
    (c0 : 0 ≤ c) (cn : c ≤ n) (n1 : 1 ≤ n) (ns : 2 * n ≤ s3 ∨ c = 0 ∧ n = 1) :
    M * a / k + M * b / m + M * c / n ≤ M ↔ a * (m * n) + b * (k * n) + c * (k * m) ≤ k * m * n := by
  rcases ks with ks | ⟨rfl, rfl⟩
  · rcases ms with ms | ⟨rfl, rfl⟩
    · rcases ns with ns | ⟨rfl, rfl⟩
      · obtain ⟨x1, x2⟩ := div_bounds (M * a) k (by omega)
        obtain ⟨y1, y2⟩ := div_bounds (M * b) m (by omega)
        obtain ⟨z1, z2⟩ := div_bounds (M * c) n (by omega)
        generalize M * a / k = X at *
        generalize M * b / m = Y at *
        generalize M * c / n = Z at *
        have hkm : 1 ≤ k * m := by nlinarith
        have hkn : 1 ≤ k * n := by nlinarith
        have hmn : 1 ≤ m * n := by nlinarith
        have hkmn : 1 ≤ k * m * n := by nlinarith
        have f1 : (m * n) * (k * X) ≤ (m * n) * (M * a) := Int.mul_le_mul_of_nonneg_left x1 (by omega)
        have f2 : (k * n) * (m * Y) ≤ (k * n) * (M * b) := Int.mul_le_mul_of_nonneg_left y1 (by omega)
        have f3 : (k * m) * (n * Z) ≤ (k * m) * (M * c) := Int.mul_le_mul_of_nonneg_left z1 (by omega)
        have g1 : (m * n) * (M * a) ≤ (m * n) * (k * X + k) := Int.mul_le_mul_of_nonneg_left (by omega) (by omega)
        have g2 : (k * n) * (M * b) ≤ (k * n) * (m * Y + m) := Int.mul_le_mul_of_nonneg_left (by omega) (by omega)
        have g3 : (k * m) * (M * c) ≤ (k * m) * (n * Z + n) := Int.mul_le_mul_of_nonneg_left (by omega) (by omega)
        have hM0 : 0 ≤ M := by rw [hM]; positivity
        constructor
        · intro h
          by_contra hc
          have hM8 : 8 * (k * m * n) ≤ M := by
            rw [hM]
            have h1 : (2 * k) * (2 * m) ≤ s1 * s2 := mul_le_mul ks ms (by omega) (by omega)
            have h2 : ((2 * k) * (2 * m)) * (2 * n) ≤ (s1 * s2) * s3 := mul_le_mul h1 ns (by omega) (by positivity)
            linarith
          have e2 : M * (k * m * n + 1) ≤ M * (a * (m * n) + b * (k * n) + c * (k * m)) := Int.mul_le_mul_of_nonneg_left (by omega) hM0
          have e3 : k * m * n * (X + Y + Z) ≤ k * m * n * M := Int.mul_le_mul_of_nonneg_left (by omega) (by omega)
          linarith
        · intro h
          have e2 : M * (a * (m * n) + b * (k * n) + c * (k * m)) ≤ M * (k * m * n) := Int.mul_le_mul_of_nonneg_left h hM0
          have e3 : k * m * n * (X + Y + Z) ≤ k * m * n * M := by linarith
          exact le_of_mul_le_mul_left e3 (by omega)
      · have := two_parts (M := M) (s1 := s1) (s2 := s2) (s3 := s3) hM p3 p1 p2 a0 ak k1 (Or.inl ks) b0 bm m1 (Or.inl ms)
        simpa using this
    · have := two_parts (M := M) (s1 := s1) (s2 := s3) (s3 := s2) (by rw [hM]; ring) p2 p1 p3 a0 ak k1 (Or.inl ks) c0 cn n1 ns
      simpa using this
  · have := two_parts (M := M) (s1 := s2) (s2 := s3) (s3 := s1) (by rw [hM]; ring) p1 p2 p3 b0 bm m1 ms c0 cn n1 ns
    simpa using this

theorem linesFrom_mem {last : P2} {poly : List P2} {l : P2 × P2} : l ∈ linesFrom last poly ↔ (l.1 = last ∧ poly.head? = some l.2) ∨ ∃ i, poly[i]? = some l.1 ∧ poly[i + 1]? = some l.2 := by
  induction poly generalizing last with
  | nil => simp [linesFrom]
  | cons p ps ih =>
    obtain ⟨a, b⟩ := l
    simp only [linesFrom, List.mem_cons, Prod.mk.injEq, ih, List.head?_cons, Option.some.injEq]
    constructor
    · rintro (⟨rfl, rfl⟩ | ⟨rfl, h⟩ | ⟨i, h1, h2⟩)
      · exact Or.inl ⟨rfl, rfl⟩
      · refine Or.inr ⟨0, rfl, ?_⟩
        rw [← h]
        cases ps <;> rfl
      · exact Or.inr ⟨i + 1, h1, h2⟩
    · rintro (⟨rfl, rfl⟩ | ⟨i, h1, h2⟩)
      · exact Or.inl ⟨rfl, rfl⟩
      · cases i with
        | zero =>
          simp only [List.getElem?_cons_zero, Option.some.injEq] at h1
          refine Or.inr (Or.inl ⟨h1.symm, ?_⟩)
          rw [← h2]
          cases ps <;> rfl
        | succ i => exact Or.inr (Or.inr ⟨i, h1, h2⟩)

end Verif.Voxel
