import Verif.Grid.CellLemmas
import Mathlib.Data.List.Nodup

namespace Verif.Grid

variable {s : Int}

theorem mem_span (a b x : Int) : x ∈ span a b ↔ a ≤ x ∧ x ≤ b := by
  unfold span
  rw [List.mem_map]
  constructor
  · rintro ⟨i, hi, rfl⟩
    rw [List.mem_range] at hi
    omega
  · intro h
    exact ⟨(x - a).toNat, by rw [List.mem_range]; omega, by omega⟩

theorem span_split (a b c : Int) (h1 : a ≤ b) (h2 : b ≤ c) :
    span a c = span a (b - 1) ++ b :: span (b + 1) c := by
  unfold span
  have e : (c + 1 - a).toNat = (b - 1 + 1 - a).toNat + (1 + (c + 1 - (b + 1)).toNat) := by omega
  rw [e, List.range_add, List.map_append]
  congr 1
  rw [Nat.add_comm 1, List.range_succ_eq_map]
  simp only [List.map_cons, List.map_map]
  congr 1
  · omega
  · apply List.map_congr_left
    intro i _
    simp only [Function.comp_apply]
    push_cast
    omega

theorem span_last (a b : Int) (h : a ≤ b) : span a b = span a (b - 1) ++ [b] := by
  rw [span_split a b b h le_rfl]
  congr 1
  unfold span
  have : (b + 1 - (b + 1)).toNat = 0 := by omega
  rw [this]; rfl

theorem span_nodup (a b : Int) : (span a b).Nodup := by
  unfold span
  apply List.Nodup.map _ List.nodup_range
  intro i j h
  simp only at h
  omega

theorem processAll_append {α σ : Type} (f : σ → α → Bool × σ) (l m : List α) (st : σ) :
    processAll f (l ++ m) st =
      if (processAll f l st).1 then processAll f m (processAll f l st).2 else processAll f l st := by
  induction l generalizing st with
  | nil => simp [processAll]
  | cons a l ih =>
    simp only [List.cons_append, processAll]
    obtain ⟨b, st', hf⟩ : ∃ b st', f st a = (b, st') := ⟨_, _, rfl⟩
    simp only [hf]
    cases b
    · simp
    · simp only; exact ih st'

theorem processAll_collect {α : Type} (l acc : List α) :
    processAll (fun (acc : List α) c => (true, acc ++ [c])) l acc = (true, acc ++ l) := by
  induction l generalizing acc with
  | nil => simp [processAll]
  | cons a l ih => simp only [processAll]; rw [ih]; simp

theorem processAll_map_collect {α β : Type} (g : α → β) (l : List α) (acc : List β) :
    processAll (fun (acc : List β) c => (true, acc ++ [g c])) l acc = (true, acc ++ l.map g) := by
  induction l generalizing acc with
  | nil => simp [processAll]
  | cons a l ih => simp only [processAll]; rw [ih]; simp

/-- The cells of a row. -/
def rowCells (cy a b : Int) : List Pt := (span a b).map (fun x => (⟨x, cy⟩ : Pt))

theorem mem_rowCells (cy a b : Int) (c : Pt) : c ∈ rowCells cy a b ↔ c.y = cy ∧ a ≤ c.x ∧ c.x ≤ b := by
  unfold rowCells
  rw [List.mem_map]
  constructor
  · rintro ⟨x, hx, rfl⟩
    exact ⟨rfl, (mem_span _ _ _).1 hx⟩
  · rintro ⟨rfl, h⟩
    exact ⟨c.x, (mem_span _ _ _).2 h, rfl⟩

/-- The result of a row or line walk from that of the plain loop over its cells. -/
def rowOf {σ : Type} (hit : Bool) (r : Bool × σ) : RowEnd σ :=
  if r.1 then (if hit then .reached r.2 else .next r.2) else .stopped r.2

def lineOf {σ : Type} (r : Bool × σ) : LineEnd σ :=
  if r.1 then .reached r.2 else .stopped r.2

theorem rowLoop_miss {σ : Type} (f : σ → Pt → Bool × σ) (e : Pt) (cy : Int) (l : List Int)
    (h : e ∉ l.map (fun x => (⟨x, cy⟩ : Pt))) (st : σ) :
    rowLoop f e cy l st = rowOf false (processAll f (l.map (fun x => (⟨x, cy⟩ : Pt))) st) := by
  induction l generalizing st with
  | nil => rfl
  | cons x l ih =>
    simp only [List.map_cons, List.mem_cons, not_or] at h
    simp only [List.map_cons, rowLoop, processAll]
    rcases f st ⟨x, cy⟩ with ⟨b, st'⟩
    cases b
    · rfl
    · simp only
      rw [if_neg (fun hc => h.1 hc.symm)]
      exact ih h.2 st'

theorem rowLoop_hit {σ : Type} (f : σ → Pt → Bool × σ) (cy x : Int) (l m : List Int)
    (h : x ∉ l) (st : σ) :
    rowLoop f ⟨x, cy⟩ cy (l ++ x :: m) st =
      rowOf true (processAll f ((l ++ [x]).map (fun x => (⟨x, cy⟩ : Pt))) st) := by
  induction l generalizing st with
  | nil =>
    simp only [List.nil_append, rowLoop, List.map_cons, List.map_nil, processAll]
    rcases f st ⟨x, cy⟩ with ⟨b, st'⟩
    cases b <;> simp [rowOf]
  | cons z l ih =>
    simp only [List.mem_cons, not_or] at h
    simp only [List.cons_append, List.map_cons, rowLoop, processAll]
    rcases f st ⟨z, cy⟩ with ⟨b, st'⟩
    cases b
    · rfl
    · simp only
      rw [if_neg (by intro hc; injection hc with h1 _; exact h.1 h1.symm)]
      exact ih h.2 st'

/-- The cells passed by the outer loop when it has reached row `cy`. -/
def cellsFrom (s : Int) (a b : Pt) (dir : Int) : Nat → Int → Int → List Pt
  | 0, _, _ => []
  | n + 1, cy, xs =>
    let xe := rowLast s a b dir xs cy
    if cy = (toGridPoint s b).y ∧ xs ≤ (toGridPoint s b).x ∧ (toGridPoint s b).x ≤ xe then
      rowCells cy xs (toGridPoint s b).x
    else rowCells cy xs xe ++ cellsFrom s a b dir n (cy + dir) xe

theorem lineLoop_eq {σ : Type} (a b : Pt) (f : σ → Pt → Bool × σ) (dir : Int) (n : Nat)
    (cy xs : Int) (st : σ) (h : toGridPoint s b ∈ cellsFrom s a b dir n cy xs) :
    lineLoop s a b f dir n cy xs st = lineOf (processAll f (cellsFrom s a b dir n cy xs) st) := by
  induction n generalizing cy xs st with
  | zero => simp [cellsFrom] at h
  | succ n ih =>
    unfold cellsFrom at h
    simp only [lineLoop, cellsFrom]
    dsimp only at h
    by_cases hc : cy = (toGridPoint s b).y ∧ xs ≤ (toGridPoint s b).x ∧
        (toGridPoint s b).x ≤ rowLast s a b dir xs cy
    · rw [if_pos hc]
      obtain ⟨rfl, h1, h2⟩ := hc
      have := rowLoop_hit f (toGridPoint s b).y (toGridPoint s b).x (span xs ((toGridPoint s b).x - 1))
        (span ((toGridPoint s b).x + 1) (rowLast s a b dir xs (toGridPoint s b).y))
        (by rw [mem_span]; omega) st
      rw [← span_split _ _ _ h1 h2, ← span_last _ _ h1] at this
      have e : (⟨(toGridPoint s b).x, (toGridPoint s b).y⟩ : Pt) = toGridPoint s b := rfl
      rw [e] at this
      rw [this]
      unfold rowOf lineOf rowCells
      generalize processAll f _ st = r
      rcases r with ⟨b1, st'⟩
      cases b1 <;> rfl
    · rw [if_neg hc] at h ⊢
      have hmiss : toGridPoint s b ∉ (span xs (rowLast s a b dir xs cy)).map (fun x => (⟨x, cy⟩ : Pt)) := by
        intro hm
        have := (mem_rowCells _ _ _ _).1 hm
        exact hc ⟨this.1.symm, this.2.1, this.2.2⟩
      rw [rowLoop_miss f _ cy _ hmiss st, processAll_append]
      have h' : toGridPoint s b ∈ cellsFrom s a b dir n (cy + dir) (rowLast s a b dir xs cy) := by
        rcases List.mem_append.1 h with h | h
        · exact absurd h hmiss
        · exact h
      change (match rowOf false (processAll f (rowCells cy xs (rowLast s a b dir xs cy)) st) with
        | .stopped st' => LineEnd.stopped st'
        | .reached st' => LineEnd.reached st'
        | .next st' => lineLoop s a b f dir n (cy + dir) (rowLast s a b dir xs cy) st') = _
      generalize processAll f (rowCells cy xs (rowLast s a b dir xs cy)) st = r
      rcases r with ⟨b1, st'⟩
      cases b1
      · simp [rowOf, lineOf]
      · simp only [rowOf, if_true, Bool.false_eq_true, if_false]
        exact ih _ _ _ h'

/-! ### Geometry of the rows -/

theorem nextY_up (c : Int) : nextY s 1 c = (if 0 ≤ c then c + 1 else c) * s := by
  unfold nextY toLowerCoord nonzeroSign
  congr 1
  split_ifs with h1 h2 h3 <;> simp_all

theorem nextY_down (c : Int) : nextY s (-1) c = (if c ≤ 0 then c - 1 else c) * s := by
  unfold nextY toLowerCoord nonzeroSign
  congr 1
  split_ifs with h1 h2 h3 <;> simp_all <;> omega

theorem nextY_before (hs : 0 < s) (dir c : Int) (hd : dir = 1 ∨ dir = -1) (v : ℚ)
    (h : (cellR s v - c) * dir ≤ 0) : (v - nextY s dir c) * dir ≤ 0 := by
  have hq : (0 : ℚ) < s := by exact_mod_cast hs
  rcases hd with rfl | rfl
  · rw [nextY_up]
    have h1 : cellR s v ≤ c := by omega
    rw [cellR_le_iff hs] at h1
    split_ifs at h1 ⊢ <;> first | omega | (push_cast; nlinarith)
  · rw [nextY_down]
    have h1 : c ≤ cellR s v := by omega
    rw [le_cellR_iff hs] at h1
    split_ifs at h1 ⊢ <;> first | omega | (push_cast; nlinarith)

theorem nextY_after (hs : 0 < s) (dir c : Int) (hd : dir = 1 ∨ dir = -1) (v : ℚ)
    (h : 0 < (cellR s v - c) * dir) : 0 ≤ (v - nextY s dir c) * dir := by
  have hq : (0 : ℚ) < s := by exact_mod_cast hs
  rcases hd with rfl | rfl
  · rw [nextY_up]
    have h1 : c + 1 ≤ cellR s v := by omega
    rw [le_cellR_iff hs] at h1
    split_ifs at h1 ⊢ <;> first | omega | (push_cast at h1 ⊢; nlinarith)
  · rw [nextY_down]
    have h1 : cellR s v ≤ c - 1 := by omega
    rw [cellR_le_iff hs] at h1
    split_ifs at h1 ⊢ <;> first | omega | (push_cast at h1 ⊢; nlinarith)

theorem inClosed1_of_cell (hs : 0 < s) (v : ℚ) : InClosed1 s (cellR s v) v := by
  have h := (inCell1_iff hs (cellR s v) v).2 rfl
  obtain ⟨h1, h2, h3⟩ := h
  exact ⟨fun h => ⟨(h1 h).1, (h1 h).2.le⟩, fun h => ⟨(h2 h).1.le, (h2 h).2.le⟩,
    fun h => ⟨(h3 h).1.le, (h3 h).2⟩⟩

theorem nextY_closed (hs : 0 < s) (dir c : Int) (hd : dir = 1 ∨ dir = -1) :
    InClosed1 s c (nextY s dir c) ∧ InClosed1 s (c + dir) (nextY s dir c) := by
  have hq : (0 : ℚ) < s := by exact_mod_cast hs
  unfold InClosed1
  rcases hd with rfl | rfl
  all_goals
    first
    | rw [nextY_up]
    | rw [nextY_down]
  all_goals
    rcases lt_trichotomy c 0 with h | h | h
  all_goals
    refine ⟨⟨?_, ?_, ?_⟩, ⟨?_, ?_, ?_⟩⟩
  all_goals
    intro h2
    split_ifs <;> first | omega | skip
  all_goals push_cast
  all_goals
    first
    | (constructor <;> nlinarith)
    | (have hc : c = 1 := by omega
       subst hc; push_cast; constructor <;> nlinarith)
    | (have hc : c = -1 := by omega
       subst hc; push_cast; constructor <;> nlinarith)
    | (have hc : c = 0 := by omega
       subst hc; push_cast; constructor <;> nlinarith)

theorem inClosed1_convex (c : Int) (u v w : ℚ) (hu : InClosed1 s c u) (hw : InClosed1 s c w)
    (h : (u ≤ v ∧ v ≤ w) ∨ (w ≤ v ∧ v ≤ u)) : InClosed1 s c v := by
  obtain ⟨u1, u2, u3⟩ := hu
  obtain ⟨w1, w2, w3⟩ := hw
  refine ⟨fun hc => ?_, fun hc => ?_, fun hc => ?_⟩
  · have := u1 hc; have := w1 hc
    rcases h with h | h <;> constructor <;> linarith
  · have := u2 hc; have := w2 hc
    rcases h with h | h <;> constructor <;> linarith
  · have := u3 hc; have := w3 hc
    rcases h with h | h <;> constructor <;> linarith

end Verif.Grid
