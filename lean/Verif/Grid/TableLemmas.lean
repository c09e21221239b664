import Verif.Grid.LineLemmas
import Mathlib.Data.List.Perm.Basic
import Mathlib.Data.List.Perm.Subperm

namespace Verif.Grid

variable {s : Int}

/-! ### Lines -/

theorem orderX_le (l : Pt × Pt) : (orderX l).1.x ≤ (orderX l).2.x := by
  unfold orderX; split_ifs with h
  · exact h.le
  · exact not_lt.1 h

theorem walk_line (hs : 0 < s) (line : Pt × Pt) :
    Walk s (orderX line).1 (orderX line).2 (nonzeroSign ((orderX line).2.y - (orderX line).1.y))
      (toGridCoord s (orderX line).1.y)
      (cellsFrom s (orderX line).1 (orderX line).2 (nonzeroSign ((orderX line).2.y - (orderX line).1.y))
        (rowCount s (orderX line).1 (orderX line).2 (nonzeroSign ((orderX line).2.y - (orderX line).1.y)))
        (toGridCoord s (orderX line).1.y) (toGridCoord s (orderX line).1.x)) := by
  have hx := orderX_le line
  generalize (orderX line).1 = a at *
  generalize (orderX line).2 = b at *
  generalize hdir : nonzeroSign (b.y - a.y) = dir
  have hd : dir = 1 ∨ dir = -1 := by rw [← hdir]; unfold nonzeroSign; split_ifs <;> simp
  have hrow : 0 ≤ (toGridCoord s b.y - toGridCoord s a.y) * dir := by
    rw [toGridCoord_eq hs, toGridCoord_eq hs]
    unfold nonzeroSign at hdir
    split_ifs at hdir with h1
    · have : (a.y : ℚ) ≤ b.y := by exact_mod_cast (by omega : a.y ≤ b.y)
      have := cellR_mono hs this
      subst hdir; omega
    · have : (b.y : ℚ) ≤ a.y := by exact_mod_cast (by omega : b.y ≤ a.y)
      have := cellR_mono hs this
      subst hdir; omega
  obtain ⟨n, hn⟩ : ∃ n : Nat, (n : Int) = (toGridCoord s b.y - toGridCoord s a.y) * dir :=
    ⟨_, Int.toNat_of_nonneg hrow⟩
  have hc : rowCount s a b dir = n + 1 := by unfold rowCount; omega
  have hend : toGridCoord s b.y = toGridCoord s a.y + n * dir := by
    rw [hn]; rcases hd with rfl | rfl <;> ring
  rw [hc]
  have h := walk hs a b dir hx hdir.symm n (toGridCoord s a.y) 0 le_rfl zero_le_one hend
    (by rw [lerp_zero, toGridCoord_eq hs]; exact inClosed1_of_cell hs _)
    (fun t h0 _ _ => h0)
    (by
      intro h0
      have : b.y = a.y := by omega
      rw [this] at hn
      simp at hn
      exact_mod_cast hn)
    (leave_after hs a b dir _ hdir.symm 0 zero_le_one
      (by rw [lerp_zero, toGridCoord_eq hs]; simp))
  rw [lerp_zero, ← toGridCoord_eq hs] at h
  exact h

theorem processLineCells_cells {σ : Type} (hs : 0 < s) (line : Pt × Pt) (f : σ → Pt → Bool × σ) (st : σ) :
    processLineCells s line f st = lineOf (processAll f
      (cellsFrom s (orderX line).1 (orderX line).2 (nonzeroSign ((orderX line).2.y - (orderX line).1.y))
        (rowCount s (orderX line).1 (orderX line).2 (nonzeroSign ((orderX line).2.y - (orderX line).1.y)))
        (toGridCoord s (orderX line).1.y) (toGridCoord s (orderX line).1.x)) st) := by
  unfold processLineCells
  dsimp only
  apply lineLoop_eq
  obtain ⟨l', h⟩ := (walk_line hs line).last
  rw [h]
  simp

theorem lineCells_eq (hs : 0 < s) (line : Pt × Pt) :
    lineCells s line = cellsFrom s (orderX line).1 (orderX line).2
      (nonzeroSign ((orderX line).2.y - (orderX line).1.y))
      (rowCount s (orderX line).1 (orderX line).2 (nonzeroSign ((orderX line).2.y - (orderX line).1.y)))
      (toGridCoord s (orderX line).1.y) (toGridCoord s (orderX line).1.x) := by
  unfold lineCells
  rw [processLineCells_cells hs, processAll_collect]
  simp [lineOf, LineEnd.state]

theorem processLineCells_eq {σ : Type} (hs : 0 < s) (line : Pt × Pt) (f : σ → Pt → Bool × σ) (st : σ) :
    processLineCells s line f st = lineOf (processAll f (lineCells s line) st) := by
  rw [processLineCells_cells hs, lineCells_eq hs]

theorem onSegment_order (l : Pt × Pt) (x y : ℚ) : OnSegment (orderX l) x y ↔ OnSegment l x y := by
  unfold orderX
  split_ifs with h
  · constructor
    · rintro ⟨t, h0, h1, rfl, rfl⟩
      exact ⟨1 - t, by linarith, by linarith, by unfold lerp; ring, by unfold lerp; ring⟩
    · rintro ⟨t, h0, h1, rfl, rfl⟩
      exact ⟨1 - t, by linarith, by linarith, by unfold lerp; ring, by unfold lerp; ring⟩
  · exact Iff.rfl

/-- All rows of the line are passed. -/
theorem row_nonneg (hs : 0 < s) (line : Pt × Pt) (t : ℚ) (h0 : 0 ≤ t) :
    0 ≤ (cellR s (lerp (orderX line).1.y (orderX line).2.y t) - toGridCoord s (orderX line).1.y) *
      nonzeroSign ((orderX line).2.y - (orderX line).1.y) := by
  generalize (orderX line).1 = a
  generalize (orderX line).2 = b
  rw [toGridCoord_eq hs]
  unfold nonzeroSign
  split_ifs with h
  · have hy : (a.y : ℚ) ≤ b.y := by exact_mod_cast (by omega : a.y ≤ b.y)
    have : (a.y : ℚ) ≤ lerp a.y b.y t := by unfold lerp; nlinarith
    have := cellR_mono hs this
    omega
  · have hy : (b.y : ℚ) ≤ a.y := by exact_mod_cast (by omega : b.y ≤ a.y)
    have : lerp a.y b.y t ≤ (a.y : ℚ) := by unfold lerp; nlinarith
    have := cellR_mono hs this
    omega

theorem lineCells_covers (hs : 0 < s) (line : Pt × Pt) (x y : ℚ) (h : OnSegment line x y) :
    (⟨cellR s x, cellR s y⟩ : Pt) ∈ lineCells s line := by
  rw [lineCells_eq hs]
  obtain ⟨t, h0, h1, rfl, rfl⟩ := (onSegment_order line x y).2 h
  exact (walk_line hs line).covers t h0 h1 (row_nonneg hs line t h0)

/-! ### Tables -/

theorem processAll_flatMap {α β σ : Type} (g : α → List β) (f : σ → β → Bool × σ) (l : List α) (st : σ) :
    processAll (fun st a => processAll f (g a) st) l st = processAll f (l.flatMap g) st := by
  induction l generalizing st with
  | nil => rfl
  | cons a l ih =>
    rw [List.flatMap_cons, processAll_append]
    simp only [processAll]
    obtain ⟨b, st', hf⟩ : ∃ b st', processAll f (g a) st = (b, st') := ⟨_, _, rfl⟩
    simp only [hf]
    cases b
    · simp
    · simp only [if_true]; exact ih st'

theorem processNearby_eq {E σ : Type} (look : Pt → List E) (q : Pt) (r : Int) (f : σ → E → Bool × σ) (st : σ) :
    processNearby s look q r f st = processAll f ((nearbyCells s q r).flatMap look) st :=
  processAll_flatMap look f _ st

theorem getNearby_eq {E : Type} (look : Pt → List E) (q : Pt) (r : Int) :
    getNearby s look q r = (nearbyCells s q r).flatMap look := by
  unfold getNearby
  rw [processNearby_eq, processAll_collect]
  simp

theorem processLine_eq {E σ : Type} (hs : 0 < s) (look : Pt → List E) (line : Pt × Pt)
    (f : σ → E → Bool × σ) (st : σ) :
    processLine s look line f st = lineOf (processAll f ((lineCells s line).flatMap look) st) := by
  unfold processLine
  rw [processLineCells_eq hs]
  unfold processFromCell
  rw [processAll_flatMap look f _ st]

theorem flatMap_look {E : Type} (t : Table E) (look : Pt → List E) (hl : Lookup t look) (L : List Pt)
    (hL : L.Nodup) :
    (L.flatMap look).Perm ((t.filter (fun p => decide (p.1 ∈ L))).map Prod.snd) := by
  induction L with
  | nil => simp
  | cons c L ih =>
    rw [List.nodup_cons] at hL
    rw [List.flatMap_cons]
    refine ((hl c).append (ih hL.2)).trans ?_
    rw [← List.map_append]
    apply List.Perm.map
    have h := List.filter_append_perm (fun p : Pt × E => decide (p.1 = c))
      (t.filter (fun p => decide (p.1 ∈ c :: L)))
    rw [List.filter_filter, List.filter_filter] at h
    refine List.Perm.trans (List.Perm.of_eq ?_) h
    congr 1
    · apply List.filter_congr
      intro p _
      by_cases hp : p.1 = c <;> simp [hp]
    · apply List.filter_congr
      intro p _
      by_cases hp : p.1 = c
      · simp [hp, hL.1]
      · simp [hp]

theorem nearbyCells_eq (q : Pt) (r : Int) : nearbyCells s q r =
    (span (toGridCoord s (q.y - r)) (toGridCoord s (q.y + r))).flatMap
      (fun y => rowCells y (toGridCoord s (q.x - r)) (toGridCoord s (q.x + r))) := rfl

theorem mem_nearbyCells (q : Pt) (r : Int) (c : Pt) : c ∈ nearbyCells s q r ↔
    (toGridCoord s (q.x - r) ≤ c.x ∧ c.x ≤ toGridCoord s (q.x + r)) ∧
    (toGridCoord s (q.y - r) ≤ c.y ∧ c.y ≤ toGridCoord s (q.y + r)) := by
  rw [nearbyCells_eq, List.mem_flatMap]
  constructor
  · rintro ⟨y, hy, hc⟩
    rw [mem_span] at hy
    rw [mem_rowCells] at hc
    rw [hc.1]
    exact ⟨hc.2, hy⟩
  · rintro ⟨h1, h2⟩
    exact ⟨c.y, (mem_span _ _ _).2 h2, (mem_rowCells _ _ _ _).2 ⟨rfl, h1⟩⟩

theorem nearbyCells_nodup (q : Pt) (r : Int) : (nearbyCells s q r).Nodup := by
  rw [nearbyCells_eq, List.nodup_flatMap]
  refine ⟨fun y _ => rowCells_nodup _ _ _, ?_⟩
  apply (span_nodup _ _).imp
  intro y z hyz c hc hc'
  rw [mem_rowCells] at hc hc'
  exact hyz (hc.1.symm.trans hc'.1)

theorem pointGrid_eq {E : Type} (loc : E → Pt) (es : List E) :
    pointGrid s loc es = es.map (fun e => (toGridPoint s (loc e), e)) := by
  have : ∀ t : Table E, es.foldl (insertPoint s loc) t = t ++ es.map (fun e => (toGridPoint s (loc e), e)) := by
    induction es with
    | nil => simp
    | cons e es ih =>
      intro t
      rw [List.foldl_cons, ih]
      simp [insertPoint]
  unfold pointGrid
  rw [this]
  rfl

theorem lineGrid_eq {E : Type} (hs : 0 < s) (loc : E → Pt × Pt) (es : List E) :
    lineGrid s loc es = es.flatMap (fun e => (lineCells s (loc e)).map (fun c => (c, e))) := by
  have : ∀ t : Table E, es.foldl (insertLine s loc) t =
      t ++ es.flatMap (fun e => (lineCells s (loc e)).map (fun c => (c, e))) := by
    induction es with
    | nil => simp
    | cons e es ih =>
      intro t
      rw [List.foldl_cons, ih, List.flatMap_cons]
      unfold insertLine
      rw [processLineCells_eq hs, processAll_map_collect (fun c => (c, e))]
      simp [lineOf, LineEnd.state]
  unfold lineGrid
  rw [this]
  rfl

theorem nearby_perm {E : Type} (loc : E → Pt) (es : List E) (look : Pt → List E)
    (hl : Lookup (pointGrid s loc es) look) (q : Pt) (r : Int) :
    (getNearby s look q r).Perm
      (es.filter (fun e => decide (toGridPoint s (loc e) ∈ nearbyCells s q r))) := by
  rw [getNearby_eq]
  refine (flatMap_look _ look hl _ (nearbyCells_nodup q r)).trans (List.Perm.of_eq ?_)
  rw [pointGrid_eq, List.filter_map, List.map_map]
  rw [show (Prod.snd ∘ fun e => (toGridPoint s (loc e), e)) = (id : E → E) from rfl, List.map_id]
  rfl

theorem mem_lookup {E : Type} {t : Table E} {look : Pt → List E} (hl : Lookup t look) (c : Pt) (e : E) :
    e ∈ look c ↔ (c, e) ∈ t := by
  rw [(hl c).mem_iff]
  simp

theorem grid_in (hs : 0 < s) (p q : Pt) (r : Int) (h : WithinSquare q r p) :
    toGridPoint s p ∈ nearbyCells s q r := by
  rw [mem_nearbyCells]
  obtain ⟨h1, h2, h3, h4⟩ := h
  simp only [toGridPoint, toGridCoord_eq hs]
  refine ⟨⟨cellR_mono hs ?_, cellR_mono hs ?_⟩, ⟨cellR_mono hs ?_, cellR_mono hs ?_⟩⟩ <;>
    exact_mod_cast (by omega)

theorem cell_le_near (hs : 0 < s) (u v : Int) (h : toGridCoord s u ≤ toGridCoord s v) : u < v + 2 * s := by
  rw [toGridCoord_eq hs, toGridCoord_eq hs] at h
  have h1 := (cellR_le_iff hs _ _).1 h
  have h2 := (le_cellR_iff hs (v : ℚ) (cellR s v)).1 le_rfl
  have hq : (0 : ℚ) < s := by exact_mod_cast hs
  have : (u : ℚ) < v + 2 * s := by
    split_ifs at h1 h2 <;> nlinarith
  exact_mod_cast this

theorem grid_out (hs : 0 < s) (p q : Pt) (r : Int) (h : toGridPoint s p ∈ nearbyCells s q r) :
    WithinSquare q (r + 2 * s - 1) p := by
  rw [mem_nearbyCells] at h
  simp only [toGridPoint] at h
  have h1 := cell_le_near hs _ _ h.1.1
  have h2 := cell_le_near hs _ _ h.1.2
  have h3 := cell_le_near hs _ _ h.2.1
  have h4 := cell_le_near hs _ _ h.2.2
  unfold WithinSquare
  omega

/-! ### Nearest -/

theorem nearest_fold {E : Type} (loc : E → Pt) (q : Pt) (pre : E → Bool) (l : List E) (st : Option E × Int) :
    (processAll (nearestStep loc q pre) l st).2.2 ≤ st.2 ∧
    (∀ e ∈ l, pre e → (processAll (nearestStep loc q pre) l st).2.2 ≤ dist2 (loc e) q) ∧
    ((processAll (nearestStep loc q pre) l st).2 = st ∨
      ∃ e ∈ l, pre e ∧ dist2 (loc e) q < st.2 ∧
        (processAll (nearestStep loc q pre) l st).2 = (some e, dist2 (loc e) q)) := by
  induction l generalizing st with
  | nil => simp [processAll]
  | cons e l ih =>
    simp only [processAll]
    by_cases hp : pre e
    · by_cases hd : dist2 (loc e) q < st.2
      · have hstep : nearestStep loc q pre st e = (true, (some e, dist2 (loc e) q)) := by
          unfold nearestStep; rw [if_pos hp, if_pos hd]
        simp only [hstep]
        obtain ⟨h1, h2, h3⟩ := ih (some e, dist2 (loc e) q)
        refine ⟨le_trans h1 hd.le, ?_, ?_⟩
        · intro e' he' hp'
          rcases List.mem_cons.1 he' with rfl | he'
          · exact h1
          · exact h2 e' he' hp'
        · right
          rcases h3 with h3 | ⟨e', he', hp', hd', h3⟩
          · exact ⟨e, by simp, hp, hd, h3⟩
          · exact ⟨e', by simp [he'], hp', lt_trans hd' hd, h3⟩
      · have hstep : nearestStep loc q pre st e = (true, st) := by
          unfold nearestStep; rw [if_pos hp, if_neg hd]
        simp only [hstep]
        obtain ⟨h1, h2, h3⟩ := ih st
        refine ⟨h1, ?_, ?_⟩
        · intro e' he' hp'
          rcases List.mem_cons.1 he' with rfl | he'
          · exact le_trans h1 (not_lt.1 hd)
          · exact h2 e' he' hp'
        · rcases h3 with h3 | ⟨e', he', h3⟩
          · exact Or.inl h3
          · exact Or.inr ⟨e', by simp [he'], h3⟩
    · have hstep : nearestStep loc q pre st e = (true, st) := by
        unfold nearestStep; rw [if_neg hp]
      simp only [hstep]
      obtain ⟨h1, h2, h3⟩ := ih st
      refine ⟨h1, ?_, ?_⟩
      · intro e' he' hp'
        rcases List.mem_cons.1 he' with rfl | he'
        · exact absurd hp' hp
        · exact h2 e' he' hp'
      · rcases h3 with h3 | ⟨e', he', h3⟩
        · exact Or.inl h3
        · exact Or.inr ⟨e', by simp [he'], h3⟩

theorem dist2_within (p q : Pt) (r : Int) (hr : 0 ≤ r) (h : dist2 p q ≤ r * r) : WithinSquare q r p := by
  unfold dist2 at h
  have h1 := mul_self_nonneg (p.x - q.x)
  have h2 := mul_self_nonneg (p.y - q.y)
  have e1 : |p.x - q.x| ≤ r := abs_le_of_sq_le_sq (by nlinarith) hr
  have e2 : |p.y - q.y| ≤ r := abs_le_of_sq_le_sq (by nlinarith) hr
  rw [abs_le] at e1 e2
  unfold WithinSquare
  omega

theorem shorterThen_iff (p q : Pt) (r : Int) (hr : 0 ≤ r) : shorterThen p q r = true ↔ dist2 p q ≤ r * r := by
  unfold shorterThen
  constructor
  · intro h
    split_ifs at h
    exact of_decide_eq_true h
  · intro h
    obtain ⟨h1, h2, h3, h4⟩ := dist2_within p q r hr h
    rw [if_neg (by omega), if_neg (by omega)]
    exact decide_eq_true h

theorem any_fold {E : Type} (loc : E → Pt) (q : Pt) (r : Int) (l : List E) :
    (processAll (anyStep loc q r) l none).2 = l.find? (fun e => shorterThen (loc e) q r) := by
  induction l with
  | nil => rfl
  | cons e l ih =>
    simp only [processAll, List.find?_cons]
    unfold anyStep
    cases h : shorterThen (loc e) q r
    · simp only [Bool.false_eq_true, if_false]; exact ih
    · simp

end Verif.Grid
