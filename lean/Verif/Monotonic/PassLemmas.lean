import Verif.Monotonic.OrderLemmas
import Mathlib.Data.List.Chain

/-! # Two passes -/

namespace Verif.Monotonic

section
variable {c : Config} {path : Nat → Path}

theorem passes_rows (ids : List Nat) (second : Bool) (q : ℚ) :
    ∃ (t : List Nat) (rows : List (List Nat)), ids = t ++ rows.flatten ∧
      (∀ i ∈ t, project c.v (path i).front - q ≤ (c.dist.tdiv 2 : Int)) ∧ Rows c path rows ∧
      (∀ r ∈ rows.head?, ∀ b ∈ r.head?, project c.v (path b).front - q > (c.dist.tdiv 2 : Int)) ∧
      passes c path ids (some (second, q)) =
        if second then ((everyOther true rows).flatten, t ++ (everyOther false rows).flatten)
        else (t ++ (everyOther false rows).flatten, (everyOther true rows).flatten) := by
  induction ids generalizing second q with
  | nil =>
    refine ⟨[], [], rfl, by simp, ⟨by simp, by simp⟩, by simp, ?_⟩
    cases second <;> rfl
  | cons i ids ih =>
    unfold passes
    dsimp only
    by_cases hp : project c.v (path i).front - q > (c.dist.tdiv 2 : Int)
    · rw [if_pos hp]
      obtain ⟨t, rows, h1, h2, h3, h4, h5⟩ := ih (!second) (project c.v (path i).front)
      refine ⟨[], (i :: t) :: rows, by simp [h1], by simp, ⟨?_, ?_⟩, ?_, ?_⟩
      · intro row hrow
        rw [List.mem_cons] at hrow
        rcases hrow with rfl | hrow
        · exact ⟨i, t, rfl, h2⟩
        · exact h3.1 row hrow
      · rw [List.isChain_cons]
        refine ⟨?_, h3.2⟩
        intro r hr a ha b hb
        simp only [List.head?_cons, Option.mem_def, Option.some.injEq] at ha
        subst ha
        exact h4 r hr b hb
      · intro r hr b hb
        simp only [List.head?_cons, Option.mem_def, Option.some.injEq] at hr
        subst hr
        simp only [List.head?_cons, Option.mem_def, Option.some.injEq] at hb
        subst hb
        exact hp
      · rw [h5]
        cases second <;> simp [everyOther]
    · rw [if_neg hp]
      obtain ⟨t, rows, h1, h2, h3, h4, h5⟩ := ih second q
      refine ⟨i :: t, rows, by simp [h1], ?_, h3, h4, ?_⟩
      · intro k hk
        rw [List.mem_cons] at hk
        rcases hk with rfl | hk
        · exact not_lt.mp hp
        · exact h2 k hk
      · rw [h5]
        cases second <;> simp

theorem passes_all (ids : List Nat) : ∃ rows, ids = rows.flatten ∧ Rows c path rows ∧
    passes c path ids none = ((everyOther true rows).flatten, (everyOther false rows).flatten) := by
  cases ids with
  | nil => exact ⟨[], rfl, ⟨by simp, by simp⟩, rfl⟩
  | cons i ids =>
    unfold passes
    dsimp only
    obtain ⟨t, rows, h1, h2, h3, h4, h5⟩ := passes_rows (c := c) (path := path) ids false (project c.v (path i).front)
    refine ⟨(i :: t) :: rows, by simp [h1], ⟨?_, ?_⟩, ?_⟩
    · intro row hrow
      rw [List.mem_cons] at hrow
      rcases hrow with rfl | hrow
      · exact ⟨i, t, rfl, h2⟩
      · exact h3.1 row hrow
    · rw [List.isChain_cons]
      refine ⟨?_, h3.2⟩
      intro r hr a ha b hb
      simp only [List.head?_cons, Option.mem_def, Option.some.injEq] at ha
      subst ha
      exact h4 r hr b hb
    · rw [h5]
      simp [everyOther]

theorem everyOther_flatten (b : Bool) (rows : List (List Nat)) : (everyOther b rows).flatten.Sublist rows.flatten := by
  induction rows generalizing b with
  | nil => exact .refl _
  | cons r rows ih =>
    unfold everyOther
    split
    · rw [List.flatten_cons, List.flatten_cons]
      exact (List.Sublist.refl r).append (ih false)
    · rw [List.flatten_cons]
      exact (ih true).trans (List.sublist_append_right _ _)

theorem everyOther_perm (rows : List (List Nat)) : ((everyOther true rows).flatten ++ (everyOther false rows).flatten).Perm rows.flatten := by
  induction rows with
  | nil => exact .refl _
  | cons r rows ih =>
    simp only [everyOther, if_true, Bool.false_eq_true, if_false, List.flatten_cons, List.append_assoc]
    exact (List.perm_append_comm.trans ih).append_left r

end

/-! ## All paths -/

theorem detectLoop_ends (p : Path) : (detectLoop p).front = p.front ∧ (detectLoop p).back = p.back := by
  unfold detectLoop
  split
  · exact ⟨rfl, rfl⟩
  · split
    · exact ⟨rfl, rfl⟩
    · split <;> exact ⟨rfl, rfl⟩

theorem isLine_iff (p : Path) : (detectLoop p).isLine = true ↔ Line p := by
  unfold detectLoop Line Loop Path.isLine
  by_cases hc : p.closed = true
  · simp [hc]
  · rw [if_neg hc]
    simp only [Bool.not_eq_true] at hc
    by_cases hl : p.pts.length < 3
    · rw [if_pos hl, hc]
      have h3 : ¬ 3 ≤ p.pts.length := not_le.mpr hl
      simp [h3]
      omega
    · rw [if_neg hl]
      by_cases hd : dist2 p.back p.front < 10 * 10
      · have hd' : dist2 p.back p.front < 100 := by omega
        have h3 : 3 ≤ p.pts.length := not_lt.mp hl
        rw [if_pos hd]
        simp [hd', h3]
      · rw [if_neg hd, hc]
        have hd' : ¬ dist2 p.back p.front < 100 := by omega
        simp [hd']
        omega

/-- The paths that `optimize` orders. -/
def pathsOf (paths : List Path) : Nat → Path := fun i => (paths.map detectLoop).getD i ⟨[], false⟩

def linesOf (c : Config) (paths : List Path) : List Nat :=
  sortBy ((List.range (paths.map detectLoop).length).filter fun i => (pathsOf paths i).isLine)
    fun i j => decide (lo c.v (pathsOf paths i) ≤ lo c.v (pathsOf paths j))

theorem pathsOf_some {paths : List Path} {i : Nat} {a : Path} (h : paths[i]? = some a) : pathsOf paths i = detectLoop a := by
  unfold pathsOf
  simp [List.getD, h]

theorem linesOf_nodup (c : Config) (paths : List Path) : (linesOf c paths).Nodup :=
  (sortBy_perm _ _).nodup_iff.mpr (List.nodup_range.filter _)

theorem linesOf_mem {c : Config} {paths : List Path} {i : Nat} : i ∈ linesOf c paths ↔ ∃ a, paths[i]? = some a ∧ Line a := by
  unfold linesOf
  rw [(sortBy_perm _ _).mem_iff, List.mem_filter, List.mem_range, List.length_map]
  constructor
  · rintro ⟨hi, h⟩
    refine ⟨paths[i], List.getElem?_eq_getElem hi, ?_⟩
    rw [← isLine_iff, ← pathsOf_some (List.getElem?_eq_getElem hi)]
    exact h
  · rintro ⟨a, ha, h⟩
    obtain ⟨hi, -⟩ := List.getElem?_eq_some_iff.mp ha
    exact ⟨hi, by rw [pathsOf_some ha, isLine_iff]; exact h⟩

theorem linesOf_sorted (c : Config) (paths : List Path) : Sorted c (pathsOf paths) (linesOf c paths) := by
  have := sortBy_pairwise (le := fun i j => decide (lo c.v (pathsOf paths i) ≤ lo c.v (pathsOf paths j)))
    (fun a b e h1 h2 => by simp only [decide_eq_true_eq] at *; exact h1.trans h2)
    (fun a b => by simp only [Bool.or_eq_true, decide_eq_true_eq]; exact le_total _ _)
    ((List.range (paths.map detectLoop).length).filter fun i => (pathsOf paths i).isLine)
  exact this.imp (by simp)

theorem linesOf_apart {c : Config} {paths : List Path} (h : Apart paths) : ApartIds (pathsOf paths) (linesOf c paths) := by
  intro i hi j hj hij p hp q hq
  obtain ⟨a, ha, hla⟩ := linesOf_mem.mp hi
  obtain ⟨b, hb, hlb⟩ := linesOf_mem.mp hj
  rw [pathsOf_some ha, (detectLoop_ends a).1, (detectLoop_ends a).2] at hp
  rw [pathsOf_some hb, (detectLoop_ends b).1, (detectLoop_ends b).2] at hq
  exact h i j a b hij ha hb hla hlb p hp q hq

theorem adjacent_detect {c : Config} {d : ℚ} {a b : Path} : Adjacent c d (detectLoop a) (detectLoop b) ↔ Adjacent c d a b := by
  unfold Adjacent Within lo hi
  rw [(detectLoop_ends a).1, (detectLoop_ends a).2, (detectLoop_ends b).1, (detectLoop_ends b).2]

theorem lo_detect (u : ℚ × ℚ) (a : Path) : lo u (detectLoop a) = lo u a := by
  unfold lo
  rw [(detectLoop_ends a).1, (detectLoop_ends a).2]

/-- What is not a line. -/
def othersOf (paths : List Path) : List Nat := (List.range (paths.map detectLoop).length).filter fun i => !(pathsOf paths i).isLine

theorem lines_others_perm (c : Config) (paths : List Path) : (linesOf c paths ++ othersOf paths).Perm (List.range paths.length) := by
  have h1 : (linesOf c paths).Perm ((List.range (paths.map detectLoop).length).filter fun i => (pathsOf paths i).isLine) := sortBy_perm _ _
  refine (h1.append_right _).trans ?_
  have := List.filter_append_perm (fun i => (pathsOf paths i).isLine) (List.range (paths.map detectLoop).length)
  rw [List.length_map] at this
  unfold othersOf
  rw [List.length_map]
  exact this

theorem ApartIds.subset {path : Nat → Path} {ids ids' : List Nat} (h : ApartIds path ids) (hs : ∀ i ∈ ids', i ∈ ids) : ApartIds path ids' :=
  fun i hi j hj => h i (hs i hi) j (hs j hj)

end Verif.Monotonic
