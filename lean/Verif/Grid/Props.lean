import Verif.Grid.TableLemmas
import Mathlib.Tactic.FinCases

/-! # C38, C51: the spatial grids miss nothing -/

namespace Verif.Grid

variable {E : Type}

/-- The plain lookup, used in the examples: the elements of the cell in the order of insertion. -/
def inOrder (t : Table E) (c : Pt) : List E := (t.filter (fun p => decide (p.1 = c))).map Prod.snd

theorem inOrder_lookup (t : Table E) : Lookup t (inOrder t) := fun _ => List.Perm.refl _

/-- **C38.** A radius query on a point grid returns every stored element whose location is within the
square of that radius, as often as it was stored, whatever the signs of the coordinates and whatever
order the hash table hands out the elements in. It returns nothing further away than the radius plus
two cells (not one cell, as the documentation says: cell 0 is twice as large), and nothing more often
than it was stored. -/
theorem C38_nearby (s : Int) (hs : 0 < s) (loc : E → Pt) (es : List E) (look : Pt → List E)
    (hl : Lookup (pointGrid s loc es) look) (q : Pt) (r : Int) :
    (es.filter (fun e => decide (WithinSquare q r (loc e)))).Subperm (getNearby s look q r) ∧
    (getNearby s look q r).Subperm
      (es.filter (fun e => decide (WithinSquare q (r + 2 * s - 1) (loc e)))) := by
  have h := nearby_perm loc es look hl q r
  constructor
  · refine (List.Sublist.subperm ?_).trans h.symm.subperm
    apply List.monotone_filter_right
    intro e he
    exact decide_eq_true (grid_in hs _ _ _ (of_decide_eq_true he))
  · refine h.subperm.trans (List.Sublist.subperm ?_)
    apply List.monotone_filter_right
    intro e he
    exact decide_eq_true (grid_out hs _ _ _ (of_decide_eq_true he))

/-- Nine elements around the origin; a query with radius 3 and cell size 10 finds all within the
square, and one at distance 21 (more than the radius plus one cell). -/
example :
    let es : List Pt := [⟨-9, 0⟩, ⟨-3, 3⟩, ⟨3, -3⟩, ⟨0, 0⟩, ⟨12, 0⟩, ⟨30, 30⟩, ⟨3, -3⟩]
    let t := pointGrid 10 id es
    Lookup t (inOrder t) ∧ getNearby 10 (inOrder t) ⟨0, 0⟩ 3 = [⟨-9, 0⟩, ⟨-3, 3⟩, ⟨3, -3⟩, ⟨0, 0⟩, ⟨3, -3⟩] ∧
    getNearby 10 (inOrder t) ⟨9, 3⟩ 3 =
      [⟨-9, 0⟩, ⟨-3, 3⟩, ⟨3, -3⟩, ⟨0, 0⟩, ⟨3, -3⟩, ⟨12, 0⟩] := by
  refine ⟨inOrder_lookup _, by decide +kernel, by decide +kernel⟩

/-- The documented bound "radius + cell_size" on the distance of what is returned is not kept: with
cell size 10 and radius 3 an element at distance 18 is returned. -/
theorem C38_documented_bound_fails :
    ∃ (s r : Int) (es : List Pt) (q e : Pt), 0 < s ∧ 0 ≤ r ∧
      e ∈ getNearby s (inOrder (pointGrid s id es)) q r ∧ ¬ WithinSquare q (r + s) e :=
  ⟨10, 3, [⟨-9, 0⟩], ⟨9, 3⟩, ⟨-9, 0⟩, by decide, by decide, by decide +kernel, by decide⟩

/-- **C38.** Any processing of the elements near a point goes through the elements of the radius query
one after the other until the callback stops it. -/
theorem C38_process {σ : Type} (s : Int) (look : Pt → List E) (q : Pt) (r : Int)
    (f : σ → E → Bool × σ) (st : σ) :
    processNearby s look q r f st = processAll f (getNearby s look q r) st := by
  rw [processNearby_eq, getNearby_eq]

example : processNearby 10 (inOrder (pointGrid 10 id [⟨-9, 0⟩, ⟨-3, 3⟩, (⟨0, 0⟩ : Pt)])) ⟨0, 0⟩ 3
    (fun (st : Nat) e => (decide (e.y = 0), st + 1)) 0 = (false, 2) := by decide +kernel

/-- **C38.** The nearest-element query finds an element exactly if one that satisfies the precondition
is closer than the radius, and what it finds is stored, satisfies the precondition, is closer than the
radius, and no other such element is closer. -/
theorem C38_nearest (s : Int) (hs : 0 < s) (loc : E → Pt) (es : List E) (look : Pt → List E)
    (hl : Lookup (pointGrid s loc es) look) (q : Pt) (r : Int) (hr : 0 ≤ r) (pre : E → Bool) :
    match getNearest s look loc q r pre with
    | some e => e ∈ es ∧ pre e = true ∧ dist2 (loc e) q < r * r ∧
        ∀ e' ∈ es, pre e' = true → dist2 (loc e) q ≤ dist2 (loc e') q
    | none => ∀ e ∈ es, pre e = true → r * r ≤ dist2 (loc e) q := by
  have hperm := nearby_perm loc es look hl q r
  unfold getNearest
  rw [processNearby_eq, ← getNearby_eq]
  obtain ⟨h1, h2, h3⟩ := nearest_fold loc q pre (getNearby s look q r) (none, r * r)
  have hmem : ∀ e ∈ es, dist2 (loc e) q < r * r → e ∈ getNearby s look q r := by
    intro e he hd
    rw [hperm.mem_iff, List.mem_filter]
    exact ⟨he, decide_eq_true (grid_in hs _ _ _ (dist2_within _ _ r hr hd.le))⟩
  generalize processAll (nearestStep loc q pre) (getNearby s look q r) (none, r * r) = res at *
  rcases h3 with h3 | ⟨e, he, hp, hd, h3⟩
  · rw [h3]
    rw [h3] at h2
    intro e he hp
    by_contra hc
    exact absurd (h2 e (hmem e he (not_le.1 hc)) hp) hc
  · rw [h3]
    rw [h3] at h2
    dsimp only at h2 hd ⊢
    have hes : e ∈ es := (List.mem_filter.1 (hperm.mem_iff.1 he)).1
    refine ⟨hes, hp, hd, ?_⟩
    intro e' he' hp'
    by_contra hc
    exact hc (h2 e' (hmem e' he' (by omega)) hp')

example :
    let es : List Pt := [⟨-9, 0⟩, ⟨-3, 4⟩, ⟨3, -3⟩, ⟨1, 0⟩]
    let look := inOrder (pointGrid 10 id es)
    getNearest 10 look id ⟨0, 0⟩ 5 (fun e => decide (e.y ≠ 0)) = some ⟨3, -3⟩ ∧
    getNearest 10 look id ⟨0, 0⟩ 5 (fun e => decide (e.y > 0)) = none := by
  constructor <;> decide +kernel

/-- **C38.** The any-element query returns a stored element at most the radius away, if there is one,
and otherwise nothing. -/
theorem C38_any (s : Int) (hs : 0 < s) (loc : E → Pt) (es : List E) (look : Pt → List E)
    (hl : Lookup (pointGrid s loc es) look) (q : Pt) (r : Int) (hr : 0 ≤ r) :
    match getAnyNearby s look loc q r with
    | some e => e ∈ es ∧ dist2 (loc e) q ≤ r * r
    | none => ∀ e ∈ es, r * r < dist2 (loc e) q := by
  have hperm := nearby_perm loc es look hl q r
  unfold getAnyNearby
  rw [processNearby_eq, ← getNearby_eq, any_fold]
  cases h : (getNearby s look q r).find? (fun e => shorterThen (loc e) q r) with
  | some e =>
    have h1 := List.mem_of_find?_eq_some h
    have h2 := List.find?_some h
    exact ⟨(List.mem_filter.1 (hperm.mem_iff.1 h1)).1, (shorterThen_iff _ _ r hr).1 h2⟩
  | none =>
    intro e he
    by_contra hc
    have hd := not_lt.1 hc
    have hm : e ∈ getNearby s look q r := by
      rw [hperm.mem_iff, List.mem_filter]
      exact ⟨he, decide_eq_true (grid_in hs _ _ _ (dist2_within _ _ r hr hd))⟩
    have := List.find?_eq_none.1 h e hm
    exact this ((shorterThen_iff _ _ r hr).2 hd)

example :
    let look := inOrder (pointGrid 10 id [⟨-9, 0⟩, ⟨-3, 4⟩, (⟨13, -3⟩ : Pt)])
    getAnyNearby 10 look id ⟨0, 0⟩ 5 = some ⟨-3, 4⟩ ∧ getAnyNearby 10 look id ⟨0, 0⟩ 4 = none := by
  constructor <;> decide +kernel

/-! ### C51 -/

/-- **C51.** A line walk passes every cell that contains a point of the line segment. -/
theorem C51_covers (s : Int) (hs : 0 < s) (line : Pt × Pt) (x y : ℚ) (h : OnSegment line x y)
    (c : Pt) (hc : InCell s c x y) : c ∈ lineCells s line := by
  have h1 := (inCell1_iff hs _ _).1 hc.1
  have h2 := (inCell1_iff hs _ _).1 hc.2
  have := lineCells_covers hs line x y h
  rw [h1, h2] at this
  exact this

/-- From (-15, 12) to (25, -31), through nine cells; the walk starts at the end with the smaller x. -/
example : lineCells 10 (⟨25, -31⟩, ⟨-15, 12⟩) =
    [⟨-1, 1⟩, ⟨-1, 0⟩, ⟨0, 0⟩, ⟨0, -1⟩, ⟨1, -1⟩, ⟨1, -2⟩, ⟨2, -2⟩, ⟨2, -3⟩] ∧
    OnSegment (⟨25, -31⟩, ⟨-15, 12⟩) 5 (-19 / 2) ∧ InCell 10 ⟨0, 0⟩ 5 (-19 / 2) := by
  refine ⟨by decide +kernel, ⟨1 / 2, ?_⟩, ?_⟩
  · norm_num [lerp]
  · norm_num [InCell, InCell1]

/-- **C51.** Every cell a line walk passes is touched by the line: some point of the line is in the
cell's column and in its row, borders included. -/
theorem C51_close (s : Int) (hs : 0 < s) (line : Pt × Pt) (c : Pt) (hc : c ∈ lineCells s line) :
    ∃ x y : ℚ, OnSegment line x y ∧ InCell1 s c.x x ∧ InClosed1 s c.y y := by
  rw [lineCells_eq hs] at hc
  obtain ⟨t, h0, h1, h2, h3⟩ := (walk_line hs line).close c hc
  refine ⟨_, _, (onSegment_order line _ _).1 ⟨t, h0, h1, rfl, rfl⟩, ?_, h3⟩
  exact (inCell1_iff hs _ _).2 h2

/-- **C51.** No cell is passed twice. -/
theorem C51_once (s : Int) (hs : 0 < s) (line : Pt × Pt) : (lineCells s line).Nodup := by
  rw [lineCells_eq hs]
  exact (walk_line hs line).nodup

/-- **C51.** A walk along a line always ends properly, whatever the callback does: the cells are
handed out one after the other until the callback stops it, and if it does not, the walk ends with
success right after the cell of the end of the line that has the larger x. The assertion behind the
loop is never reached. -/
theorem C51_ends {σ : Type} (s : Int) (hs : 0 < s) (line : Pt × Pt) (f : σ → Pt → Bool × σ) (st : σ) :
    (processLineCells s line f st =
      match processAll f (lineCells s line) st with
      | (true, st') => .reached st'
      | (false, st') => .stopped st') ∧
    ∃ l, lineCells s line = l ++ [toGridPoint s (orderX line).2] := by
  constructor
  · rw [processLineCells_eq hs]
    obtain ⟨b, st', h⟩ : ∃ b st', processAll f (lineCells s line) st = (b, st') := ⟨_, _, rfl⟩
    rw [h]
    cases b <;> rfl
  · rw [lineCells_eq hs]
    exact (walk_line hs line).last

/-- A callback that stops at the third cell. -/
example : processLineCells 10 (⟨25, -31⟩, ⟨-15, 12⟩) (fun (n : Nat) _ => (decide (n < 2), n + 1)) 0 =
    .stopped 3 := by
  rw [(C51_ends 10 (by decide) _ _ _).1]
  have : processAll (fun (n : Nat) (_ : Pt) => (decide (n < 2), n + 1))
    (lineCells 10 (⟨25, -31⟩, ⟨-15, 12⟩)) 0 = (false, 3) := by decide +kernel
  rw [this]

/-- **C51.** Asking a line grid for the elements along a line visits every stored element whose line
has a point in common with that line. -/
theorem C51_meet (s : Int) (hs : 0 < s) (loc : E → Pt × Pt) (es : List E) (look : Pt → List E)
    (hl : Lookup (lineGrid s loc es) look) (line : Pt × Pt) (e : E) (he : e ∈ es)
    (hm : Meet line (loc e)) :
    ∃ found, processLine s look line (fun ret e => (true, ret ++ [e])) [] = .reached found ∧
      e ∈ found := by
  refine ⟨(lineCells s line).flatMap look, ?_, ?_⟩
  · rw [processLine_eq hs, processAll_collect]
    simp [lineOf]
  · obtain ⟨x, y, h1, h2⟩ := hm
    rw [List.mem_flatMap]
    refine ⟨_, lineCells_covers hs line x y h1, ?_⟩
    rw [mem_lookup hl, lineGrid_eq hs, List.mem_flatMap]
    exact ⟨e, he, List.mem_map.2 ⟨_, lineCells_covers hs (loc e) x y h2, rfl⟩⟩

/-- **C51.** Nothing is found along a line but stored elements that share a cell with it. -/
theorem C51_meet_only (s : Int) (hs : 0 < s) (loc : E → Pt × Pt) (es : List E) (look : Pt → List E)
    (hl : Lookup (lineGrid s loc es) look) (line : Pt × Pt) (e : E) (found : List E)
    (hf : processLine s look line (fun ret e => (true, ret ++ [e])) [] = .reached found)
    (he : e ∈ found) : e ∈ es ∧ ∃ c, c ∈ lineCells s line ∧ c ∈ lineCells s (loc e) := by
  rw [processLine_eq hs, processAll_collect] at hf
  simp only [lineOf, if_true, List.nil_append, LineEnd.reached.injEq] at hf
  subst hf
  obtain ⟨c, hc, hec⟩ := List.mem_flatMap.1 he
  rw [mem_lookup hl, lineGrid_eq hs, List.mem_flatMap] at hec
  obtain ⟨e', he', hm⟩ := hec
  obtain ⟨c', hc', heq⟩ := List.mem_map.1 hm
  injection heq with h1 h2
  subst h1; subst h2
  exact ⟨he', c', hc, hc'⟩

/-- **C51.** A radius query on a line grid returns every stored element whose line comes within the
square of that radius around the query point. -/
theorem C51_near (s : Int) (hs : 0 < s) (loc : E → Pt × Pt) (es : List E) (look : Pt → List E)
    (hl : Lookup (lineGrid s loc es) look) (q : Pt) (r : Int) (e : E) (he : e ∈ es) (x y : ℚ)
    (hon : OnSegment (loc e) x y) (hx : (q.x - r : ℚ) ≤ x ∧ x ≤ q.x + r)
    (hy : (q.y - r : ℚ) ≤ y ∧ y ≤ q.y + r) : e ∈ getNearby s look q r := by
  rw [getNearby_eq, List.mem_flatMap]
  refine ⟨⟨cellR s x, cellR s y⟩, ?_, ?_⟩
  · rw [mem_nearbyCells]
    simp only [toGridCoord_eq hs]
    push_cast
    exact ⟨⟨cellR_mono hs hx.1, cellR_mono hs hx.2⟩, ⟨cellR_mono hs hy.1, cellR_mono hs hy.2⟩⟩
  · rw [mem_lookup hl, lineGrid_eq hs, List.mem_flatMap]
    exact ⟨e, he, List.mem_map.2 ⟨_, lineCells_covers hs (loc e) x y hon, rfl⟩⟩

/-- Three stored lines; the query line crosses the first two between grid points. -/
example :
    let es : List (Pt × Pt) := [(⟨-20, 20⟩, ⟨20, -19⟩), (⟨5, -40⟩, ⟨6, 40⟩), (⟨100, 100⟩, ⟨130, 90⟩)]
    Meet (⟨-20, -20⟩, ⟨21, 20⟩) (⟨5, -40⟩, ⟨6, 40⟩) ∧
    (processLine 10 (inOrder (lineGrid 10 id es)) (⟨-20, -20⟩, ⟨21, 20⟩)
      (fun ret e => (true, ret ++ [e])) []).state.eraseDups =
        [(⟨5, -40⟩, ⟨6, 40⟩), (⟨-20, 20⟩, ⟨20, -19⟩)] := by
  constructor
  · exact ⟨_, _, ⟨101 / 162, by norm_num, by norm_num, rfl, rfl⟩,
      ⟨91 / 162, by norm_num, by norm_num, by norm_num [lerp], by norm_num [lerp]⟩⟩
  · decide +kernel

end Verif.Grid
