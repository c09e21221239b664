import Verif.Slicer.StitchJoin

/-! # C35, C36: stitching open polylines

`connectLines lines polygons queue` is what `connectOpenPolylinesImpl` makes of the open polylines `lines` and the polygons
`polygons` when the stitches come out of the queue in the order `queue`. The theorems hold for every order (the comparison is not a
proper ordering, see C36, so the order is not determined). -/

namespace Verif.Slicer

/-- C35. No geometry is lost and only small gaps are bridged: every polyline and every new polygon afterwards consists of whole
original polylines (`chains`, `closed`: number and direction), each original one is used exactly once, consecutive ones are closer
than the maximum distance, for a polygon also the last and the first; without `allow_reverse` none is reversed. -/
theorem C35_stitching (lines polygons : List (List P2)) (maxDist : Int) (allowReverse : Bool) (queue : List Stitch)
    (hq : queue.Perm (possibleStitches lines maxDist allowReverse)) :
    ∃ (lines' polygons' : List (List P2)) (chains closed : List (List Piece)),
      connectLines lines polygons queue = .ok (lines', polygons') ∧
      lines' = chains.map (piecePoints lines) ∧ chains.length = lines.length ∧
      polygons' = polygons ++ closed.map (piecePoints lines) ∧
      ((chains ++ closed).flatten.map Prod.fst).Perm (List.range lines.length) ∧
      (∀ c ∈ chains ++ closed, c.IsChain (Joint lines maxDist)) ∧
      (∀ c ∈ closed, ∃ last ∈ c.getLast?, ∃ first ∈ c.head?, Joint lines maxDist last first) ∧
      (allowReverse = false → ∀ c ∈ chains ++ closed, ∀ x ∈ c, x.2 = false) := by
  obtain ⟨hi, hf⟩ := init_ok lines polygons maxDist
  obtain ⟨s, chain, closed, hs, inv, fwd, _, _⟩ := stitchAll_ok (ar := allowReverse) queue hi (fun _ => hf)
    (fun x hx => valid_possible (hq.mem_iff.1 hx))
  refine ⟨_, _, (List.range lines.length).map chain, closed, by unfold connectLines; rw [hs]; rfl, ?_, by simp, inv.polys, inv.perm,
    ?_, ?_, ?_⟩
  · rw [List.map_map]
    apply List.map_congr_left
    intro i hi
    exact inv.pts i (List.mem_range.1 hi)
  · intro c hc
    rw [List.mem_append, List.mem_map] at hc
    rcases hc with ⟨i, hi, rfl⟩ | hc
    · exact inv.chains i (List.mem_range.1 hi)
    · exact (inv.closes c hc).1
  · intro c hc; exact (inv.closes c hc).2
  · intro har c hc
    rw [List.mem_append, List.mem_map] at hc
    rcases hc with ⟨i, hi, rfl⟩ | hc
    · exact (fwd har).1 i (List.mem_range.1 hi)
    · exact (fwd har).2 c hc

theorem flatMap_pieces_perm (lines : List (List P2)) (c : List Piece) :
    (piecePoints lines c).Perm ((c.map Prod.fst).flatMap fun i => lines.getD i []) := by
  unfold piecePoints
  rw [List.flatMap_map]
  refine List.Perm.flatMap_left c fun x _ => ?_
  unfold oriented
  split
  · exact List.reverse_perm _
  · exact List.Perm.refl _

theorem range_flatMap (lines : List (List P2)) : ((List.range lines.length).flatMap fun i => lines.getD i []) = lines.flatten := by
  rw [List.flatMap_def]
  congr 1
  apply List.ext_getElem
  · simp
  · intro i h1 h2; simp [List.getD_eq_getElem?_getD, List.getElem?_eq_getElem h2]

/-- C35. The points afterwards are the points before, each as often. -/
theorem C35_points (lines polygons : List (List P2)) (maxDist : Int) (allowReverse : Bool) (queue : List Stitch)
    (hq : queue.Perm (possibleStitches lines maxDist allowReverse)) :
    ∃ lines' polygons', connectLines lines polygons queue = .ok (lines', polygons') ∧
      (lines'.flatten ++ polygons'.flatten).Perm (lines.flatten ++ polygons.flatten) := by
  obtain ⟨lines', polygons', chains, closed, h1, h2, _, h4, h5, _⟩ := C35_stitching lines polygons maxDist allowReverse queue hq
  refine ⟨lines', polygons', h1, ?_⟩
  have key : ∀ cs : List (List Piece), ((cs.map (piecePoints lines)).flatten).Perm
      ((cs.flatten.map Prod.fst).flatMap fun i => lines.getD i []) := by
    intro cs
    have : (cs.map (piecePoints lines)).flatten = piecePoints lines cs.flatten := by
      unfold piecePoints
      induction cs with
      | nil => rfl
      | cons c cs ih => simp only [List.map_cons, List.flatten_cons, List.flatMap_append]; rw [ih]
    rw [this]
    exact flatMap_pieces_perm lines _
  have k := key (chains ++ closed)
  have k2 := (k.trans (List.Perm.flatMap_right _ h5))
  rw [range_flatMap, List.map_append, List.flatten_append] at k2
  rw [h2, h4, List.flatten_append]
  refine List.Perm.trans ?_ (k2.append_right _)
  rw [List.append_assoc]
  exact List.perm_append_comm.append_left _

/-- C35. No stitch is missed: afterwards the end of a remaining polyline is at least the maximum distance away from the start of
every remaining polyline (its own included). With `allow_reverse` the same holds for two ends and two starts of different
polylines. -/
theorem C35_maximal (lines polygons : List (List P2)) (maxDist : Int) (allowReverse : Bool) (queue : List Stitch)
    (hq : queue.Perm (possibleStitches lines maxDist allowReverse)) :
    ∃ lines' polygons', connectLines lines polygons queue = .ok (lines', polygons') ∧
      (∀ a ∈ lines', ∀ b ∈ lines', ∀ p ∈ a.getLast?, ∀ q ∈ b.head?, maxDist * maxDist ≤ dist2 p q) ∧
      (allowReverse = true → ∀ (i j : Nat) (a b : List P2), i ≠ j → lines'[i]? = some a → lines'[j]? = some b →
        (∀ p ∈ a.getLast?, ∀ q ∈ b.getLast?, maxDist * maxDist ≤ dist2 p q) ∧
        (∀ p ∈ a.head?, ∀ q ∈ b.head?, maxDist * maxDist ≤ dist2 p q)) := by
  obtain ⟨hi, hf⟩ := init_ok lines polygons maxDist
  obtain ⟨s, chain, closed, hs, inv, fwd, _, used⟩ := stitchAll_ok (ar := allowReverse) queue hi (fun _ => hf)
    (fun x hx => valid_possible (hq.mem_iff.1 hx))
  have main : ∀ i < lines.length, ∀ j < lines.length, ∀ e f t u, ¬(i = j ∧ e = f) → chainT (chain i) e = some t →
      chainT (chain j) f = some u → (e = true ∧ f = false) ∨ allowReverse = true → ∀ p q, pointT lines t = some p →
      pointT lines u = some q → maxDist * maxDist ≤ dist2 p q := by
    intro i hi j hj e f t u hne ht hu har p q hp hq'
    by_contra hlt
    have hlt : dist2 p q < maxDist * maxDist := by omega
    have htu : t ≠ u := inv.distinct hi hj ht hu hne
    have l1 := (inv.live i hi e t ht).1
    have l2 := (inv.live j hj f u hu).1
    have no : ∀ x : Stitch, (x.t0 = t ∧ x.t1 = u) ∨ (x.t0 = u ∧ x.t1 = t) → x ∉ queue := by
      intro x hx hmem
      rcases hx with ⟨rfl, rfl⟩ | ⟨rfl, rfl⟩
      · rcases used x hmem with h | h
        · rw [h] at l1; simp at l1
        · rw [h] at l2; simp at l2
      · rcases used x hmem with h | h
        · rw [h] at l2; simp at l2
        · rw [h] at l1; simp at l1
    have hlt' : dist2 q p < maxDist * maxDist := by rw [dist2_comm]; exact hlt
    have side : (isEnd t = true ∧ isEnd u = false) ∨ (allowReverse = true) := by
      cases hb : allowReverse with
      | true => exact Or.inr rfl
      | false =>
        left
        rcases har with ⟨he, hf'⟩ | har
        · obtain ⟨f1, _⟩ := fwd hb
          exact ⟨by rw [chainT_forward (f1 i hi) ht, he], by rw [chainT_forward (f1 j hj) hu, hf']⟩
        · rw [hb] at har; simp at har
    rcases side with hside | hb
    · exact no ⟨dist2 p q, t, u⟩ (Or.inl ⟨rfl, rfl⟩) (hq.mem_iff.2 (mem_possible.2 ⟨p, hp, q, hq', hlt, rfl, Or.inl hside⟩))
    · by_cases hee : isEnd t = isEnd u
      · have hl : lineOf t ≠ lineOf u := by
          intro hl
          apply htu
          rw [← term_eta t, ← term_eta u, hl, hee]
        exact no ⟨dist2 p q, t, u⟩ (Or.inl ⟨rfl, rfl⟩)
          (hq.mem_iff.2 (mem_possible.2 ⟨p, hp, q, hq', hlt, rfl, Or.inr ⟨hb, hee, hl⟩⟩))
      · cases h1 : isEnd t with
        | true =>
          have h2 : isEnd u = false := by rw [h1] at hee; cases h : isEnd u <;> simp_all
          exact no ⟨dist2 p q, t, u⟩ (Or.inl ⟨rfl, rfl⟩)
            (hq.mem_iff.2 (mem_possible.2 ⟨p, hp, q, hq', hlt, rfl, Or.inl ⟨h1, h2⟩⟩))
        | false =>
          have h2 : isEnd u = true := by rw [h1] at hee; cases h : isEnd u <;> simp_all
          exact no ⟨dist2 q p, u, t⟩ (Or.inr ⟨rfl, rfl⟩)
            (hq.mem_iff.2 (mem_possible.2 ⟨q, hq', p, hp, hlt', rfl, Or.inl ⟨h2, h1⟩⟩))
  refine ⟨_, _, by unfold connectLines; rw [hs]; rfl, ?_, ?_⟩
  · intro a ha b hb p hp q hq'
    obtain ⟨i, hi, rfl⟩ := List.mem_map.1 ha
    obtain ⟨j, hj, rfl⟩ := List.mem_map.1 hb
    rw [List.mem_range] at hi hj
    rw [inv.pts i hi] at hp
    rw [inv.pts j hj] at hq'
    obtain ⟨t, ht, hpt⟩ := piecePoints_last (inv.chains i hi) hp
    obtain ⟨u, hu, hqu⟩ := piecePoints_head (inv.chains j hj) hq'
    exact main i hi j hj true false t u (by simp) ht hu (Or.inl ⟨rfl, rfl⟩) p q hpt hqu
  · intro har i j a b hij ha hb
    rw [List.getElem?_map, Option.map_eq_some_iff] at ha hb
    obtain ⟨i', hi', rfl⟩ := ha
    obtain ⟨j', hj', rfl⟩ := hb
    obtain ⟨hi, rfl⟩ := List.getElem?_eq_some_iff.1 hi'
    obtain ⟨hj, rfl⟩ := List.getElem?_eq_some_iff.1 hj'
    rw [List.length_range] at hi hj
    rw [List.getElem_range, List.getElem_range]
    constructor
    · intro p hp q hq'
      rw [inv.pts i hi] at hp
      rw [inv.pts j hj] at hq'
      obtain ⟨t, ht, hpt⟩ := piecePoints_last (inv.chains i hi) hp
      obtain ⟨u, hu, hqu⟩ := piecePoints_last (inv.chains j hj) hq'
      exact main i hi j hj true true t u (by tauto) ht hu (Or.inr har) p q hpt hqu
    · intro p hp q hq'
      rw [inv.pts i hi] at hp
      rw [inv.pts j hj] at hq'
      obtain ⟨t, ht, hpt⟩ := piecePoints_head (inv.chains i hi) hp
      obtain ⟨u, hu, hqu⟩ := piecePoints_head (inv.chains j hj) hq'
      exact main i hi j hj false false t u (by tauto) ht hu (Or.inr har) p q hpt hqu

/-- Three sides of a square, the second one given in the wrong direction, and a line that is far away. -/
def exLines : List (List P2) := [[⟨0, 0⟩, ⟨100, 0⟩], [⟨0, 99⟩, ⟨50, 100⟩, ⟨100, 2⟩], [⟨0, 101⟩, ⟨0, 3⟩], [⟨900, 0⟩, ⟨950, 0⟩]]

example : (possibleStitches exLines 10 true).length = 5 ∧
    connectLines exLines [] (possibleStitches exLines 10 true) = .ok ([[], [], [], [⟨900, 0⟩, ⟨950, 0⟩]],
      [[⟨0, 101⟩, ⟨0, 3⟩, ⟨0, 0⟩, ⟨100, 0⟩, ⟨100, 2⟩, ⟨50, 100⟩, ⟨0, 99⟩]]) ∧
    connectLines exLines [] (possibleStitches exLines 10 false) = .ok ([[], [⟨0, 99⟩, ⟨50, 100⟩, ⟨100, 2⟩],
      [⟨0, 101⟩, ⟨0, 3⟩, ⟨0, 0⟩, ⟨100, 0⟩], [⟨900, 0⟩, ⟨950, 0⟩]], []) := by
  decide +kernel

/-! ## C36 -/

/-- Three polylines: the first two end 5 apart, the third ends 5 before the start of the second. -/
def exTie : List (List P2) := [[⟨-300, 0⟩, ⟨0, 0⟩], [⟨100, 0⟩, ⟨0, 5⟩], [⟨300, 0⟩, ⟨100, 5⟩]]

/-- C36 is false of the code: among the stitches found for `exTie` there are two that are each less than the other, so the
comparison is not a strict weak ordering and the standard library gives no guarantee for the queue. -/
theorem C36_not_an_ordering : ∃ s ∈ possibleStitches exTie 10 true, ∃ o ∈ possibleStitches exTie 10 true,
    s.less o = true ∧ o.less s = true := by
  refine ⟨⟨25, 1, 3⟩, by decide, ⟨25, 5, 2⟩, by decide, by decide⟩

/-- C36, what does hold. Missing: stitches of equal length of which only one is in order, see `C36_not_an_ordering`. A stitch is
never less than itself, a longer one is less than a shorter one, and among stitches that are all in order or all not in order the
comparison is a strict total order. -/
theorem C36_ordering_partial :
    (∀ s : Stitch, s.less s = false) ∧
    (∀ s o : Stitch, s.dist2 ≠ o.dist2 → (s.less o = true ↔ o.dist2 < s.dist2)) ∧
    (∀ s o : Stitch, s.inOrder = o.inOrder → s.less o = true → o.less s = false) ∧
    (∀ s o u : Stitch, s.inOrder = o.inOrder → o.inOrder = u.inOrder → s.less o = true → o.less u = true → s.less u = true) ∧
    (∀ s o : Stitch, s.inOrder = o.inOrder → s ≠ o → s.less o = true ∨ o.less s = true) := by
  refine ⟨?_, ?_, ?_, ?_, ?_⟩
  · intro s; unfold Stitch.less; cases s.inOrder <;> simp
  · intro s o h
    unfold Stitch.less
    split
    · rename_i h1; simp; omega
    · split
      · rename_i h1; simp; omega
      · omega
  · intro s o h
    unfold Stitch.less
    rw [h]
    cases o.inOrder <;> (simp; omega)
  · intro s o u h h'
    unfold Stitch.less
    rw [h, h']
    cases u.inOrder <;> (simp; omega)
  · intro s o h hne
    have : s.dist2 = o.dist2 → s.t0 = o.t0 → s.t1 ≠ o.t1 := by
      intro a b c; apply hne; cases s; cases o; simp_all
    unfold Stitch.less
    rw [h]
    cases o.inOrder <;> (simp; omega)

/-- C36 in the first phase (without reversing): the comparison is a strict total order on the stitches in the queue. -/
theorem C36_first_phase (lines : List (List P2)) (maxDist : Int) (s o u : Stitch) (hs : s ∈ possibleStitches lines maxDist false)
    (ho : o ∈ possibleStitches lines maxDist false) (hu : u ∈ possibleStitches lines maxDist false) :
    s.less s = false ∧ (s.less o = true → o.less u = true → s.less u = true) ∧ (s ≠ o → s.less o = true ∨ o.less s = true) := by
  have key : ∀ x ∈ possibleStitches lines maxDist false, x.inOrder = true := by
    intro x hx
    obtain ⟨h1, h2⟩ := (valid_possible hx).order rfl
    unfold Stitch.inOrder; rw [h1, h2]; rfl
  obtain ⟨h1, _, _, h4, h5⟩ := C36_ordering_partial
  exact ⟨h1 s, h4 s o u (by rw [key s hs, key o ho]) (by rw [key o ho, key u hu]), h5 s o (by rw [key s hs, key o ho])⟩

end Verif.Slicer
