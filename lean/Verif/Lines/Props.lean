import Verif.Lines.LineLemmas
import Verif.Lines.RunLemmas

/-! # C96, C97: infill lines and their connections -/

namespace Verif.Lines

theorem nonempty_any {outline : List (List Pt)} (hne : ∀ poly ∈ outline, poly ≠ []) : ¬ outline.any List.isEmpty = true := by
  intro h
  rw [List.any_eq_true] at h
  obtain ⟨p, hp, he⟩ := h
  exact hne p hp (List.isEmpty_iff.mp he)

/-- **C96.** Infill lines are `d` apart, wherever the outline is, and they cover every point of these lines that is inside of the
outline exactly once, and no point outside; with an exception of a micrometre at the outline, and of places that are thin compared
to the width of a line. -/
theorem C96_lines {c : Config} {outline : List (List Pt)} (hd : 0 < c.d) (hne : ∀ poly ∈ outline, poly ≠ []) (hz : c.zigzag = none) :
    ∃ l : List Seg, generate c outline = some (l.map fun s => [c.unrot (s.x, s.a), c.unrot (s.x, s.b)]) ∧
      (∀ s ∈ l, c.d ∣ s.x - c.shift) ∧
      ∀ (x : Int) (y : ℚ), ¬ Near (outline.map (·.map c.rot)) x y →
        covered l x y ≤ 1 ∧
        (covered l x y = 1 → c.d ∣ x - c.shift ∧ Inside (outline.map (·.map c.rot)) x y) ∧
        (c.d ∣ x - c.shift → (∃ p ∈ (outline.map (·.map c.rot)).flatten, x < p.1) → Inside (outline.map (·.map c.rot)) x y →
          covered l x y = 1 ∨ Thin (outline.map (·.map c.rot)) c.width x y) := by
  by_cases he : outline = []
  · subst he
    refine ⟨[], by simp [generate], by simp, ?_⟩
    intro x y _
    simp [covered]
  · obtain ⟨cuts, h1, -, h2⟩ := lines_good (width := c.width) hd (shiftOf_dvd c.shift c.d) (outline.map (·.map c.rot))
    refine ⟨_, ?_, h2⟩
    unfold generate
    rw [if_neg (by simp [hd.ne', he]), if_neg (nonempty_any hne)]
    dsimp only
    rw [h1]
    simp only [Option.map_some, connections, onlyOutline, hz, Bool.false_eq_true, if_false, List.nil_append]
    rw [addLines_segs, List.map_map]
    rfl

/-- **C97.** A zigzag pattern has the same lines, and connections along the outline. These are pieces of the outline between two
crossings with scanlines: those that link an even scanline to a neighbour, and end pieces if they are wanted. -/
theorem C97_zigzag {c : Config} {z : Zigzag} {outline : List (List Pt)} (hd : 0 < c.d) (hne : ∀ poly ∈ outline, poly ≠ []) (hz : c.zigzag = some z) :
    ∃ (shift : Int) (rounds : List (List Pt × List Piece)) (l : List Seg),
      generate c outline = some (((rounds.flatMap fun r => connectionsOf z c.d r.1 r.2) ++ l.map fun s => [(s.x, s.a), (s.x, s.b)]).map (·.map c.unrot)) ∧
      c.d ∣ shift - c.shift ∧
      rounds.map (·.1) = outline.map (·.map c.rot) ∧
      (∀ r ∈ rounds, Round c.d shift r.1 r.2) ∧
      Good c.d c.shift c.width (outline.map (·.map c.rot)) l := by
  by_cases he : outline = []
  · subst he
    refine ⟨c.shift, [], [], by simp [generate], by simp, rfl, by simp, by simp, ?_⟩
    intro x y _
    simp [covered, Inside, allEdges]
  · obtain ⟨cuts, h1, h3, h2⟩ := lines_good (width := c.width) hd (shiftOf_dvd c.shift c.d) (outline.map (·.map c.rot))
    have hne' : ∀ poly ∈ outline.map (·.map c.rot), poly ≠ [] := by
      intro poly hp
      rw [List.mem_map] at hp
      obtain ⟨q, hq, rfl⟩ := hp
      simpa using hne q hq
    refine ⟨shiftOf c.shift c.d, (outline.map (·.map c.rot)).map fun poly => (poly, pieces (polyEvents c.d (shiftOf c.shift c.d) poly)), _, ?_,
      shiftOf_dvd _ _, by rw [List.map_map]; exact List.map_id _, ?_, h2⟩
    · unfold generate
      rw [if_neg (by simp [hd.ne', he]), if_neg (nonempty_any hne)]
      dsimp only
      rw [h1, Option.map_some]
      congr 2
      congr 1
      · unfold connections
        rw [hz]
        dsimp only
        rw [connectors_eq hd hne']
        simp only [List.flatMap_map]
      · split
        · rename_i ho
          simp only [onlyOutline, hz, Bool.and_eq_true, decide_eq_true_eq] at ho
          rw [h3 ho.1.2, ← addLines_segs]
          simp [addLines, sorted, pairUp]
        · rw [addLines_segs]
    · intro r hr
      rw [List.mem_map] at hr
      obtain ⟨poly, hp, rfl⟩ := hr
      exact pieces_round hd (hne' poly hp)

/-- **C97.** Of two pieces that meet at the end of a line, at most one is a link between scanlines. So without end pieces at most one
connection ends at the end of a line. -/
theorem C97_one_link {c : Zigzag} {d shift : Int} {poly : List Pt} {ps : List Piece} (h : Round d shift poly ps) :
    (ps ++ ps.head?.toList).IsChain fun p q => ¬ (Zag c p ∧ Zag c q) := by
  have hkey : ∀ p ∈ ps, ∀ q : Piece, p.dst = q.src → ¬ (Zag c p ∧ Zag c q) := by
    intro p hp q hpq hz
    have h1 := h.close p hp
    rw [abs_le] at h1
    obtain ⟨⟨h2, h3, -⟩, ⟨h4, -⟩⟩ := hz
    omega
  rw [List.isChain_append]
  refine ⟨?_, ?_, ?_⟩
  · have := h.joined
    rw [List.isChain_iff_getElem] at this ⊢
    intro i hi
    exact hkey _ (List.getElem_mem _) _ (this i hi).1
  · cases ps.head? <;> simp
  · intro p hp q hq
    refine hkey p (List.mem_of_mem_getLast? hp) q ?_
    cases hh : ps.head? with
    | none => rw [hh] at hq; simp at hq
    | some x =>
      rw [hh] at hq
      simp only [Option.toList_some, List.head?_cons, Option.mem_def, Option.some.injEq] at hq
      subst hq
      exact (h.closed p hp x hh).1

/-- **C97.** A printed piece that goes back to its own scanline is there only if end pieces are wanted; one that does not begin at an
even scanline is never printed. -/
theorem C97_printed {c : Zigzag} {dist : Int} {ps : List Piece} {p : Piece} (h : p ∈ printed c dist ps) :
    p ∈ ps ∧ ((2 ∣ p.src ∧ p.src ≠ p.dst) ∨ (c.endpieces = true ∧ p.src = p.dst)) := by
  classical
  unfold printed at h
  rw [List.mem_append, List.mem_filter, List.mem_filter, decide_eq_true_eq, decide_eq_true_eq] at h
  rcases h with ⟨h1, h2⟩ | ⟨h1, h2⟩
  · refine ⟨List.dropLast_subset _ h1, ?_⟩
    rcases h2 with h2 | h2
    · exact .inl ⟨h2.1, h2.2.1⟩
    · exact .inr ⟨h2.1, h2.2.1⟩
  · rw [Option.mem_toList] at h1
    refine ⟨List.mem_of_mem_getLast? h1, ?_⟩
    rcases h2 with h2 | h2
    · exact .inl ⟨h2.1, h2.2.1⟩
    · exact .inr h2

end Verif.Lines
