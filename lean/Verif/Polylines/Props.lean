import Verif.Polylines.SegmentLemmas

/-! # Stitching polylines (C105) -/

namespace Verif.Polylines

open Grid (Pt dist2)

variable {J : Type}

/-- C105: the stitching of lines that are not empty ends, in whatever order the grid yields its elements. The results are chains of the lines,
and every line is in exactly one of the chains, once. -/
theorem C105_chains (c : Cfg J) (lines : List (Line J)) (look : Pt → List End) (hm : 0 < c.maxDist)
    (hl : Grid.Lookup (Grid.pointGrid c.maxDist (place c lines) (ends lines)) look) (hne : ∀ l ∈ lines, l.pts ≠ []) :
    ∃ results chains, stitch c lines look = some results ∧ Chains c lines results chains ∧
      (chains.flatten.map Prod.fst).Perm (List.range lines.length) := by
  have hany : ¬(lines.any fun l => l.pts.isEmpty) = true := by
    rw [List.any_eq_true]
    rintro ⟨l, hl, he⟩
    exact hne l hl (by simpa using he)
  obtain ⟨rs, pss, h1, h2, h3⟩ := loop_inv (done := []) (i := 0) hm hl hne lines (by simp) (by simp) (by simp) (by simp) (by simp)
  refine ⟨rs, pss, ?_, h2, by simpa using h3⟩
  unfold stitch
  rw [if_neg hany]
  exact h1

/-- C105: every segment of a result is one of the lines', or is at most as long as the maximal distance, or is one of the lines' with an end
that is moved by less than the snap distance. All of its vertices are the lines'. -/
theorem C105_segments (c : Cfg J) (lines : List (Line J)) (look : Pt → List End) (hm : 0 < c.maxDist)
    (hl : Grid.Lookup (Grid.pointGrid c.maxDist (place c lines) (ends lines)) look) (results : List (Result J))
    (h : stitch c lines look = some results) (r : Result J) (hr : r ∈ results) :
    r.pts.IsChain (Follows c lines) ∧ ∀ x ∈ r.pts, ∃ l ∈ lines, x ∈ l.pts := by
  have hne : ∀ l ∈ lines, l.pts ≠ [] := by
    intro l hl he
    unfold stitch at h
    rw [if_pos (List.any_eq_true.mpr ⟨l, hl, by simp [he]⟩)] at h
    exact absurd h (by simp)
  obtain ⟨rs, pss, h1, h2, -⟩ := C105_chains c lines look hm hl hne
  rw [h] at h1
  simp only [Option.some.injEq] at h1
  subst h1
  obtain ⟨o, ps, hc⟩ := (chains_mem h2).1 r hr
  obtain ⟨w, hj, hw⟩ := ischain_turn hc
  rcases hw with hw | hw
  · rw [hw]
    exact ⟨joined_follows hj, joined_mem hj⟩
  · rw [hw]
    exact ⟨reverse_chain (joined_follows hj), fun x hx => joined_mem hj x (List.mem_reverse.mp hx)⟩

/-- C105: every vertex of every line is in a result, or closer than the snap distance to one that is. -/
theorem C105_vertices (c : Cfg J) (lines : List (Line J)) (look : Pt → List End) (hm : 0 < c.maxDist)
    (hl : Grid.Lookup (Grid.pointGrid c.maxDist (place c lines) (ends lines)) look) (results : List (Result J))
    (h : stitch c lines look = some results) (l : Line J) (hll : l ∈ lines) (x : J) (hx : x ∈ l.pts) :
    ∃ r ∈ results, r.odd = l.odd ∧ (x ∈ r.pts ∨ ∃ y ∈ r.pts, size (c.pt x) (c.pt y) < c.snap) := by
  have hne : ∀ l ∈ lines, l.pts ≠ [] := by
    intro l hl he
    unfold stitch at h
    rw [if_pos (List.any_eq_true.mpr ⟨l, hl, by simp [he]⟩)] at h
    exact absurd h (by simp)
  obtain ⟨rs, pss, h1, h2, h3⟩ := C105_chains c lines look hm hl hne
  rw [h] at h1
  simp only [Option.some.injEq] at h1
  subst h1
  obtain ⟨k, hk⟩ := List.mem_iff_getElem?.mp hll
  have hkm : k ∈ pss.flatten.map Prod.fst := h3.symm.subset (List.mem_range.mpr (List.getElem?_eq_some_iff.mp hk).1)
  obtain ⟨p, hp, rfl⟩ := List.mem_map.mp hkm
  obtain ⟨ps, hps, hpps⟩ := List.mem_flatten.mp hp
  obtain ⟨r, hr, o, hc⟩ := (chains_mem h2).2 ps hps
  obtain ⟨w, hj, hw⟩ := ischain_turn hc
  have hmem : ∀ y, y ∈ r.pts ↔ y ∈ w := by
    intro y
    rcases hw with hw | hw <;> rw [hw]
    exact List.mem_reverse
  refine ⟨r, hr, (joined_odd hj p hpps l hk).symm, ?_⟩
  rcases joined_keeps hj p hpps l hk x hx with h | ⟨y, hy, h⟩
  · exact Or.inl ((hmem x).mpr h)
  · exact Or.inr ⟨y, (hmem y).mpr hy, h⟩

end Verif.Polylines
