import Verif.Slicer.LoopLemmas

/-! # C34: connecting segments into loops uses every segment once -/

namespace Verif.Slicer

/-- **C34**: for all segments and all adjacency tables that only refer to segments that exist, connecting the segments
terminates without undefined behaviour. There are chains of segments, some of them closed (`c.1`), such that: the polygons
are the points of the closed chains and the open polylines those of the other chains; every segment is in exactly one chain,
once; consecutive segments of a chain are linked by the adjacency, with a gap of at most 0.01 mm; and the last segment of a
closed chain is so linked to its first. -/
theorem C34_partition (L : Layer) (hT : ∀ f i, L.table f = some i → i < L.segs.length) (fuel : Nat)
    (hfuel : L.segs.length ≤ fuel) :
    ∃ (r : Loops) (cs : List (Bool × List Nat)), makeLoops L fuel = .ok r ∧
      r.polygons = (cs.filter (·.1)).map (fun c => chainPoints L c.2) ∧
      r.opens = (cs.filter (!·.1)).map (fun c => chainPoints L c.2) ∧
      (cs.map (·.2)).flatten.Perm (List.range L.segs.length) ∧
      (∀ c ∈ cs, c.2 ≠ [] ∧ c.2.IsChain (Linked L)) ∧
      (∀ c ∈ cs, c.1 = true → ∃ last ∈ c.2.getLast?, ∃ first ∈ c.2.head?, Linked L last first) := by
  obtain ⟨r, cs, h1, h2, _, h4⟩ := makeLoopsFrom_spec hT fuel hfuel (List.range L.segs.length) ⟨fun _ => false, [], []⟩ []
    (by simp) ⟨rfl, rfl, by simp, by simp, by simp, by simp, by simp⟩
  refine ⟨r, cs, h1, h2.polygons, h2.opens, ?_, h2.chain, h2.closed⟩
  refine (List.perm_ext_iff_of_nodup h2.nodup List.nodup_range).mpr fun i => ?_
  constructor
  · intro hi; rw [List.mem_range]; exact h2.range i hi
  · intro hi; exact (h2.added i).mp (h4 i hi)

/-- A table that refers to a segment that does not exist leads to undefined behaviour. -/
theorem C34_bad_table : makeLoops ⟨[⟨⟨0, 0⟩, ⟨5, 0⟩, 0, some 1, none⟩], fun _ => some 1, fun _ => []⟩ 1 = .ub := by rfl

/-- A square of four segments, one of them ending at a vertex, and one segment that leads nowhere. -/
def exLayer : Layer where
  segs := [⟨⟨0, 0⟩, ⟨100, 0⟩, 0, some 1, none⟩, ⟨⟨101, 0⟩, ⟨100, 100⟩, 1, some 2, none⟩, ⟨⟨100, 100⟩, ⟨0, 100⟩, 2, none, some 7⟩,
    ⟨⟨500, 0⟩, ⟨600, 0⟩, 3, some 9, none⟩, ⟨⟨0, 99⟩, ⟨0, 0⟩, 4, some 0, none⟩]
  table f := if f < 5 then some f else none
  conn v := if v = 7 then [2, 4] else []

example : (∀ f i, exLayer.table f = some i → i < exLayer.segs.length) ∧ exLayer.segs.length ≤ 5 ∧
    ∃ r, makeLoops exLayer 5 = .ok r ∧ r.polygons = [[⟨0, 0⟩, ⟨100, 0⟩, ⟨100, 100⟩, ⟨0, 100⟩, ⟨0, 0⟩]] ∧
      r.opens = [[⟨500, 0⟩, ⟨600, 0⟩]] := by
  refine ⟨fun f i h => ?_, by decide, _, rfl, by decide, by decide⟩
  simp only [exLayer] at h
  split at h
  · simp only [Option.some.injEq] at h; subst h; assumption
  · simp at h

end Verif.Slicer
