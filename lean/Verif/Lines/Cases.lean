import Verif.Lines.Props

/-! # Cases for C96 and C97 -/

namespace Verif.Lines

def plain : Config := ⟨400, 100, 350, id, id, none⟩

/-- A square with a hole. -/
def ring : List (List Pt) := [[(0, 0), (2000, 0), (2000, 2000), (0, 2000)], [(800, 800), (800, 1200), (1200, 1200), (1200, 800)]]

/-- Lines around the hole. -/
theorem ring_lines : generate plain ring = some [[(100, 0), (100, 2000)], [(500, 0), (500, 2000)], [(900, 0), (900, 800)], [(900, 1200), (900, 2000)],
    [(1300, 0), (1300, 2000)], [(1700, 0), (1700, 2000)]] := by decide +kernel

/-- C96 applies to it. -/
example : ∃ l : List Seg, generate plain ring = some (l.map fun s => [plain.unrot (s.x, s.a), plain.unrot (s.x, s.b)]) ∧ l ≠ [] := by
  obtain ⟨l, h, -⟩ := C96_lines (c := plain) (outline := ring) (by decide) (by decide) rfl
  refine ⟨l, h, ?_⟩
  rintro rfl
  rw [ring_lines] at h
  simp at h

/-- A point inside and one in the hole. -/
example : Inside ring 900 400 ∧ ¬ Inside ring 900 1000 ∧ ¬ Near ring 900 400 := by
  refine ⟨by unfold Inside; decide +kernel, by unfold Inside; decide +kernel, by unfold Near; decide +kernel⟩

def zig (endpieces connected : Bool) : Config := { plain with zigzag := some ⟨endpieces, connected, false, 0⟩ }

/-- Zigzag: links alternate between the lower and the upper side. -/
theorem square_zigzag : generate (zig false false) [[(0, 0), (2000, 0), (2000, 2000), (0, 2000)]] = some
    [[(100, 0), (500, 0)], [(900, 0), (1300, 0)], [(1700, 2000), (1300, 2000)], [(900, 2000), (500, 2000)],
      [(100, 0), (100, 2000)], [(500, 0), (500, 2000)], [(900, 0), (900, 2000)], [(1300, 0), (1300, 2000)], [(1700, 0), (1700, 2000)]] := by
  decide +kernel

/-- C97 applies to it. -/
example : ∃ (shift : Int) (rounds : List (List Pt × List Piece)), rounds.length = 2 ∧ ∀ r ∈ rounds, Round 400 shift r.1 r.2 := by
  obtain ⟨shift, rounds, l, -, -, h, h', -⟩ := C97_zigzag (c := zig false false) (outline := ring) (by decide) (by decide) rfl
  exact ⟨shift, rounds, by have := congrArg List.length h; simpa [ring] using this, h'⟩

/-- Two links at the same line: the pieces of the lower side of the square. -/
example : Round 400 100 [(0, 0), (2000, 0), (2000, 2000), (0, 2000)] (pieces (polyEvents 400 100 [(0, 0), (2000, 0), (2000, 2000), (0, 2000)])) :=
  pieces_round (by decide) (by decide)

example : (pieces (polyEvents 400 100 [(0, 0), (2000, 0), (2000, 2000), (0, 2000)])).map (fun p => (p.src, p.dst)) =
    [(0, 1), (1, 2), (2, 3), (3, 4), (4, 4), (4, 3), (3, 2), (2, 1), (1, 0), (0, 0)] := by decide +kernel

/-- End pieces: the right side is left out at its end, the left side, where the way around begins, is there as well. -/
theorem square_ends : generate (zig true false) [[(0, 0), (2000, 0), (2000, 2000), (0, 2000)]] = some
    [[(100, 0), (500, 0)], [(900, 0), (1300, 0)], [(1700, 0), (2000, 0), (2000, 2000)], [(1700, 2000), (1300, 2000)], [(900, 2000), (500, 2000)],
      [(100, 2000), (0, 2000), (0, 2000), (0, 0)],
      [(100, 0), (100, 2000)], [(500, 0), (500, 2000)], [(900, 0), (900, 2000)], [(1300, 0), (1300, 2000)], [(1700, 0), (1700, 2000)]] := by
  decide +kernel

/-- C96, C97: a line at the right side of the outline, which is on the outline, is left out; but at the left side no crossings are
found either. -/
theorem C96_right_side : generate { plain with shift := 0 } [[(0, 0), (800, 0), (800, 2000), (0, 2000)]] = some [[(400, 0), (400, 2000)]] := by
  decide +kernel

/-- C97: whether a tiny end piece is printed depends on the vertex at which the polygon begins. -/
theorem C97_tiny_end_counterexample :
    generate (zig true true) [[(50, 0), (520, 0), (520, 2000), (50, 2000)]] = some
      [[(100, 0), (500, 0)], [(100, 2000), (50, 2000), (50, 2000), (50, 0), (100, 0)], [(100, 0), (100, 2000)], [(500, 0), (500, 2000)]] ∧
    generate (zig true true) [[(520, 2000), (50, 2000), (50, 0), (520, 0)]] = some
      [[(100, 0), (500, 0)], [(500, 0), (520, 0), (520, 0), (520, 2000), (500, 2000)], [(100, 0), (100, 2000)], [(500, 0), (500, 2000)]] := by
  decide +kernel

end Verif.Lines
