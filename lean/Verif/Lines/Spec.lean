import Verif.Lines.Model

/-! # Specification of infill by parallel lines (C96, C97)

The plane is turned so that the lines are vertical. -/

namespace Verif.Lines

/-- The edges of a closed polygon. -/
def edges (poly : List Pt) : List (Pt × Pt) := (poly.getLastD (0, 0) :: poly).zip poly

def allEdges (outline : List (List Pt)) : List (Pt × Pt) := outline.flatMap edges

/-- The edge meets the vertical line at `x`. A vertex counts for the edge that comes from the left. -/
def Meets (x : Int) (e : Pt × Pt) : Prop := (e.1.1 < x ∧ x ≤ e.2.1) ∨ (e.2.1 < x ∧ x ≤ e.1.1)

instance (x : Int) (e : Pt × Pt) : Decidable (Meets x e) := by unfold Meets; infer_instance

/-- Where it does. -/
def height (x : Int) (e : Pt × Pt) : ℚ := e.1.2 + (e.2.2 - e.1.2) * (x - e.1.1) / (e.2.1 - e.1.1)

/-- The even-odd rule: the number of edges below the point is odd. -/
def Inside (outline : List (List Pt)) (x : Int) (y : ℚ) : Prop :=
  Odd ((allEdges outline).countP fun e => decide (Meets x e ∧ height x e < y))

/-- The point is at most one micrometre above or below the outline. -/
def Near (outline : List (List Pt)) (x : Int) (y : ℚ) : Prop := ∃ e ∈ allEdges outline, Meets x e ∧ |height x e - y| ≤ 1

/-- The point is between edges that are close to each other, compared to a fifth of the width. -/
def Thin (outline : List (List Pt)) (width : Int) (x : Int) (y : ℚ) : Prop :=
  ∃ e ∈ allEdges outline, ∃ e' ∈ allEdges outline, Meets x e ∧ Meets x e' ∧ height x e < y ∧ y < height x e' ∧
    height x e' - height x e < width / 5 + 2

/-- A line at `x` from `a` to `b`. -/
structure Seg where
  x : Int
  a : Int
  b : Int

/-- How many of the lines contain a point. -/
def covered (segs : List Seg) (x : Int) (y : ℚ) : Nat := segs.countP fun s => decide (s.x = x ∧ (s.a : ℚ) < y ∧ y < s.b)

/-- The lines are `d` apart and cover the inside of the outline once. -/
def Good (d shift width : Int) (outline : List (List Pt)) (l : List Seg) : Prop :=
  (∀ s ∈ l, d ∣ s.x - shift) ∧
  ∀ (x : Int) (y : ℚ), ¬ Near outline x y →
    covered l x y ≤ 1 ∧ (covered l x y = 1 → d ∣ x - shift ∧ Inside outline x y) ∧
    (d ∣ x - shift → (∃ p ∈ outline.flatten, x < p.1) → Inside outline x y → covered l x y = 1 ∨ Thin outline width x y)

/-! ## Zigzag -/

/-- A piece of the outline between two crossings with scanlines. -/
structure Piece where
  src : Int
  pts : List Pt
  dst : Int

/-- Zags that are left out: one of `skipCount`, counted by the scanline on their left. -/
def Skipped (c : Zigzag) (a b : Int) : Prop := c.skip = true ∧ 0 < c.skipCount ∧ c.skipCount ∣ min a b

/-- A piece that links an even scanline to a neighbour. -/
def Zag (c : Zigzag) (p : Piece) : Prop := 2 ∣ p.src ∧ p.src ≠ p.dst ∧ ¬ Skipped c p.src p.dst

/-- All points but the last one are close to the scanline of the last one. -/
def Tiny (dist : Int) (p : Piece) : Prop := ∀ q ∈ p.pts.dropLast, |q.1 - (p.pts.getLastD (0, 0)).1| < dist

open Classical in
/-- The pieces that are printed: zags, and end pieces if they are wanted. An end piece that is tiny is left out, unless it is the one
at which the way around the polygon begins and ends. -/
noncomputable def printed (c : Zigzag) (dist : Int) (ps : List Piece) : List Piece :=
  (ps.dropLast.filter fun p => decide (Zag c p ∨ (c.endpieces = true ∧ p.src = p.dst ∧ ¬ Tiny dist p))) ++
  (ps.getLast?.toList.filter fun p => decide (Zag c p ∨ (c.endpieces = true ∧ p.src = p.dst)))

/-- End pieces are not connected at their end, unless that is wanted. -/
def trim (c : Zigzag) (p : Piece) : List Pt := if p.src = p.dst ∧ c.connected = false then p.pts.dropLast else p.pts

open Classical in
/-- The connections for one polygon. A polygon that no scanline crosses is an end piece. -/
noncomputable def connectionsOf (c : Zigzag) (d : Int) (poly : List Pt) (ps : List Piece) : List (List Pt) :=
  if ps = [] then (if c.endpieces = true then [trim c ⟨0, poly.getLastD (0, 0) :: poly, 0⟩] else [])
  else (printed c (d.tdiv 4) ps).map (trim c)

/-- The point is on an edge, up to rounding. -/
def OnEdge (e : Pt × Pt) (p : Pt) : Prop := p = e.1 ∨ p = e.2 ∨ (Meets p.1 e ∧ |height p.1 e - p.2| < 1)

/-- A way along the outline. -/
def Follows (poly : List Pt) (way : List Pt) : Prop := way.IsChain fun p q => p = q ∨ ∃ e ∈ edges poly, OnEdge e p ∧ OnEdge e q

/-- The pieces of a polygon, all the way around. They begin and end where scanlines cross the polygon, at all of these crossings, with
no crossing in between: so they go to a neighbouring scanline, or back to their own. -/
structure Round (d shift : Int) (poly : List Pt) (ps : List Piece) : Prop where
  follows : ∀ p ∈ ps, 2 ≤ p.pts.length ∧ Follows poly p.pts
  ends : ∀ p ∈ ps, (p.pts.headD (0, 0)).1 = p.src * d + shift ∧ (p.pts.getLastD (0, 0)).1 = p.dst * d + shift
  close : ∀ p ∈ ps, |p.src - p.dst| ≤ 1
  joined : ps.IsChain fun p q => p.dst = q.src ∧ p.pts.getLastD (0, 0) = q.pts.headD (0, 0)
  closed : ∀ p ∈ ps.getLast?, ∀ q ∈ ps.head?, p.dst = q.src ∧ p.pts.getLastD (0, 0) = q.pts.headD (0, 0)
  complete : ∀ s : Int, ps.countP (fun p => decide (p.src = s)) = (edges poly).countP fun e => decide (Meets (s * d + shift) e)

end Verif.Lines
