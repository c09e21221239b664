import Verif.Beading.Model

/-! # Specification of the beading strategies (C28, C50) -/

set_option linter.dupNamespace false

namespace Verif.Beading

/-- Reasonable settings: positive line widths, ratios between nothing and everything, an even maximum number of beads (twice the number
of walls, src/WallToolPaths.cpp:212) of at least two. The last condition only matters for a single wall, see
`C28_thin_single_wall`. -/
structure Sane (p : Params) : Prop where
  outer : 0 < p.outerWidth
  inner : 0 < p.innerWidth
  ratio : 0 ≤ p.ratio ∧ p.ratio ≤ 1
  split : 0 ≤ p.split ∧ p.split ≤ 1
  add : 0 ≤ p.add ∧ p.add ≤ 1
  max : 2 ≤ p.maxCount
  even : p.maxCount % 2 = 0
  thin : p.thinWalls = true → p.innerWidth ≤ 2 * p.outerWidth

/-- A thin wall that is deliberately widened or left out. -/
def Thin (p : Params) (t : Int) : Prop := p.thinWalls = true ∧ t < p.innerWidth

/-- The requested number of beads is at most one more than what fits at their optimal width. -/
def Fits (p : Params) (t n : Int) : Prop := 5 ≤ n → 2 * p.outerWidth + (n - 3) * p.innerWidth ≤ t

/-- Two neighbouring beads (location and width) overlap by at most `slack` half units. -/
def Apart (slack : Int) (x y : Int × Int) : Prop := x.2 + y.2 ≤ 2 * (y.1 - x.1) + slack

/-- The widths of the lines on one side of a wall that is limited to `k + 1` lines per side, beginning with the outer one. -/
def limitWidths (p : Params) (k : Nat) : List Int := p.outerWidth :: List.replicate k p.innerWidth

/-- Where the middles of these lines lie, measured from the outline: each line touches the one before, apart from the insets asked for. -/
def limitLocs (p : Params) (k : Nat) : List Int :=
  (if p.outerOffset > 0 then min (p.outerWidth.tdiv 2 + p.outerOffset) (p.innerWidth * k + p.outerWidth) else p.outerWidth.tdiv 2) ::
    (List.range k).map fun i : Nat => p.outerWidth + (i : Int) * p.innerWidth + p.innerWidth.tdiv 2 + p.innerOffset

/-- The narrowest an inner line may be made for a number of lines `n`: for an odd number a middle line is added only when there is room
for the given part (`add`) of a line; for an even number the middle line is split in two only when there is room for the given part
(`split`) of another line, which the two share. -/
def innerMin (p : Params) (n : Int) : Int :=
  if n % 2 = 1 then trunc (p.innerWidth * p.add) else (p.innerWidth + trunc (p.innerWidth * p.split)) / 2

/-- The narrowest any line may be made for a number of lines `n`. -/
def minWidth (p : Params) (n : Int) : Int :=
  if n = 1 then ⌈p.ratio * p.outerWidth⌉ else if n = 2 then trunc ((1 + p.split) * p.outerWidth) / 2
  else min p.outerWidth (innerMin p n)

end Verif.Beading
