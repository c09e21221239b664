import Verif.Voxel.Props

/-! # Concrete cases for C120 -/

namespace Verif.Voxel

/-- A line through three columns and two rows of cells, backwards and below zero. -/
example : walkLine ![10, 10, 10] ![25, 5, 3] ![-4, 12, 3] 20 = some [![2, 0, 0], ![1, 0, 0], ![0, 0, 0], ![0, 1, 0], ![-1, 1, 0]] := by decide +kernel

/-- A line exactly through a corner. -/
example : walkLine ![10, 10, 10] ![5, 5, 3] ![15, 15, 3] 20 = some [![0, 0, 0], ![1, 0, 0], ![1, 1, 0]] := by decide +kernel

/-- A point on a border below zero gets the cell below it. -/
example : toGrid 10 (-10) = -2 ∧ toGrid 10 10 = 1 := by decide +kernel

example : (kernel ![3, 3, 3] .cube).length = 27 ∧ (kernel ![3, 3, 3] .diamond).length = 7 ∧ (kernel ![3, 3, 3] .prism).length = 15 := by decide +kernel

example : (walkPolygons ![10, 10, 10] 3 20 [[(5, 5), (15, 5), (15, 15)]]).map List.length = some 7 := by decide +kernel

example : ((walkDilatedPolygons ![10, 10, 10] ![2, 2, 2] .prism 3 20 [[(5, 5), (15, 5)]]).map fun l => decide (![1, 1, -1] ∈ l)) = some true := by decide +kernel

end Verif.Voxel
