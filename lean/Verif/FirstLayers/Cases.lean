import Verif.FirstLayers.Props

/-! # Heights of layers: cases that meet the hypotheses -/

namespace Verif.FirstLayers

open Spec

/-- **C125_heights** with a raft. -/
example : assign ⟨200, 100, some (1000, 300, 50)⟩ 0 [1, 2, 3] = [⟨1500, 200, 1⟩, ⟨1550, 100, 2⟩, ⟨1650, 100, 3⟩] := by decide +kernel

/-- **C125_removed** has a case. -/
example : ∃ (n : Nat) (ms : List (List Layer)), remove [assign ⟨300, 100, none⟩ 0 [0, 0, 1, 1], assign ⟨300, 100, none⟩ 0 [0, 0, 0, 2]] [false, false, false, false] 4 = some (ms, [false, false, false, false].drop n, 4 - n) :=
  let ⟨n, _, ms, h, _⟩ := C125_removed [assign ⟨300, 100, none⟩ 0 [0, 0, 1, 1], assign ⟨300, 100, none⟩ 0 [0, 0, 0, 2]] [false, false, false, false] 4 (by decide) (by decide)
  ⟨n, ms, h⟩

/-- **C125_plate** has a case: two layers are removed. -/
example : remove [assign ⟨100, 100, none⟩ 0 [0, 0, 1, 1], assign ⟨100, 100, none⟩ 0 [0, 0, 0, 2]] [false, false, false, false] 4 =
    some ([assign ⟨100, 100, none⟩ 0 [1, 1], assign ⟨100, 100, none⟩ 0 [0, 2]], [false, false], 2) := by decide +kernel

example : ∃ n, n ≤ 4 ∧ ∀ i < n, EmptyLayer ([[0, 0, 1, 1], [0, 0, 0, 2]].map (assign ⟨100, 100, none⟩ 0)) [false, false, false, false] i :=
  let ⟨n, _, h1, h2, _⟩ := C125_plate 100 (by decide) [[0, 0, 1, 1], [0, 0, 0, 2]] [false, false, false, false] 4 (by decide) (by decide)
  ⟨n, h1, h2⟩

/-- Support on the first layer: nothing is removed. -/
example : remove [assign ⟨100, 100, none⟩ 0 [0, 1]] [true, false] 2 = some ([assign ⟨100, 100, none⟩ 0 [0, 1]], [true, false], 2) := by decide +kernel

end Verif.FirstLayers
