import Verif.BelowSkin.Spec

/-! # Infill below skin: the code -/

namespace Verif.BelowSkin

/-- What is done with regions. `opening` is the shrinking and growing (src/FffGcodeWriter.cpp:2500-2503), `fill` removes small areas and small holes (2508), `clean` removes small areas (2512), `cleanAgain` too (2333), and `bridge` makes the region printable (2189-2190). -/
structure Ops where
  opening : Region → Region
  fill : Region → Region
  clean : Region → Region
  cleanAgain : Region → Region
  bridge : Region → Region

/-- The infill below skin and the rest of it: `partitionInfillBySkinAbove` (src/FffGcodeWriter.cpp:2476-2513) and what follows it in `processSingleLayerInfill` (src/FffGcodeWriter.cpp:2177-2193). `above` and `under` is the skin on the next layer and on the one before (`under` has priority). -/
noncomputable def partition (o : Ops) (on : Bool) (layer : Nat) (above under last : Region) : Region × Region :=
  open Classical in
  if layer > 0 ∧ on = true then
    let below := o.fill (o.opening ((above \ under) ∩ last))
    let rest := o.clean (last \ below)
    if below ≠ ∅ then (o.bridge below, rest \ o.bridge below) else (∅, rest)
  else (∅, ∅)

/-- What is printed for one density (src/FffGcodeWriter.cpp:2202-2389). The lines of the support are added directly to the result (2301), so what is cut off (2308-2314, 2375-2381) is always empty. -/
noncomputable def density (o : Ops) (areas : List Region) (below rest : Region) (d : Nat) : List Job :=
  open Classical in
  if areas.getD d ∅ = ∅ then []
  else if below ≠ ∅ then [⟨true, d, below⟩, ⟨false, d, o.cleanAgain rest⟩]
  else [⟨false, d, o.cleanAgain (areas.getD d ∅)⟩]

/-- The loop over the densities, from the last one (src/FffGcodeWriter.cpp:2202-2389). -/
noncomputable def loop (o : Ops) (areas : List Region) (below rest : Region) : Nat → List Job
  | 0 => []
  | d + 1 => density o areas below rest d ++ loop o areas below rest d

/-- The infill of a part of a layer (src/FffGcodeWriter.cpp:2168-2389). -/
noncomputable def jobs (o : Ops) (on : Bool) (layer : Nat) (above under : Region) (areas : List Region) : List Job :=
  let p := partition o on layer above under (areas.getLastD ∅)
  loop o areas p.1 p.2 areas.length

end Verif.BelowSkin
