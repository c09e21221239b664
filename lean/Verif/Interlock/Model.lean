import Verif.Interlock.Spec
import Verif.Voxel.Model
import Mathlib.Data.List.Dedup

/-! # Interlocking: the code

Places are in the turned coordinates of the beams. Turning shapes there and back is left out, and its rounding with it. -/

namespace Verif.Interlock

open Verif.Voxel

/-- A rectangle. -/
structure Rect where
  x0 : Int
  y0 : Int
  x1 : Int
  y1 : Int
  deriving DecidableEq, Repr

/-- A place in a rectangle. -/
def Rect.has (r : Rect) (p : P2) : Bool := r.x0 ≤ p.1 && p.1 < r.x1 && r.y0 ≤ p.2 && p.2 < r.y1

/-- `Polygon::translate` (src/InterlockingGenerator.cpp:304). -/
def Rect.move (r : Rect) (x y : Int) : Rect := ⟨r.x0 + x, r.y0 + y, r.x1 + x, r.y1 + y⟩

/-- A place in one of some rectangles (src/InterlockingGenerator.cpp:310-318). -/
def hasAny (rs : List Rect) : Area := fun p => rs.any (·.has p)

/-- What the structure is made with (include/InterlockingGenerator.h:162-169). -/
structure Setup where
  wa : Int
  wb : Int
  count : Int

/-- The size of a cell (src/InterlockingGenerator.cpp:63-64). -/
def Setup.cell (s : Setup) : P3 := ![s.wa + s.wb, s.wa + s.wb, 2 * s.count]

/-- `generateMicrostructure` (src/InterlockingGenerator.cpp:246-277). -/
def micro (s : Setup) (odd : Bool) (mesh : Fin 2) : Rect :=
  let middle := (s.cell 0 * s.wa).tdiv (s.wa + s.wb)
  let width := if mesh = 0 then middle else s.cell 0 - middle
  let offset := if mesh = 0 then 0 else middle
  let r : Rect := ⟨offset, 0, offset + width, s.cell 1⟩
  if odd then ⟨r.y0, r.x0, r.y1, r.x1⟩ else r

/-- The structure of each mesh on each beam layer. -/
abbrev Structure := Fin 2 → Nat → List Rect

/-- `push_back` to one list (src/InterlockingGenerator.cpp:305). -/
def Structure.push (st : Structure) (mesh : Fin 2) (i : Nat) (r : Rect) : Structure := fun m j => if m = mesh ∧ j = i then st m j ++ [r] else st m j

/-- The loop over the layers of a cell (src/InterlockingGenerator.cpp:301-306). `none`: reading outside of a vector, or more rounds than `n`. -/
def layersLoop (s : Setup) (max : Nat) (cell : P3) (mesh : Fin 2) : Nat → Int → Structure → Option Structure
  | 0, _, _ => none
  | n + 1, layer, st =>
    if layer < cell 2 * s.cell 2 + s.cell 2 ∧ layer < max then
      let i := layer.tdiv s.count
      if i < 0 then none
      else
        let here := (micro s (i % 2 = 1) mesh).move (cell 0 * s.cell 0) (cell 1 * s.cell 1)
        layersLoop s max cell mesh n (layer + s.count) (st.push mesh i.toNat here)
    else some st

/-- The loop over the cells (src/InterlockingGenerator.cpp:296-308). -/
def cellsLoop (s : Setup) (max : Nat) : List P3 → Structure → Option Structure
  | [], st => some st
  | c :: cs, st => do
    let st ← layersLoop s max c 0 3 (c 2 * s.cell 2) st
    let st ← layersLoop s max c 1 3 (c 2 * s.cell 2) st
    cellsLoop s max cs st

/-- `computeUnionedVolumeRegions` (src/InterlockingGenerator.cpp:223-244) for one layer: the loop over the meshes ends at the first one without the layer. `close` closes small gaps. -/
def region (close : Area → Area) (a b : List Area) (layer : Nat) : Area :=
  match a[layer]? with
  | none => close fun _ => false
  | some x =>
    match b[layer]? with
    | none => close x
    | some y => close fun p => x p || y p

/-- What becomes of a layer (src/InterlockingGenerator.cpp:330-339). -/
def change (s : Setup) (st : Structure) (regions : Nat → Area) (mesh : Fin 2) (layer : Nat) (old : Area) : Area :=
  let i := (layer / s.count : Int).toNat
  let here : Area := fun p => hasAny (st mesh i) p && regions layer p
  let other := hasAny (st (1 - mesh) i)
  fun p => (old p && !other p) || here p

/-- `applyMicrostructureToOutlines` (src/InterlockingGenerator.cpp:279-342). -/
def apply (s : Setup) (cells : List P3) (regions : Nat → Area) (a b : List Area) : Option (List Area × List Area) := do
  let st ← cellsLoop s (max a.length b.length) cells fun _ _ => []
  pure (a.mapIdx fun i x => change s st regions 0 i x, b.mapIdx fun i x => change s st regions 1 i x)

/-- Which cells get a structure: what is in both sets, without those near air (src/InterlockingGenerator.cpp:153-169). -/
def chosen (shellA shellB air : List P3) (filter : Bool) : List P3 :=
  let both := shellB.filter (· ∈ shellA)
  if filter then both.filter (· ∉ air) else both

/-- A set of cells has each one once (src/InterlockingGenerator.cpp:153).  The order is that of the list. -/
def toSet (cells : List P3) : List P3 := cells.dedup

/-- `addBoundaryCells` (src/InterlockingGenerator.cpp:201-221): the cells along the outlines of all layers, and those of the skins. `skins` gives the cells of `walkDilatedAreas`, which is not modelled. -/
def boundary (s : Setup) (depth : Int) (n : Nat) (skins : Nat → List P3) : Nat → List (List (List P2)) → Option (List P3)
  | _, [] => some []
  | z, layer :: layers => do
    let walls ← walkDilatedPolygons s.cell ![depth, depth, depth] .prism z n layer
    let rest ← boundary s depth n skins (z + 1) layers
    pure (walls ++ skins z ++ rest)

/-- `generateInterlockingStructure` for two meshes (src/InterlockingGenerator.cpp:151-175), without `handleThinAreas`. -/
def generate (s : Setup) (close : Area → Area) (shellA shellB air : List P3) (filter : Bool) (a b : List Area) : Option (List Area × List Area) :=
  apply s (toSet (chosen shellA shellB air filter)) (region close a b) a b

end Verif.Interlock
