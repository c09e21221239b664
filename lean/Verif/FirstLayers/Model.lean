import Verif.FirstLayers.Spec

/-! # Heights of layers, and removing the first ones: the code -/

namespace Verif.FirstLayers

/-- The height and thickness of a layer (src/FffPolygonGenerator.cpp:303-343), without adaptive layers. -/
def place (h : Heights) (i : Nat) (parts : Nat) : Layer :=
  let z := h.first + i * h.other
  let thick := if i = 0 then h.first else h.other
  let z := match h.raft with
    | none => z
    | some (height, gap, o) => (z + (height + gap - o)) + (if i = 0 then o else 0)
  ⟨z, thick, parts⟩

/-- The loop over the layers of a mesh (src/FffPolygonGenerator.cpp:303-343). -/
def assign (h : Heights) : Nat → List Nat → List Layer
  | _, [] => []
  | i, p :: ps => place h i p :: assign h (i + 1) ps

/-- `isEmptyLayer` (src/FffPolygonGenerator.cpp:752-783). Support is a list of whether support was generated and there is any on the layer, for each layer of support; meshes printed as surfaces are not modelled. -/
def isEmpty (meshes : List (List Layer)) (support : List Bool) (i : Nat) : Bool :=
  !(support.getD i false) && meshes.all fun m =>
    match m[i]? with
    | none => true
    | some a => decide (a.parts = 0)

/-- The highest layer of that number (src/FffPolygonGenerator.cpp:795-800). -/
def topAt (i : Nat) : List (List Layer) → Int → Int
  | [], z => z
  | m :: ms, z =>
    match m[i]? with
    | none => topAt i ms z
    | some a => topAt i ms (max z a.z)

/-- The loop over the empty layers (src/FffPolygonGenerator.cpp:787-807): how many, and how high. -/
def count (meshes : List (List Layer)) (support : List Bool) : Nat → Nat → Nat → Int → Nat × Int
  | 0, _, n, top => (n, top)
  | left + 1, i, n, top =>
    if isEmpty meshes support i then count meshes support left (i + 1) (n + 1) (max top (topAt i meshes 0)) else (n, top)

/-- What is done with a mesh (src/FffPolygonGenerator.cpp:815-826). `none`: more layers are erased than there are. -/
def cutMesh (n : Nat) (top : Int) (m : List Layer) : Option (List Layer) :=
  let m := match m.head?, m[n]? with
    | some a, some b => m.set n { b with thick := a.thick }
    | _, _ => m
  if n ≤ m.length then some ((m.drop n).map fun a => { a with z := a.z - top }) else none

/-- `removeEmptyFirstLayers` (src/FffPolygonGenerator.cpp:785-834). The numbers of the highest layers with something on them are left out. -/
def remove (meshes : List (List Layer)) (support : List Bool) (total : Nat) : Option (List (List Layer) × List Bool × Nat) :=
  let r := count meshes support total 0 0 0
  if r.1 > 0 then do
    let ms ← meshes.mapM (cutMesh r.1 r.2)
    if r.1 ≤ support.length then some (ms, support.drop r.1, total - r.1) else none
  else some (meshes, support, total)

end Verif.FirstLayers
