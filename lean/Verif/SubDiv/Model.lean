import Verif.SubDiv.Spec

/-! # Cubic subdivision -/

namespace Verif.SubDiv

/-- The properties of a cube from its side: products with square roots that are cut off (src/infill/SubDivCube.cpp:47-53). -/
structure Sizes where
  height : Int → Int
  drawZ : Int → Int

def Sizes.step (s : Sizes) (side : Int) : Step := ⟨side, s.height side, s.drawZ side⟩

/-- The loop over the sides: they are doubled until they are twice as long as needed (src/infill/SubDivCube.cpp:43-56). `n` bounds the number of rounds. -/
def sidesLoop (max : Int) : Nat → Int → List Int
  | 0, _ => []
  | n + 1, side => if side < max * 2 then side :: sidesLoop max n (side * 2) else []

/-- The sides of the cubes for a line distance. -/
def sides (max dist : Int) : List Int := if 0 < dist then sidesLoop max (max * 2).toNat (dist * 2) else []

/-- `precomputeOctree`, up to the depth of the root (src/infill/SubDivCube.cpp:30-57, 87). `steps` is the static list, to which is added. `none`: there is no
step, so that the depth is the largest number there is. -/
def precompute (s : Sizes) (steps : List Step) (max dist : Int) : List Step × Option Nat :=
  let new := (sides max dist).map s.step
  (steps ++ new, if new.isEmpty then none else some (new.length - 1))

/-- The middles of the children, relative to the middle (src/infill/SubDivCube.cpp:172-181). -/
def corners : List P3 :=
  [⟨1, 1, 1⟩, ⟨-1, 1, 1⟩, ⟨1, -1, 1⟩, ⟨1, 1, -1⟩, ⟨-1, -1, -1⟩, ⟨1, -1, -1⟩, ⟨-1, 1, -1⟩, ⟨-1, -1, 1⟩]

/-- The constructor (src/infill/SubDivCube.cpp:150-191). `rot` is the rotation of the cubes, `valid` says whether a sphere is worth a cube. The list of pointers,
which is filled from the front, is a list of cubes. -/
def build (steps : List Step) (rot : P3 → P3) (valid : P3 → Int → Bool) (radiusAdd : Int) (center : P3) : Nat → Cube
  | 0 => .node 0 center []
  | d + 1 =>
    match steps[d + 1]? with
    | none => .node (d + 1) center []
    | some st =>
      let radius := (st.height + 4 * radiusAdd).tdiv 4
      .node (d + 1) center ((corners.map fun r => center.add (rot (r.scale (st.side.tdiv 4)))).filterMap fun c =>
        if valid c radius then some (build steps rot valid radiusAdd c d) else none)

/-- What is found on a layer at a place: `none` if there is no such layer, otherwise whether it is inside and the squared distance to the outline
(`distanceFromPointToMesh`, src/infill/SubDivCube.cpp:229-253). -/
abbrev Probe := Int → Option (Bool × Int)

/-- The layers that are tested: each third one (src/infill/SubDivCube.cpp:201-203). -/
def tested (layerHeight z radius : Int) : List Int :=
  let bottom := (z - radius).tdiv layerHeight
  let top := (z + radius).tdiv layerHeight
  (List.range ((top - bottom).toNat / 3 + if bottom ≤ top then 1 else 0)).map fun (i : Nat) => bottom + 3 * (i : Int)

/-- The loop of `isValidSubdivision` (src/infill/SubDivCube.cpp:203-226). The squared radius of the part of the sphere in the layer is computed exactly. -/
def validLoop (probe : Probe) (layerHeight z radius : Int) : List Int → Bool → Bool → Bool
  | [], _, _ => false
  | l :: ls, insideSomewhere, outsideSomewhere =>
    let p := probe l
    let inside := p.any (·.1)
    let i := insideSomewhere || inside
    let o := outsideSomewhere || !inside
    if i && o then true
    else if p.any (fun q => decide (q.2 < radius * radius - (l * layerHeight - z) * (l * layerHeight - z))) then true
    else validLoop probe layerHeight z radius ls i o

/-- `isValidSubdivision` (src/infill/SubDivCube.cpp:193-227). -/
def isValid (probe : P3 → Probe) (layerHeight : Int) (center : P3) (radius : Int) : Bool :=
  validLoop (probe center) layerHeight center.z radius (tested layerHeight center.z radius) false false

def near (p q : P2) : Bool := decide ((p.x - q.x).natAbs < 10) && decide ((p.y - q.y).natAbs < 10)

/-- `LinesSet::removeAt`: the last line takes the place (src/geometry/LinesSet.cpp:72-88). -/
def removeAt {α : Type} (l : List α) (i : Nat) : List α :=
  match l.getLast? with
  | none => []
  | some x => if i + 1 < l.length then (l.set i x).dropLast else l.dropLast

/-- The loop of `addLineAndCombine` (src/infill/SubDivCube.cpp:268-289). `n` bounds the number of rounds. -/
def combineLoop : Nat → List Line → Nat → P2 → P2 → List Line
  | 0, g, _, a, b => g ++ [(a, b)]
  | n + 1, g, i, a, b =>
    match g[i]? with
    | none => g ++ [(a, b)]
    | some l =>
      if near a l.2 then combineLoop n (removeAt g i) i l.1 b
      else if near b l.1 then combineLoop n (removeAt g i) i a l.2
      else combineLoop n g (i + 1) a b

/-- `addLineAndCombine` (src/infill/SubDivCube.cpp:268-289). -/
def combine (g : List Line) (l : Line) : List Line := combineLoop g.length g 0 l.1 l.2

mutual
/-- `generateSubdivisionLines` for one direction: the lines that are drawn, in the order in which they are combined (src/infill/SubDivCube.cpp:108-148).
`ends` is where the line of a cube is. `none`: behind the end of the list of properties. -/
def drawn (steps : List Step) (ends : Step → P3 → Int → Line) (z : Int) : Cube → Option (List Line)
  | .node d c cs =>
    match steps[d]? with
    | none => none
    | some st =>
      let diff : Int := (z - c.z).natAbs
      if st.height / 2 < diff then some []
      else
        let own := if diff < st.drawZ then [ends st c z] else []
        (drawnList steps ends z cs).map fun rest => own ++ rest

def drawnList (steps : List Step) (ends : Step → P3 → Int → Line) (z : Int) : List Cube → Option (List Line)
  | [] => some []
  | c :: cs =>
    match drawn steps ends z c, drawnList steps ends z cs with
    | some a, some b => some (a ++ b)
    | _, _ => none
end

/-- The lines of one direction (src/infill/SubDivCube.cpp:88-106). -/
def lines (steps : List Step) (ends : Step → P3 → Int → Line) (z : Int) (root : Cube) : Option (List Line) :=
  if steps.isEmpty then some [] else (drawn steps ends z root).map fun l => l.foldl combine []

end Verif.SubDiv
