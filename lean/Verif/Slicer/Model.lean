import Verif.Basic

/-! # The slicer: heights, segments, loops

Model of `src/slicer.cpp` (`Slicer::buildLayersWithHeight`, `buildSegments`, `buildZHeightsForFaces`, `project2D`,
`interpolate`, `SlicerLayer::makeBasicPolygonLoops` and its helpers) and `src/mesh.cpp` (`addFace`, `findIndexOfVertex`,
`finish`, `getFaceIdxWithPoints`). Coordinates (`coord_t`, 64 bit; heights 32 bit) are unbounded integers. Texture
coordinates, the union/intersection of neighbouring layers and the xy-offset are not modelled. -/

namespace Verif.Slicer

/-- `Point2LL`. -/
structure P2 where
  x : Int
  y : Int
  deriving DecidableEq, Repr, Inhabited

/-- `Point3LL`. -/
structure P3 where
  x : Int
  y : Int
  z : Int
  deriving DecidableEq, Repr, Inhabited

/-- `SlicingTolerance`, include/settings/EnumSettings.h. -/
inductive Tolerance
  | MIDDLE | INCLUSIVE | EXCLUSIVE | PLUGIN
  deriving DecidableEq, Repr

/-! ## Heights -/

/-- `buildLayersWithHeight`, 967-1003: the height of layer `n`. With adaptive layers (`some` list of `z_position_`) an index
beyond the list is undefined behaviour. -/
def layerZ (tol : Tolerance) (init thickness : Int) (adaptive : Option (List Int)) (n : Nat) : Outcome Int :=
  match adaptive with
  | some zs => Outcome.index zs n
  | none =>
    .ok <| if n = 0 then
        (if tol = .MIDDLE then init.tdiv 2 else if tol = .INCLUSIVE then 0 else max 0 (init - thickness))
      else (if tol = .MIDDLE then init + thickness.tdiv 2 else init) + thickness * ((n : Int) - 1)

/-- `buildLayersWithHeight`, 967-1003: all layers. `layers_res[0]` of an empty vector is undefined behaviour. -/
def layerHeights (count : Nat) (tol : Tolerance) (init thickness : Int) (adaptive : Option (List Int)) :
    Outcome (List Int) :=
  if count = 0 then .ub else (List.range count).mapM (layerZ tol init thickness adaptive)

/-! ## Segments -/

/-- `Slicer::interpolate`, 1233-1239. Division by zero is undefined behaviour in C++ and gives zero here;
`buildSegment_divisor` in `Verif.Slicer.BalanceProps` shows that it does not happen. -/
def interpolate (x x0 x1 y0 y1 : Int) : Int :=
  let dx := x1 - x0
  let num := (y1 - y0) * (x - x0)
  let num := num + if num > 0 then dx.tdiv 4 else (-dx).tdiv 4
  y0 + num.tdiv dx

/-- The `start` of `project2D`, 1166-1167 (and with other arguments the `end`, 1168-1169). -/
def cutPoint (z : Int) (p q : P3) : P2 where
  x := interpolate z p.z q.z p.x q.x
  y := interpolate z p.z q.z p.y q.y

/-- `MeshVertex`, include/mesh.h:23-34. -/
structure Vertex where
  p : P3
  faces : List Nat
  deriving Repr, Inhabited

/-- `MeshFace`, include/mesh.h:58-63: three vertices, counter-clockwise, and three neighbours (`none`: `-1`). -/
structure Face where
  v0 : Nat
  v1 : Nat
  v2 : Nat
  c0 : Option Nat := none
  c1 : Option Nat := none
  c2 : Option Nat := none
  deriving Repr, Inhabited

/-- `Mesh`: its vertices and faces. -/
structure Mesh where
  vertices : List Vertex
  faces : List Face
  deriving Repr

/-- `vertices_[i]`; an index out of range is undefined behaviour, here a default vertex (`addFace` only makes faces with
indices in range, see `BOk`). -/
def Mesh.vert (m : Mesh) (i : Nat) : Vertex := m.vertices.getD i default

/-- `SlicerSegment`, include/slicer.h:30-42, without texture coordinates and `addedToPolygon` (which is kept apart);
`endVertex` is the index of the vertex. -/
structure Segment where
  start : P2
  stop : P2
  face : Nat
  endOther : Option Nat
  endVertex : Option Nat
  deriving DecidableEq, Repr, Inhabited

/-- `buildSegments`, 866-872: a vertex at the height of the plane is moved down if the plane is not above the bed. -/
def compensate (tol : Tolerance) (z : Int) (p : P3) : P3 :=
  if tol ≠ .INCLUSIVE ∧ p.z = z ∧ p.z < 1 then { p with z := p.z - 1 } else p

/-- `project2D`, 1155-1186, with the rest of the segment, 953-957. -/
def mkSegment (z : Int) (apex p q : P3) (f : Nat) (other : Option Nat) (v : Option Nat) : Segment where
  start := cutPoint z apex p
  stop := cutPoint z apex q
  face := f
  endOther := other
  endVertex := v

/-- `buildSegments`, 905-951: the segment of a face, given the compensated corners. -/
def cases (z : Int) (p0 p1 p2 : P3) (f : Nat) (fc : Face) : Option Segment :=
  if p0.z < z ∧ p1.z > z ∧ p2.z > z then some (mkSegment z p0 p2 p1 f fc.c0 none)
  else if p0.z > z ∧ p1.z ≤ z ∧ p2.z ≤ z then
    some (mkSegment z p0 p1 p2 f fc.c2 (if p2.z = z then some fc.v2 else none))
  else if p1.z < z ∧ p0.z > z ∧ p2.z > z then some (mkSegment z p1 p0 p2 f fc.c1 none)
  else if p1.z > z ∧ p0.z ≤ z ∧ p2.z ≤ z then
    some (mkSegment z p1 p2 p0 f fc.c0 (if p0.z = z then some fc.v0 else none))
  else if p2.z < z ∧ p1.z > z ∧ p0.z > z then some (mkSegment z p2 p1 p0 f fc.c2 none)
  else if p2.z > z ∧ p1.z ≤ z ∧ p0.z ≤ z then
    some (mkSegment z p2 p0 p1 f fc.c1 (if p1.z = z then some fc.v1 else none))
  else none

/-- `buildZHeightsForFaces`, 1102-1147. -/
def zRange (p0 p1 p2 : P3) : Int × Int :=
  let lo := if p1.z < p0.z then p1.z else p0.z
  let lo := if p2.z < lo then p2.z else lo
  let hi := if p1.z > p0.z then p1.z else p0.z
  let hi := if p2.z > hi then p2.z else hi
  (lo, hi)

/-- `buildSegments`, 849-958: one face. -/
def buildSegment (m : Mesh) (tol : Tolerance) (z : Int) (f : Nat) (fc : Face) : Option Segment :=
  let p0 := (m.vert fc.v0).p
  let p1 := (m.vert fc.v1).p
  let p2 := (m.vert fc.v2).p
  let r := zRange p0 p1 p2
  if z < r.1 ∨ z > r.2 then none
  else cases z (compensate tol z p0) (compensate tol z p1) (compensate tol z p2) f fc

/-- `buildSegments`, 838-961: the segments of a layer, from the face with index `f` on. -/
def segmentsFrom (m : Mesh) (tol : Tolerance) (z : Int) : Nat → List Face → List Segment
  | _, [] => []
  | f, fc :: fcs =>
    match buildSegment m tol z f fc with
    | some s => s :: segmentsFrom m tol z (f + 1) fcs
    | none => segmentsFrom m tol z (f + 1) fcs

def buildSegments (m : Mesh) (tol : Tolerance) (z : Int) : List Segment := segmentsFrom m tol z 0 m.faces

/-- `face_idx_to_segment_idx_` as filled by `buildSegments`, 953: the index of the segment of a face. -/
def faceTable (segs : List Segment) (f : Nat) : Option Nat := segs.findIdx? fun s => s.face == f

/-! ## Loops -/

/-- `shorterThen`, include/geometry/Point2LL.h:129-140, of the difference of two points. -/
def shorterThen (p q : P2) (len : Int) : Bool :=
  let dx := p.x - q.x
  let dy := p.y - q.y
  if dx > len ∨ dx < -len then false
  else if dy > len ∨ dy < -len then false
  else decide (dx * dx + dy * dy ≤ len * len)

/-- `largest_neglected_gap_first_phase`, 34: 0.01 mm. -/
def gap1 : Int := 10

/-- What stays the same while loops are made: the segments, the table from faces to segments and the faces at the vertices. -/
structure Layer where
  segs : List Segment
  table : Nat → Option Nat
  conn : Nat → List Nat

/-- `tryFaceNextSegmentIdx`, 69-95. -/
def tryFace (L : Layer) (added : Nat → Bool) (s : Segment) (f start : Nat) : Outcome (Option Nat) :=
  match L.table f with
  | none => .ok none
  | some i =>
    match L.segs[i]? with
    | none => .ub
    | some t =>
      if shorterThen s.stop t.start gap1 then
        if i = start then .ok (some start)
        else if added i then .ok none
        else .ok (some i)
      else .ok none

/-- The loop in `getNextSegmentIdx`, 115-127. -/
def tryFaces (L : Layer) (added : Nat → Bool) (s : Segment) (start : Nat) : List Nat → Option Nat → Outcome (Option Nat)
  | [], next => .ok next
  | f :: fs, next =>
    match tryFace L added s f start with
    | .ok (some i) => if i = start then .ok (some start) else tryFaces L added s start fs (some i)
    | .ok none => tryFaces L added s start fs next
    | .ub => .ub
    | .diverge => .diverge

/-- `getNextSegmentIdx`, 97-131. -/
def nextSegment (L : Layer) (added : Nat → Bool) (s : Segment) (start : Nat) : Outcome (Option Nat) :=
  match s.endVertex with
  | none =>
    match s.endOther with
    | none => .ok none
    | some f => tryFace L added s f start
  | some v => tryFaces L added s start (L.conn v) none

/-- The loop of `makeBasicPolygonLoop`, 54-67: from segment `i`, with the points so far. The result is whether the polygon
is closed, its points and which segments have been used. Without end: `diverge`. -/
def loopFrom (L : Layer) (start : Nat) : Nat → Nat → (Nat → Bool) → List P2 → Outcome (Bool × List P2 × (Nat → Bool))
  | 0, _, _, _ => .diverge
  | fuel + 1, i, added, pts =>
    match L.segs[i]? with
    | none => .ub
    | some s =>
      let added' := fun j => if j = i then true else added j
      match nextSegment L added' s start with
      | .ok none => .ok (false, pts ++ [s.stop], added')
      | .ok (some j) => if j = start then .ok (true, pts ++ [s.stop], added') else loopFrom L start fuel j added' (pts ++ [s.stop])
      | .ub => .ub
      | .diverge => .diverge

/-- The result of the first phase. -/
structure Loops where
  added : Nat → Bool
  polygons : List (List P2)
  opens : List (List P2)

/-- `makeBasicPolygonLoop`, 49-67. -/
def makeLoop (L : Layer) (fuel : Nat) (r : Loops) (start : Nat) : Outcome Loops :=
  match L.segs[start]? with
  | none => .ub
  | some s =>
    match loopFrom L start fuel start r.added [s.start] with
    | .ok (true, pts, added) => .ok { r with added := added, polygons := r.polygons ++ [pts] }
    | .ok (false, pts, added) => .ok { r with added := added, opens := r.opens ++ [pts] }
    | .ub => .ub
    | .diverge => .diverge

/-- `makeBasicPolygonLoops`, 38-47: the loop over the segments. -/
def makeLoopsFrom (L : Layer) (fuel : Nat) : List Nat → Loops → Outcome Loops
  | [], r => .ok r
  | i :: is, r =>
    if r.added i then makeLoopsFrom L fuel is r
    else
      match makeLoop L fuel r i with
      | .ok r' => makeLoopsFrom L fuel is r'
      | .ub => .ub
      | .diverge => .diverge

/-- `makeBasicPolygonLoops`, 38-47. `fuel` bounds the number of segments in a polygon. -/
def makeLoops (L : Layer) (fuel : Nat) : Outcome Loops :=
  makeLoopsFrom L fuel (List.range L.segs.length) ⟨fun _ => false, [], []⟩

/-! ## Meshes -/

/-- `vertex_meld_distance`, src/mesh.cpp:15: 0.03 mm. -/
def meld : Int := 30

/-- A mesh under construction: with the table from hashes to vertices. -/
structure Builder where
  mesh : Mesh
  table : List (Nat × Nat)

/-- `testLength`, include/geometry/Point3LL.h, of the difference of two points. -/
def testLength (p q : P3) (len : Int) : Bool :=
  let dx := p.x - q.x
  let dy := p.y - q.y
  let dz := p.z - q.z
  if dx > len ∨ dx < -len then false
  else if dy > len ∨ dy < -len then false
  else if dz > len ∨ dz < -len then false
  else decide (dx * dx + dy * dy + dz * dz ≤ len * len)

/-- `findIndexOfVertex`, src/mesh.cpp:123-142, for an arbitrary hash function. -/
def findVertex (hash : P3 → Nat) (b : Builder) (v : P3) : Builder × Nat :=
  match b.table.find? fun e => e.1 == hash v && testLength (b.mesh.vert e.2).p v meld with
  | some e => (b, e.2)
  | none =>
    ({ mesh := { b.mesh with vertices := b.mesh.vertices ++ [⟨v, []⟩] }
       table := b.table ++ [(hash v, b.mesh.vertices.length)] }, b.mesh.vertices.length)

/-- Adds face `f` to the list of vertex `v`, src/mesh.cpp:59-61. -/
def connect (f : Nat) (m : Mesh) (v : Nat) : Mesh :=
  { m with vertices := m.vertices.modify v fun x => { x with faces := x.faces ++ [f] } }

/-- `addFace`, src/mesh.cpp:35-62. -/
def addFace (hash : P3 → Nat) (b : Builder) (t : P3 × P3 × P3) : Builder :=
  let (b, i0) := findVertex hash b t.1
  let (b, i1) := findVertex hash b t.2.1
  let (b, i2) := findVertex hash b t.2.2
  if i0 = i1 ∨ i1 = i2 ∨ i0 = i2 then b
  else
    let f := b.mesh.faces.length
    let m := { b.mesh with faces := b.mesh.faces ++ [{ v0 := i0, v1 := i1, v2 := i2 }] }
    { b with mesh := connect f (connect f (connect f m i0) i1) i2 }

/-- A face has a vertex. -/
def Face.has (fc : Face) (v : Nat) : Bool := fc.v0 == v || fc.v1 == v || fc.v2 == v

/-- `getFaceIdxWithPoints`, src/mesh.cpp:172-186: the candidates. -/
def candidates (m : Mesh) (a b notFace : Nat) : List Nat :=
  (m.vert a).faces.filter fun f => f != notFace && (m.faces.getD f default).has b

/-- `getFaceIdxWithPoints`, src/mesh.cpp:172-274. With more than one candidate the choice by angle is left open: `pick`. -/
def neighbour (pick : List Nat → Option Nat) (m : Mesh) (a b notFace : Nat) : Option Nat :=
  match candidates m a b notFace with
  | [] => none
  | [f] => some f
  | fs => pick fs

/-- `finish`, src/mesh.cpp:71-85: the neighbours of one face. -/
def finishFace (pick : List Nat → Option Nat) (m : Mesh) (i : Nat) (fc : Face) : Face :=
  { fc with c0 := neighbour pick m fc.v0 fc.v1 i
            c1 := neighbour pick m fc.v1 fc.v2 i
            c2 := neighbour pick m fc.v2 fc.v0 i }

def finish (pick : List Nat → Option Nat) (m : Mesh) : Mesh :=
  { m with faces := m.faces.mapIdx fun i fc => finishFace pick m i fc }

/-- A mesh from a list of triangles: `addFace` for each, then `finish`. -/
def buildMesh (hash : P3 → Nat) (pick : List Nat → Option Nat) (ts : List (P3 × P3 × P3)) : Mesh :=
  finish pick (ts.foldl (addFace hash) ⟨⟨[], []⟩, []⟩).mesh

/-- The layer of a mesh as `makeBasicPolygonLoops` finds it. -/
def meshLayer (m : Mesh) (tol : Tolerance) (z : Int) : Layer where
  segs := buildSegments m tol z
  table := faceTable (buildSegments m tol z)
  conn v := (m.vert v).faces

end Verif.Slicer
