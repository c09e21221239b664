/-! # The layer view: what is asked for and what a front-end can read

The types here are those of the interface: what is called while a print is written, and the messages a front-end receives. -/

namespace Verif.View

/-- A point, in micrometres. -/
structure P3 where
  x : Int
  y : Int
  z : Int
  deriving DecidableEq, Repr

/-- How numbers are written into a message: `INT2MM` and the conversion to float (include/utils/Coord_t.h:28). -/
structure Conv (F : Type) where
  mm : Int → F
  zero : F

/-- A call of the interface for the layer view (include/communication/Communication.h). -/
inductive Op (F : Type) where
  | setLayer (n : Int)
  | setExtruder (e : Nat)
  | position (p : P3)
  | line (type : Nat) (stop : P3) (width thickness : Int) (speed : F)
  | layerDone (n height thickness : Int)

/-- The message of a part of a path: flat lists of numbers. -/
structure Segment (F : Type) where
  extruder : Nat
  types : List Nat
  points : List F
  widths : List F
  thicknesses : List F
  speeds : List F
  deriving DecidableEq

/-- The message of a layer. -/
structure Layer (F : Type) where
  id : Int
  height : Int := 0
  thickness : Int := 0
  segments : List (Segment F) := []
  deriving DecidableEq

namespace Spec

variable {F : Type}

/-- A line as a front-end shows it. -/
structure Shown (F : Type) where
  extruder : Nat
  type : Nat
  start : F × F × F
  stop : F × F × F
  width : F
  thickness : F
  speed : F
  deriving DecidableEq

/-- Reading a part of a path: there is one more point than lines, and all else once per line. -/
def readLines (e : Nat) : List F → List Nat → List F → List F → List F → Option (List (Shown F))
  | [_, _, _], [], [], [], [] => some []
  | x :: y :: z :: x' :: y' :: z' :: ps, t :: ts, w :: ws, h :: hs, v :: vs =>
    (readLines e (x' :: y' :: z' :: ps) ts ws hs vs).map fun rest => ⟨e, t, (x, y, z), (x', y', z'), w, h, v⟩ :: rest
  | _, _, _, _, _ => none

def readSegment (s : Segment F) : Option (List (Shown F)) := readLines s.extruder s.points s.types s.widths s.thicknesses s.speeds

/-- Reading the parts of a layer one after the other. -/
def readSegments : List (Segment F) → Option (List (Shown F))
  | [] => some []
  | s :: ss =>
    match readSegment s, readSegments ss with
    | some a, some b => some (a ++ b)
    | _, _ => none

/-- The lines a front-end shows: type 0 marks jumps, which are not shown. -/
def visible (l : List (Shown F)) : List (Shown F) := l.filter fun s => s.type != 0

/-- A line that was asked for. -/
structure Wish (F : Type) where
  layer : Int
  extruder : Nat
  type : Nat
  start : P3
  stop : P3
  width : Int
  thickness : Int
  speed : F

def Wish.shown (c : Conv F) (w : Wish F) : Shown F :=
  let f := fun (p : P3) => (c.mm p.x, c.mm p.y, c.mm p.z)
  ⟨w.extruder, w.type, f w.start, f w.stop, c.mm w.width, c.mm w.thickness, w.speed⟩

/-- The lines that calls ask for: from where the nozzle is to the end of the line. Where the nozzle is has to be told anew after the layer or the extruder
changed: `none` if it was not. Lines of no length do not count. -/
def wishes (layer : Int) (e : Nat) (pen : Option P3) : List (Op F) → Option (List (Wish F))
  | [] => some []
  | .setLayer n :: r => wishes n e (if layer = n then pen else none) r
  | .setExtruder f :: r => wishes layer f (if e = f then pen else none) r
  | .position p :: r => wishes layer e (some p) r
  | .line t p w h v :: r =>
    match pen with
    | none => none
    | some q => (wishes layer e (some p) r).map fun rest => if q = p then rest else ⟨layer, e, t, q, p, w, h, v⟩ :: rest
  | .layerDone _ _ _ :: r => wishes layer e pen r

/-- The layer and the extruder after some calls. -/
def layerAfter (layer : Int) : List (Op F) → Int
  | [] => layer
  | .setLayer n :: r => layerAfter n r
  | _ :: r => layerAfter layer r

def extruderAfter (e : Nat) : List (Op F) → Nat
  | [] => e
  | .setExtruder f :: r => extruderAfter f r
  | _ :: r => extruderAfter e r

/-- The height and the thickness a layer is completed with last. -/
def lastDone (n : Int) : List (Op F) → Option (Int × Int)
  | [] => none
  | .layerDone m z t :: r => (lastDone n r).or (if m = n then some (z, t) else none)
  | _ :: r => lastDone n r

/-- Something is sent only while the current layer is one of those from `lo` to `hi`. -/
def within (lo hi : Int) (layer : Int) : List (Op F) → Prop
  | [] => True
  | .setLayer n :: r => within lo hi n r
  | .setExtruder _ :: r => within lo hi layer r
  | .position _ :: r => (lo ≤ layer ∧ layer ≤ hi) ∧ within lo hi layer r
  | .line _ _ _ _ _ :: r => (lo ≤ layer ∧ layer ≤ hi) ∧ within lo hi layer r
  | .layerDone n _ _ :: r => (lo ≤ n ∧ n ≤ hi) ∧ within lo hi layer r

/-- An object that is printed after the others: its first and last layer and the calls while it is written. -/
structure Object (F : Type) where
  lo : Int
  hi : Int
  ops : List (Op F)

/-- All layers of the object are completed, and nothing is sent for any other layer. -/
def Object.Clean (o : Object F) (layer : Int) : Prop :=
  o.lo ≤ o.hi ∧ within o.lo o.hi layer o.ops ∧ ∀ n, o.lo ≤ n → n ≤ o.hi → (lastDone n o.ops).isSome

/-- What the front-end has to receive for one layer. -/
structure Expect (F : Type) where
  id : Int
  height : Int
  thickness : Int
  lines : List (Shown F)

/-- A message is what is expected. -/
def Expect.Is (x : Expect F) (m : Layer F) : Prop :=
  m.id = x.id ∧ m.height = x.height ∧ m.thickness = x.thickness ∧ ∃ l, readSegments m.segments = some l ∧ visible l = x.lines

/-- The layers of an object, from the first one. -/
def numbers (lo hi : Int) : List Int := (List.range (hi + 1 - lo).toNat).map fun (i : Nat) => lo + (i : Int)

/-- What has to be received for all objects: the layers of each object follow those of the one before. -/
def expected (c : Conv F) (layer : Int) (e : Nat) (off : Int) : List (Object F) → Option (List (Expect F))
  | [] => some []
  | o :: os =>
    match wishes layer e none o.ops, expected c (layerAfter layer o.ops) (extruderAfter e o.ops) (off + (o.hi + 1 - o.lo)) os with
    | some ws, some rest =>
      some ((numbers o.lo o.hi).map (fun n =>
        let d := (lastDone n o.ops).getD (0, 0)
        ⟨n + off, d.1, d.2, visible ((ws.filter fun w => w.layer = n).map (Wish.shown c))⟩) ++ rest)
    | _, _ => none

/-- All objects are clean. -/
def AllClean (layer : Int) : List (Object F) → Prop
  | [] => True
  | o :: os => o.Clean layer ∧ AllClean (layerAfter layer o.ops) os

/-- The progress values of an object: they do not get smaller, and begin below one. -/
def Rises (ps : List Rat) : Prop := (∃ p r, ps = p :: r ∧ 0 ≤ p ∧ p < 1) ∧ ps.Pairwise (· ≤ ·)

end Spec

end Verif.View
