import Verif.View.Spec

/-! # The layer view: how lines are collected into messages -/

namespace Verif.View

variable {F : Type}

/-- `ArcusCommunication::PathCompiler` (src/communication/ArcusCommunication.cpp:52-97). -/
structure Compiler (F : Type) where
  layer : Int := 0
  extruder : Nat := 0
  types : List Nat := []
  widths : List F := []
  thicknesses : List F := []
  speeds : List F := []
  points : List F := []
  last : P3 := ⟨0, 0, 0⟩

/-- `SliceDataStruct<proto::LayerOptimized>` (include/communication/SliceDataStruct.h:18-46). The map from the number of a layer to its message is a list of
messages, each with its number. -/
structure Data (F : Type) where
  sliced : Nat := 0
  count : Nat := 0
  offset : Nat := 0
  layers : List (Layer F) := []

/-- The parts of `ArcusCommunication` that are for the layer view, with the messages that were sent. `objects` is `object_count`. -/
structure St (F : Type) where
  objects : Nat
  comp : Compiler F := {}
  data : Data F := {}
  sent : List (Layer F) := []

/-- `getOptimizedLayerById`, with what is done to the layer afterwards (src/communication/ArcusCommunicationPrivate.cpp:36-53). -/
def Data.update (d : Data F) (n : Int) (f : Layer F → Layer F) : Data F :=
  let id := n + d.offset
  if d.layers.any (fun l => l.id = id) then
    { d with layers := d.layers.map fun l => if l.id = id then f l else l }
  else
    { d with
      count := d.count + 1
      layers := d.layers ++ [f { id := id }] }

/-- `flushPathSegments` (src/communication/ArcusCommunication.cpp:162-204). -/
def flush (st : St F) : St F :=
  let c := st.comp
  if c.types.isEmpty then st
  else
    let s : Segment F := ⟨c.extruder, c.types, c.points, c.widths, c.thicknesses, c.speeds⟩
    { st with
      data := st.data.update c.layer fun l => { l with segments := l.segments ++ [s] }
      comp :=
        { c with
          types := []
          points := []
          widths := []
          thicknesses := []
          speeds := [] } }

/-- `addPoint3D` (src/communication/ArcusCommunication.cpp:240-246). -/
def addPoint (cv : Conv F) (c : Compiler F) (p : P3) : Compiler F :=
  { c with
    points := c.points ++ [cv.mm p.x, cv.mm p.y, cv.mm p.z]
    last := p }

/-- `addLineSegment` (src/communication/ArcusCommunication.cpp:260-267). -/
def addLine (cv : Conv F) (c : Compiler F) (t : Nat) (p : P3) (w h : Int) (v : F) : Compiler F :=
  let c := addPoint cv c p
  { c with
    types := c.types ++ [t]
    widths := c.widths ++ [cv.mm w]
    thicknesses := c.thicknesses ++ [cv.mm h]
    speeds := c.speeds ++ [v] }

/-- `handleInitialPoint` (src/communication/ArcusCommunication.cpp:146-156). -/
def initial (cv : Conv F) (c : Compiler F) (p : P3) : Compiler F :=
  if c.points.isEmpty then addPoint cv c p
  else if p ≠ c.last then addLine cv c 0 p 1 0 cv.zero
  else c

/-- The calls (src/communication/ArcusCommunication.cpp:105-112, 127-134, 209-212, 225-233, 333-336, 352-362, 460-468). `none`: an assertion fails, as there is
no point a line could start from. -/
def step (cv : Conv F) (st : St F) : Op F → Option (St F)
  | .setLayer n => some (if st.comp.layer ≠ n then
      let st := flush st
      { st with comp := { st.comp with layer := n } } else st)
  | .setExtruder e => some (if st.comp.extruder ≠ e then
      let st := flush st
      { st with comp := { st.comp with extruder := e } } else st)
  | .position p => some { st with comp := initial cv st.comp p }
  | .line t p w h v =>
    if st.comp.points.isEmpty then none
    else some (if p ≠ st.comp.last then { st with comp := addLine cv st.comp t p w h v } else st)
  | .layerDone n z t => some
      { st with
        data := st.data.update n fun l => { l with height := z, thickness := t } }

/-- `sendOptimizedLayerData` (src/communication/ArcusCommunication.cpp:364-386). The order in which the messages are sent is not determined by the code; here
it is the one in which they were made. -/
def objectDone (st : St F) : St F :=
  let st := flush st
  let d := st.data
  let sliced := d.sliced + 1
  if sliced < st.objects then
    { st with
      data :=
        { d with
          sliced := sliced
          offset := d.count } }
  else
    { st with
      data := {}
      sent := st.sent ++ d.layers }

/-- Some calls, one after the other. -/
def runOps (cv : Conv F) (st : St F) : List (Op F) → Option (St F)
  | [] => some st
  | o :: os => (step cv st o).bind fun st => runOps cv st os

/-- The objects of a print: each is written, then `sendOptimizedLayerData` is called (src/Scene.cpp:66-100). -/
def runObjects (cv : Conv F) (st : St F) : List (List (Op F)) → Option (St F)
  | [] => some st
  | o :: os => (runOps cv st o).bind fun st => runObjects cv (objectDone st) os

/-- `switchExtruder` tells the position without the height: the conversion of a point in the plane sets it to zero
(src/gcode_export/gcodeExport.cpp:1530-1531, include/geometry/Point3LL.h:40). -/
def switchOps (e : Nat) (pos : P3) : List (Op F) := [.setExtruder e, .position ⟨pos.x, pos.y, 0⟩]

/-- `processMeshGroup`: nothing is sent for a group without any mesh that is a model (src/Scene.cpp:72-86). `models` says whether there is one. -/
def processGroup (cv : Conv F) (st : St F) (models : Bool) (ops : List (Op F)) : Option (St F) :=
  if models then (runOps cv st ops).map objectDone else some st

/-- The groups of a print (src/Slice.cpp:38-52). -/
def processGroups (cv : Conv F) (st : St F) : List (Bool × List (Op F)) → Option (St F)
  | [] => some st
  | (m, o) :: os => (processGroup cv st m o).bind fun st => processGroups cv st os

/-! ## Progress -/

/-- `Progress::times` (include/progress/Progress.h:44-53), in thousandths. -/
def times : List Rat := [0, 50, 5269 / 1000, 1533 / 1000, 71811 / 1000, 51009 / 1000, 15462 / 100, 1 / 10]

/-- `Progress::init`: the time before each stage (src/progress/Progress.cpp:30-39). -/
def accumulated (t : List Rat) (acc : Rat) : List Rat :=
  match t with
  | [] => []
  | x :: r => acc :: accumulated r (acc + x)

/-- `total_timing` (src/progress/Progress.cpp:30-39). -/
def total (t : List Rat) (acc : Rat) : Rat :=
  match t with
  | [] => acc
  | x :: r => total r (acc + x)

/-- `std::clamp` to the range from zero to one. -/
def clamp (p : Rat) : Rat := if p < 0 then 0 else if 1 < p then 1 else p

/-- `calcOverallProgress` (src/progress/Progress.cpp:24-28). Doubles are rational numbers. `none`: there is no such stage. -/
def overall (t : List Rat) (stage : Nat) (p : Rat) : Option Rat :=
  match (accumulated t 0)[stage]?, t[stage]? with
  | some a, some d => some ((a + clamp p * d) / total t 0)
  | _, _ => none

/-- What is sent: the last progress in thousandths and the amounts. -/
structure Bar where
  objects : Nat
  sliced : Nat := 0
  lastSent : Int := -1
  sent : List Rat := []

/-- `sendProgress` (src/communication/ArcusCommunication.cpp:445-460). The conversion to int cuts off; progress is not negative, so that this is the floor. -/
def sendProgress (b : Bar) (p : Rat) : Bar :=
  let r := (1000 * p).floor
  if b.lastSent = r then b
  else
    { b with
      sent := b.sent ++ [p / b.objects + b.sliced * (1 / b.objects)]
      lastSent := r }

/-- The progress of one object, and that it is finished: `sliced_objects` is incremented and reset with the last object
(src/communication/ArcusCommunication.cpp:368-383). -/
def barObject (b : Bar) (ps : List Rat) : Bar :=
  let b := ps.foldl sendProgress b
  { b with sliced := if b.sliced + 1 < b.objects then b.sliced + 1 else 0 }

/-- A group: without a model only the end is told, and no object is counted (src/Scene.cpp:81-86). -/
def barGroup (b : Bar) (models : Bool) (ps : List Rat) : Bar :=
  if models then barObject b (ps ++ [1]) else sendProgress b 1

end Verif.View
