import Verif.Basic
import Verif.Layers.Model
import Mathlib.Data.List.Sort

/-! # Which extruders print on a layer, and in which order

Models the choice of extruders of src/sliceDataStorage.cpp, src/FffGcodeWriter.cpp, src/FffPolygonGenerator.cpp and
src/PrimeTower. A vector of flags for all extruders is a function from extruder numbers (which are in range, because
`settings.get<ExtruderTrain&>` gives only existing extruders); areas are represented by whether they are empty. -/

namespace Verif.Extruders

open Verif.Layers (LayerType)

/-- What is generated for a part of a layer (`SliceLayerPart`, include/sliceDataStorage.h): whether it has walls with
inset index 0 and 1, a spiral wall, infill, and whether one of its skin parts has skin, roofing and flooring fill. -/
structure Part where
  wall0 : Bool
  wall1 : Bool
  spiral : Bool
  infill : Bool
  skin : Bool
  roofing : Bool
  flooring : Bool

/-- `SliceLayer`: its parts and whether it has open polylines. -/
structure MeshLayer where
  parts : List Part
  lines : Bool

/-- The settings of a mesh and its layers (`SliceMeshStorage`); `surface` is `magic_mesh_surface_mode != NORMAL`,
the names with `e` are extruder numbers. -/
structure Mesh where
  printed : Bool
  supportMesh : Bool
  supportEnable : Bool
  spiralize : Bool
  surface : Bool
  walls : Nat
  skinOutlines : Nat
  alternate : Bool
  infillDistance : Int
  top : Nat
  bottom : Nat
  roofing : Nat
  flooring : Nat
  eWall0 : Nat
  eWallX : Nat
  eInfill : Nat
  eTopBottom : Nat
  eRoofing : Nat
  eFlooring : Nat
  layers : List MeshLayer

/-- `EPlatformAdhesion` (without the plugin value). -/
inductive Adhesion where
  | skirt | brim | raft | none
deriving DecidableEq

/-- `SupportLayer`: whether there are infill parts, bottom and roof. -/
structure SupportLayer where
  infill : Bool
  bottom : Bool
  roof : Bool

/-- `ExtruderPrime` (include/ExtruderPrime.h). -/
inductive Prime where
  | none | support | prime
deriving DecidableEq, Repr

/-- `ExtruderUse` (include/ExtruderUse.h:14-18). -/
structure Use where
  extruder : Nat
  prime : Prime
deriving DecidableEq, Repr

/-- The kind of prime tower, if there is one (`PrimeTower::createPrimeTower`, src/PrimeTower/PrimeTower.cpp:315-353). -/
inductive Tower where
  | none | normal | interleaved
deriving DecidableEq

/-- The settings of a mesh group and what was generated for it. `filler` is `Raft::getFillerLayerCount()` (modelled in
Verif/Layers), `blob` is `prime_blob_enable` of an extruder, `griffin` whether the flavour is Griffin or Cheetah
(`GCodeExport::needPrimeBlob`, src/gcode_export/gcodeExport.cpp:904-915), `skirtBrim` whether something is generated
for an extruder, `maxFilled` is `support.layer_nr_max_filled_layer`, `skirtSet` and `brimSet` whether the lines of
the skirt or brim of the adhesion extruder are enabled (src/FffGcodeWriter.cpp:392, 399-400). -/
structure Group where
  count : Nat
  adhesion : Adhesion
  skirtBrimNr : Int
  skirtSet : Bool
  brimSet : Bool
  towerBrim : Bool
  skirtBrim : Nat → Bool
  eBase : Nat
  eInterface : Nat
  eSurface : Nat
  interfaceLayers : Nat
  surfaceLayers : Nat
  filler : Nat
  supportEnable : Bool
  painted : Bool
  supportBrim : Bool
  roofEnable : Bool
  bottomEnable : Bool
  eSupport0 : Nat
  eSupport : Nat
  eRoof : Nat
  eBottom : Nat
  support : List SupportLayer
  maxFilled : Int
  meshes : List Mesh
  blob : Nat → Bool
  griffin : Bool
  tower : Tower
  layerCount : Nat

variable (g : Group)

/-! ## Raft layers -/

/-- `Raft::getFillerLayerCount` is zero without a raft (src/raft.cpp:141-157). -/
def Group.fillers : Nat := if g.adhesion = .raft then g.filler else 0

/-- `Raft::getTotalExtraLayers` (src/raft.cpp:171-174). -/
def Group.extra : Nat :=
  if g.adhesion = .raft then 1 + g.interfaceLayers + g.surfaceLayers + g.fillers else 0

/-- `Raft::getLayerType` (src/raft.cpp:196-221). -/
def Group.type (l : Int) : LayerType :=
  let surface := if g.adhesion = .raft then g.surfaceLayers else 0
  let interface := if g.adhesion = .raft then g.interfaceLayers else 0
  if l < -((g.fillers + surface + interface : Nat) : Int) then .raftBase
  else if l < -((g.fillers + surface : Nat) : Int) then .raftInterface
  else if l < -(g.fillers : Int) then .raftSurface
  else if l < 0 then .airgap
  else .model

/-! ## Which extruders are used -/

/-- `SliceMeshStorage::getExtruderIsUsed(extruder_nr)` (src/sliceDataStorage.cpp:111-158). -/
def Mesh.usesEver (m : Mesh) (e : Nat) : Bool :=
  if !m.printed || m.supportMesh then false
  else if m.spiralize then m.eWall0 == e
  else
    (m.surface && m.eWall0 == e) ||
    (decide (m.walls > 0) && m.eWall0 == e) ||
    ((decide (m.walls > 1) || m.alternate) && m.eWallX == e) ||
    (decide (m.infillDistance > 0) && m.eInfill == e) ||
    ((decide (m.top > 0) || decide (m.bottom > 0)) && m.eTopBottom == e) ||
    (decide (min m.roofing m.top > 0) && m.eRoofing == e) ||
    (decide (min m.flooring m.bottom > 0) && m.eFlooring == e)

/-- The part of `SliceMeshStorage::getExtruderIsUsed(extruder_nr, layer_nr)` for a layer that exists. -/
def Mesh.layerUses (m : Mesh) (e : Nat) (ly : MeshLayer) : Bool :=
  (m.eWall0 == e && (decide (m.walls > 0) || decide (m.skinOutlines > 0)) && ly.parts.any fun p => p.wall0 || p.spiral) ||
  (m.surface && m.eWall0 == e && ly.lines) ||
  ((decide (m.walls > 1) || m.alternate) && m.eWallX == e && ly.parts.any fun p => p.wall1) ||
  (decide (m.infillDistance > 0) && m.eInfill == e && ly.parts.any fun p => p.infill) ||
  (m.eTopBottom == e && ly.parts.any fun p => p.skin) ||
  (m.eRoofing == e && ly.parts.any fun p => p.roofing) ||
  (m.eFlooring == e && ly.parts.any fun p => p.flooring)

/-- `SliceMeshStorage::getExtruderIsUsed(extruder_nr, layer_nr)` (src/sliceDataStorage.cpp:160-247). -/
def Mesh.usesOn (m : Mesh) (e : Nat) (l : Int) : Bool :=
  if l < 0 then false
  else match m.layers[l.toNat]? with
    | none => false
    | some ly => if !m.printed || m.supportMesh then false else m.layerUses e ly

/-- `SliceDataStorage::getExtrudersUsed()` (src/sliceDataStorage.cpp:427-501). -/
def Group.usedEver (e : Nat) : Bool :=
  decide (e < g.count) &&
  ((match g.adhesion with
    | .skirt | .brim => g.skirtBrim e || (decide (g.skirtBrimNr ≥ 0) && g.skirtBrimNr == (e : Int))
    | .raft =>
      g.eBase == e || (decide (g.interfaceLayers > 0) && g.eInterface == e) ||
        (decide (g.surfaceLayers > 0) && g.eSurface == e)
    | .none => false) ||
  (g.meshes.any fun m => (m.supportEnable || m.supportMesh || g.painted) &&
    (g.eSupport0 == e || g.eSupport == e || (g.roofEnable && g.eRoof == e) || (g.bottomEnable && g.eBottom == e))) ||
  g.meshes.any fun m => m.usesEver e)

/-- The part for the support of `SliceDataStorage::getExtrudersUsed(layer_nr)` (src/sliceDataStorage.cpp:568-598). -/
def Group.supportUses (l : Int) (e : Nat) : Bool :=
  if l < g.support.length then
    match g.support[(max 0 l).toNat]? with
    | none => false
    | some s => (s.infill && (if l = 0 then g.eSupport0 else g.eSupport) == e) || (s.bottom && g.eBottom == e) ||
        (s.roof && g.eRoof == e)
  else false

/-- The part for the platform adhesion (src/sliceDataStorage.cpp:528-564). -/
def Group.adhesionUses (l : Int) (e : Nat) : Bool :=
  (decide (l = 0) && (g.adhesion == .skirt || g.adhesion == .brim) && g.skirtBrim e) ||
  (g.adhesion == .raft &&
    (match g.type l with
     | .raftBase => g.eBase == e || g.blob e
     | .raftInterface => g.eInterface == e
     | .raftSurface => g.eSurface == e
     | _ => false))

/-- `SliceDataStorage::getExtrudersUsed(layer_nr)` (src/sliceDataStorage.cpp:503-611). -/
def Group.usedOn (l : Int) (e : Nat) : Bool :=
  let includeModels := decide (l ≥ 0)
  let includeHelper := decide (l ≥ -(g.fillers : Int))
  let includeAdhesion := decide (l < 0) || !(decide (l > 0) || g.adhesion == .raft)
  decide (e < g.count) &&
    ((includeAdhesion && g.adhesionUses l e) || (includeHelper && g.supportUses l e) ||
      (includeModels && g.meshes.any fun m => m.usesOn e l))

/-- `FffGcodeWriter::getExtruderNeedPrimeBlobDuringFirstLayer` (src/FffGcodeWriter.cpp:1294-1309). -/
def Group.needsBlob (e : Nat) : Bool := g.griffin && g.usedEver e && (decide (e < g.count) && g.blob e)

/-- `FffGcodeWriter::getStartExtruder` (src/FffGcodeWriter.cpp:382-428): without adhesion and support brim the first
extruder that is used (the last one if none is). -/
def Group.start : Nat :=
  let adhesionExtruder := decide (g.skirtBrimNr ≥ 0)
  if g.adhesion = .skirt ∧ adhesionExtruder = true ∧ g.skirtSet = true then g.skirtBrimNr.toNat
  else if (g.adhesion = .brim ∨ g.towerBrim = true) ∧ adhesionExtruder = true ∧ g.brimSet = true then g.skirtBrimNr.toNat
  else if g.adhesion = .raft ∧ adhesionExtruder = true then g.eBase
  else if (g.supportEnable = true ∨ g.painted = true) ∧ g.supportBrim = true then g.eSupport
  else match (List.range g.count).find? g.usedEver with
    | some e => e
    | none => g.count - 1

/-! ## The height up to which there are tool changes -/

/-- The highest layer below `n` for which the condition holds, or `low`
(the loop of src/FffPolygonGenerator.cpp:893-900). -/
def highest (low : Int) (p : Int → Bool) : Nat → Int
  | 0 => low
  | n + 1 => if (n : Int) > low then (if p n then n else highest low p n) else low

/-- `max_print_height_per_extruder` after `FffPolygonGenerator::computePrintHeightStatistics`
(src/FffPolygonGenerator.cpp:873-946). -/
def Group.height (e : Nat) : Int :=
  let h := g.meshes.foldl (fun h m =>
    if !m.printed || m.supportMesh then h else highest h (m.usesOn e) m.layers.length) (-((g.extra : Int) + 1))
  let h := if e = g.eSupport then max h g.maxFilled else h
  let h := if e = g.eRoof then max h g.maxFilled else h
  let h := if e = g.eBottom then max h g.maxFilled else h
  match g.adhesion with
  | .skirt | .brim => if g.skirtBrimNr < 0 ∨ g.skirtBrimNr = e then max 0 h else h
  | .raft =>
    let h := if e = g.eBase then max (-(g.extra : Int)) h else h
    let h := if e = g.eInterface then max (-(g.extra : Int) + 1) h else h
    if e = g.eSurface then max (-1) h else h
  | .none => h

/-- `order` (include/utils/algorithm.h:28-44): the indices in the order of their values. -/
def sortedIndices (n : Nat) (h : Nat → Int) : List Nat := (List.range n).insertionSort fun i j => h i ≤ h j

/-- `max_print_height_second_to_last_extruder` (src/FffPolygonGenerator.cpp:948-958). -/
def Group.second : Int :=
  if g.count ≥ 2 then
    match (sortedIndices g.count g.height)[g.count - 2]? with
    | some e => g.height e
    | none => 0
  else -((g.extra : Int) + 1)

/-! ## The order of extruders -/

/-- `PrimeTower::extruderRequiresPrime` (src/PrimeTower/PrimeTower.cpp:355-358). -/
def requiresPrime (used : Nat → Bool) (e last : Nat) : Bool := used e && e != last

/-- `getExtruderPrime` (src/PrimeTower/PrimeTowerNormal.cpp:21-40, src/PrimeTower/PrimeTowerInterleaved.cpp:20-37). -/
def Group.primeFor (l : Int) (used : Nat → Bool) (e last : Nat) : Prime :=
  match g.tower with
  | .none => .none
  | .normal =>
    if requiresPrime used e last then .prime else if l ≤ g.second then .support else .none
  | .interleaved => if requiresPrime used e last then .prime else .none

/-- The loop over the candidates (src/FffGcodeWriter.cpp:1662-1678). -/
def Group.pick (g : Group) (l : Int) (used : Nat → Bool) : List Nat → Nat → List Use
  | [], _ => []
  | e :: rest, last =>
    let p := g.primeFor l used e last
    if used e || p != .none then ⟨e, p⟩ :: g.pick l used rest e else g.pick l used rest last

/-- The candidates (src/FffGcodeWriter.cpp:1651-1660). -/
def Group.candidates (start : Nat) : List Nat :=
  start :: (List.range g.count).filter fun e => e != start && g.usedEver e

/-- `FffGcodeWriter::getUsedExtrudersOnLayer` (src/FffGcodeWriter.cpp:1603-1682). -/
def Group.order (start : Nat) (l : Int) : List Use :=
  if g.type l = .raftBase then
    ⟨g.eBase, .none⟩ ::
      (if l = -(g.extra : Int) then
        ((List.range g.count).filter fun e => e != g.eBase && g.needsBlob e).map fun e => ⟨e, .none⟩
       else [])
  else
    let used := fun e => g.usedOn l e || (decide (l = -(g.extra : Int)) && g.needsBlob e)
    g.pick l used (g.candidates start) start

/-- The extruder at the end of a list of uses, or the one before. -/
def lastOf (last : Nat) (o : List Use) : Nat :=
  match o.getLast? with
  | some u => u.extruder
  | none => last

/-- The loop of `FffGcodeWriter::calculateExtruderOrderPerLayer` (src/FffGcodeWriter.cpp:1561-1570). -/
def Group.ordersFrom (g : Group) : Nat → Nat → Int → List (List Use)
  | 0, _, _ => []
  | n + 1, last, l =>
    let o := g.order last l
    o :: g.ordersFrom n (lastOf last o) (l + 1)

/-- One layer of `PrimeTowerInterleaved::polishExtrudersUses` (src/PrimeTower/PrimeTowerInterleaved.cpp:117-133). -/
def polishLayer (last : Nat) (o : List Use) : List Use :=
  match o.getLast? with
  | none => [⟨last, .support⟩]
  | some u => if o.all (fun u => u.prime == .none) then o.dropLast ++ [{ u with prime := .support }] else o

/-- `PrimeTowerInterleaved::polishExtrudersUses` (src/PrimeTower/PrimeTowerInterleaved.cpp:109-137). -/
def polish : Nat → List (List Use) → List (List Use)
  | _, [] => []
  | last, o :: rest =>
    let o := polishLayer last o
    o :: polish (lastOf last o) rest

/-- `extruder_order_per_layer` after `FffGcodeWriter::calculateExtruderOrderPerLayer`
(src/FffGcodeWriter.cpp:1542-1576); the first element is the lowest layer. `first` is the extruder with which the
mesh group starts: `getStartExtruder` for the first one. -/
def Group.orders (first : Nat) : List (List Use) :=
  let os := g.ordersFrom (g.extra + g.layerCount) first (-(g.extra : Int))
  if g.tower = .interleaved then polish first os else os

/-- `findUsedExtruderIndex` (src/FffGcodeWriter.cpp:2515-2533) for the `i`-th layer from below. -/
def Group.findUsed (g : Group) (os : List (List Use)) : Bool → Nat → Nat
  | last, 0 =>
    match os[0]?.getD [] with
    | u :: rest => if last then lastOf u.extruder rest else u.extruder
    | [] => g.start
  | last, i + 1 =>
    match os[i + 1]?.getD [] with
    | u :: rest => if last then lastOf u.extruder rest else u.extruder
    | [] => Group.findUsed g os true i

/-! ## Priming -/

/-- `calculatePrimeLayerPerExtruder` (src/FffGcodeWriter.cpp:1578-1601) for one extruder; `none` is the maximum. The
start extruder of a Griffin printer was set to the minimum before, so that it is never primed here
(src/FffGcodeWriter.cpp:79-86). -/
def Group.primeLayer (first e : Nat) : Option Int :=
  if g.griffin = true ∧ e = first then none
  else if g.needsBlob e then some (-(g.extra : Int))
  else ((List.range (g.extra + g.layerCount)).map fun (i : Nat) => (i : Int) - g.extra).find? fun l => g.usedOn l e

/-- What happens with an extruder: it is primed, or has its turn to print. -/
inductive Event where
  | prime (e : Nat)
  | turn (e : Nat)
deriving DecidableEq, Repr

/-- The state of a layer plan: the current extruder, what was planned, and for which extruders the prime tower is. -/
structure Plan where
  current : Nat
  events : List Event
  towered : List Nat
deriving DecidableEq, Repr

/-- `PrimeTower::addToGcode` (src/PrimeTower/PrimeTower.cpp:177-255) as far as `setPrimeTowerIsPlanned` is concerned. -/
def Group.addTower (o : List Use) (l : Int) (p : Plan) : Plan :=
  if g.tower = .none ∨ p.current ∈ p.towered ∨ l > g.second + 1 ∨ ¬ (o.any fun u => u.extruder == p.current) then p
  else { p with towered := p.towered ++ [p.current] }

/-- `FffGcodeWriter::setExtruder_addPrime` (src/FffGcodeWriter.cpp:4193-4231): switch, prime on the layer for priming,
and print on the prime tower. -/
def Group.setExtruder (first : Nat) (o : List Use) (l : Int) (tower : Bool) (e : Nat) (p : Plan) : Plan :=
  let primes := if e ≠ p.current ∧ g.primeLayer first e = some l then [Event.prime e] else []
  let p := { p with current := e, events := p.events ++ primes ++ [.turn e] }
  if tower then g.addTower o l p else p

/-- The extruder part of `FffGcodeWriter::processLayer` (src/FffGcodeWriter.cpp:1203-1276) for the `i`-th layer. -/
def Group.processLayer (first : Nat) (os : List (List Use)) (i : Nat) : Plan :=
  let o := os[i]?.getD []
  let l := (i : Int) - g.extra
  o.foldl (fun p u => g.setExtruder first o l true u.extruder p) ⟨g.findUsed os false i, [], []⟩

/-- `FffGcodeWriter::startRaftLayer` (src/FffGcodeWriter.cpp:1100-1111). -/
def Group.startRaft (first : Nat) (o : List Use) (l : Int) (e : Nat) (p : Plan) : Plan :=
  let cur := p.current
  let p := g.setExtruder first o l true cur p
  if cur ≠ e then g.setExtruder first o l true e p else p

/-- `FffGcodeWriter::endRaftLayer` (src/FffGcodeWriter.cpp:1113-1127). -/
def Group.endRaft (first : Nat) (o : List Use) (l : Int) (tower : Bool) (p : Plan) : Plan :=
  let p := g.setExtruder first o l tower p.current p
  o.foldl (fun p u =>
    if tower = false ∨ (u.extruder ∉ p.towered ∧ u.prime ≠ .none) then g.setExtruder first o l tower u.extruder p
    else p) p

/-- One layer of `FffGcodeWriter::processRaft` (src/FffGcodeWriter.cpp:564-1098); `cur` is `current_extruder_nr`. -/
def Group.raftLayer (first : Nat) (os : List (List Use)) (i cur : Nat) : Plan :=
  let o := os[i]?.getD []
  let l := (i : Int) - g.extra
  if i = 0 then g.endRaft first o l false ⟨g.eBase, [.turn g.eBase], []⟩
  else
    g.endRaft first o l true
      (g.startRaft first o l (if i ≤ g.interfaceLayers then g.eInterface else g.eSurface) ⟨cur, [], []⟩)

/-- The raft layers from the `i`-th on. -/
def Group.raftFrom (g : Group) (first : Nat) (os : List (List Use)) : Nat → Nat → Nat → List Event
  | 0, _, _ => []
  | n + 1, i, cur =>
    let p := g.raftLayer first os i cur
    p.events ++ g.raftFrom first os n (i + 1) p.current

/-- Everything that happens with the extruders (src/FffGcodeWriter.cpp:133-170): the raft, then the other layers. The
filler layers are processed only if an extruder is used on layer -1. -/
def Group.trace (first : Nat) : List Event :=
  let os := g.orders first
  let rafts := g.extra - g.fillers
  let fillers := (List.range g.fillers).map (rafts + ·)
  let models := (List.range g.layerCount).map (g.extra + ·)
  (if g.adhesion = .raft then g.raftFrom first os rafts 0 g.eBase else []) ++
    ((if (List.range g.count).any (g.usedOn (-1)) then fillers else []) ++ models).flatMap
      fun i => (g.processLayer first os i).events

end Verif.Extruders
