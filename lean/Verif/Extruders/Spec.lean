import Verif.Extruders.Model

/-! # What the properties of the extruder order are about

Independent of how the order is computed: what there is to print on a layer and with which extruder, tool changes,
and when an extruder is primed. -/

namespace Verif.Extruders

/-- A part of a printed model on a layer. -/
def PartOn (g : Group) (l : Int) (m : Mesh) (p : Part) : Prop :=
  m ∈ g.meshes ∧ m.printed = true ∧ m.supportMesh = false ∧ 0 ≤ l ∧ ∃ ly, m.layers[l.toNat]? = some ly ∧ p ∈ ly.parts

/-- The support of a layer; the filler layers below the model have that of layer 0. -/
def SupportOn (g : Group) (l : Int) (s : SupportLayer) : Prop :=
  -(g.fillers : Int) ≤ l ∧ g.support[(max 0 l).toNat]? = some s

/-- There is something to print on layer `l` with extruder `e`. -/
inductive Needs (g : Group) (l : Int) : Nat → Prop
  | outerWall {m p} : PartOn g l m p → p.wall0 = true ∨ p.spiral = true → Needs g l m.eWall0
  | innerWall {m p} : PartOn g l m p → p.wall1 = true → Needs g l m.eWallX
  | infill {m p} : PartOn g l m p → p.infill = true → Needs g l m.eInfill
  | skin {m p} : PartOn g l m p → p.skin = true → Needs g l m.eTopBottom
  | roofing {m p} : PartOn g l m p → p.roofing = true → Needs g l m.eRoofing
  | flooring {m p} : PartOn g l m p → p.flooring = true → Needs g l m.eFlooring
  | lines {m ly} : m ∈ g.meshes → m.printed = true → m.supportMesh = false → 0 ≤ l → m.layers[l.toNat]? = some ly →
      ly.lines = true → Needs g l m.eWall0
  | firstSupport {s} : SupportOn g l s → s.infill = true → l ≤ 0 → Needs g l g.eSupport0
  | support {s} : SupportOn g l s → s.infill = true → 0 < l → Needs g l g.eSupport
  | supportRoof {s} : SupportOn g l s → s.roof = true → Needs g l g.eRoof
  | supportBottom {s} : SupportOn g l s → s.bottom = true → Needs g l g.eBottom
  | skirtBrim {e} : g.adhesion = .skirt ∨ g.adhesion = .brim → l = 0 → e < g.count → g.skirtBrim e = true → Needs g l e
  | raftBase : g.adhesion = .raft → l = -(g.extra : Int) → Needs g l g.eBase
  | raftInterface : g.adhesion = .raft → -(g.extra : Int) < l →
      l ≤ -(g.extra : Int) + g.interfaceLayers → Needs g l g.eInterface
  | raftSurface : g.adhesion = .raft → -(g.extra : Int) + g.interfaceLayers < l →
      l ≤ -(g.extra : Int) + g.interfaceLayers + g.surfaceLayers → Needs g l g.eSurface

/-- Only existing extruders are chosen. -/
structure Exist (g : Group) : Prop where
  mesh : ∀ m ∈ g.meshes, m.eWall0 < g.count ∧ m.eWallX < g.count ∧ m.eInfill < g.count ∧ m.eTopBottom < g.count ∧
    m.eRoofing < g.count ∧ m.eFlooring < g.count
  support : g.eSupport0 < g.count ∧ g.eSupport < g.count ∧ g.eRoof < g.count ∧ g.eBottom < g.count
  raft : g.eBase < g.count ∧ g.eInterface < g.count ∧ g.eSurface < g.count

/-- What is generated for a model was asked for by its settings. -/
structure Asked (m : Mesh) : Prop where
  wall0 : ∀ ly ∈ m.layers, ∀ p ∈ ly.parts, p.wall0 = true → 0 < m.walls
  spiral : ∀ ly ∈ m.layers, ∀ p ∈ ly.parts, p.spiral = true → m.spiralize = true
  wall1 : ∀ ly ∈ m.layers, ∀ p ∈ ly.parts, p.wall1 = true → 1 < m.walls ∨ m.alternate = true
  infill : ∀ ly ∈ m.layers, ∀ p ∈ ly.parts, p.infill = true → 0 < m.infillDistance
  skin : ∀ ly ∈ m.layers, ∀ p ∈ ly.parts, p.skin = true → 0 < m.top ∨ 0 < m.bottom
  roofing : ∀ ly ∈ m.layers, ∀ p ∈ ly.parts, p.roofing = true → 0 < m.roofing ∧ 0 < m.top
  flooring : ∀ ly ∈ m.layers, ∀ p ∈ ly.parts, p.flooring = true → 0 < m.flooring ∧ 0 < m.bottom
  lines : ∀ ly ∈ m.layers, ly.lines = true → m.surface = true

/-- There is support only where support was asked for. -/
structure SupportAsked (g : Group) : Prop where
  mesh : ∀ s ∈ g.support, s.infill = true ∨ s.roof = true ∨ s.bottom = true →
    ∃ m ∈ g.meshes, m.supportEnable = true ∨ m.supportMesh = true ∨ g.painted = true
  roof : ∀ s ∈ g.support, s.roof = true → g.roofEnable = true
  bottom : ∀ s ∈ g.support, s.bottom = true → g.bottomEnable = true

/-- Support below layer 0 is printed with the extruder for the support of layer 0, which has to be the one for the
other support. -/
def FillerSupport (g : Group) : Prop :=
  g.fillers = 0 ∨ g.eSupport0 = g.eSupport ∨ ∀ s, g.support[0]? = some s → s.infill = false

/-- What is asked for and how it is printed fit together: everything that is generated for a model or as support was
asked for, no model is spiralized, and the support in the gap above a raft is printed with the extruder of the other
support. -/
structure Fits (g : Group) : Prop where
  exist : Exist g
  asked : ∀ m ∈ g.meshes, Asked m
  support : SupportAsked g
  plain : ∀ m ∈ g.meshes, m.spiralize = false
  filler : FillerSupport g

/-- The extruder that was the last one before the `i`-th layer of a print that begins with `first`. -/
def lastBefore (first : Nat) (os : List (List Use)) (i : Nat) : Nat :=
  match (os.take i).flatten.getLast? with
  | some u => u.extruder
  | none => first

/-- The number of tool changes when extruders print one after the other. -/
def changes : List Nat → Nat
  | a :: b :: rest => (if a = b then 0 else 1) + changes (b :: rest)
  | _ => 0

/-- Every extruder has been primed before it prints; the first one is primed at the very beginning. -/
def PrimedBefore (first : Nat) (tr : List Event) : Prop :=
  ∀ pre post e, tr = pre ++ .turn e :: post → e = first ∨ .prime e ∈ pre

end Verif.Extruders
