import Verif.Voxel.Spec

/-! # Interlocking: what two meshes that hold each other are like -/

namespace Verif.Interlock

open Verif.Voxel

/-- A place of the plane, in the direction of the beams. -/
abbrev P2 := Int × Int

/-- A part of the plane. -/
abbrev Area := P2 → Bool

namespace Spec

/-- The cell a place of a layer is in. The cells are as wide as one beam of each mesh, and as high as two beams. -/
def cellOf (wa wb count : Int) (layer : Nat) (p : P2) : P3 := fun d => if d = 0 then p.1 / (wa + wb) else if d = 1 then p.2 / (wa + wb) else layer / (2 * count)

/-- The mesh the beam at a place is of: the beams of the two take turns, along one direction, and along the other one in every other beam layer. -/
def beamOf (wa wb count : Int) (layer : Nat) (p : P2) : Fin 2 :=
  let x := if (layer / count : Int) % 2 = 0 then p.1 else p.2
  if x % (wa + wb) < wa then 0 else 1

/-- A cell that gets a structure: one near the surface of both meshes, and not near air, if that is asked for. -/
def Chosen (shellA shellB air : List P3) (filter : Bool) (v : P3) : Prop := v ∈ shellA ∧ v ∈ shellB ∧ ¬ (filter = true ∧ v ∈ air)

end Spec

end Verif.Interlock
