import Verif.SubDiv.Props

/-! # Cubic subdivision: cases -/

namespace Verif.SubDiv.Cases

open Spec

/-- Products with the roots, cut off. -/
def sz : Sizes := ⟨fun a => a * 1732050 / 1000000, fun a => a * 577350 / 1000000⟩

def steps : List Step := (precompute sz [] 8000 1000).1

example : steps = [⟨2000, 3464, 1154⟩, ⟨4000, 6928, 2309⟩, ⟨8000, 13856, 4618⟩] := by decide +kernel

example : (precompute sz [] 8000 1000).2 = some 2 := by decide +kernel

/-- Cubes standing on their tip. -/
def rot (p : P3) : P3 :=
  ⟨((p.y - p.x) * 707106).tdiv 1000000, ((2 * p.z - p.x - p.y) * 408248).tdiv 1000000, ((p.x + p.y + p.z) * 577350).tdiv 1000000⟩

/-- A cylinder of radius 3 mm and a height of 4 mm. The distance is taken from the edge, by the difference of the squares. -/
def probe (c : P3) (l : Int) : Option (Bool × Int) :=
  if 0 ≤ l ∧ l < 40 then some (decide (c.x ^ 2 + c.y ^ 2 < 3000 ^ 2), (c.x ^ 2 + c.y ^ 2 - 3000 ^ 2).natAbs) else none

def tree : Cube := build steps rot (isValid probe 100) 0 ⟨0, 0, 0⟩ 2

def ends (st : Step) (c : P3) (z : Int) : Line :=
  let w := (st.side * 707 / 1000) * (st.drawZ - (z - c.z).natAbs) / st.drawZ
  let o := st.side * 408248 / 1000000 - (z - (c.z - st.drawZ)) * 707106 / 1000000
  (⟨c.x + w, c.y + o⟩, ⟨c.x - w, c.y + o⟩)

/-- The sizes and the rotation meet what the theorem asks for. -/
theorem fits : Fits steps 2 where
  len := by decide +kernel
  double := by
    intro i a b h1 h2
    have hi : i < 2 := by
      by_contra h
      rw [List.getElem?_eq_none (by have : steps.length = 3 := by decide +kernel
                                    omega)] at h2
      cases h2
    have : ∀ i < 2, ∀ a ∈ steps[i]?, ∀ b ∈ steps[i + 1]?, 2 * a.height ≤ b.height := by decide +kernel
    exact this i hi a h1 b h2
  draw := by
    intro i a h
    have : ∀ a ∈ steps, 3 * a.drawZ ≤ a.height + 1 := by decide +kernel
    exact this a (List.mem_of_getElem? h)
  first := by
    intro a h
    have : ∀ a ∈ steps[0]?, 6 * (2 : Int) + 5 ≤ a.height := by decide +kernel
    exact this a h

theorem turned (i : Nat) (st : Step) (h : steps[i]? = some st) (r : P3) (h1 : r.x = 1 ∨ r.x = -1) (h2 : r.y = 1 ∨ r.y = -1) (h3 : r.z = 1 ∨ r.z = -1) :
    ((rot (r.scale (st.side.tdiv 4))).z.natAbs : Int) ≤ st.height / 4 + 1 := by
  have : ∀ st ∈ steps, ∀ r ∈ corners, ((rot (r.scale (st.side.tdiv 4))).z.natAbs : Int) ≤ st.height / 4 + 1 := by decide +kernel
  exact this st (List.mem_of_getElem? h) r ((mem_corners r).2 ⟨h1, h2, h3⟩)

example := C118_lines steps ends rot (isValid probe 100) 0 ⟨0, 0, 0⟩ 2 fits turned 500

example : (sides 8000 1000)[2]? = some 8000 := (C118_sides 8000 1000 (by decide) 2 8000).2 (by decide)

example : isValid probe 100 ⟨2995, 0, 500⟩ 300 = true := by decide +kernel

example : isValid probe 100 ⟨100, 0, 2000⟩ 300 = false := by decide +kernel

/-- The tree has cubes of all sizes, not all that could be there, and there are lines, of which some are joined. -/
example : (cubes tree).length = 37 := by decide +kernel

example : ((drawn steps ends 500 tree).map List.length, (lines steps ends 500 tree).map List.length) = (some 19, some 7) := by decide +kernel

/-- The list of steps is kept for all meshes: a second mesh with another line distance gets cubes of the sizes of the first one. -/
theorem C118_second_mesh_counterexample :
    let s : Sizes := ⟨fun a => a * 173 / 100, fun a => a * 57 / 100⟩
    let first := precompute s [] 500000 1000
    let second := precompute s first.1 500000 4000
    second.2 = some 6 ∧ (second.1[0]?.map (·.side)) = some 2000 ∧ (precompute s [] 500000 4000).1[0]?.map (·.side) = some 8000 ∧
      (second.1[6]?.map (·.side)) = some 128000 ∧ (precompute s [] 500000 4000).1[6]?.map (·.side) = some 512000 := by decide +kernel

/-- Only each third layer is tested: a cube that meets the mesh on a layer between is not divided. -/
theorem C118_third_layer_counterexample :
    let probe : P3 → Probe := fun _ l => some (false, if l = 11 then 0 else 10 ^ 12)
    isValid probe 100 ⟨0, 0, 1150⟩ 150 = false ∧ (0 : Int) + (11 * 100 - 1150) ^ 2 < 150 ^ 2 := by decide +kernel

end Verif.SubDiv.Cases
