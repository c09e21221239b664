import Verif.Parts.Lemmas

/-! # C143 and C144: parts of layers -/

namespace Verif.Parts

open Spec

variable {α P : Type}

/-- **C143.** Splitting an area into parts neither loses nor doubles a contour. -/
theorem C143_all_contours (f : List (Node α)) : (process f).flatten.Perm (contours f) :=
  process_perm f

/-- **C143.** A point of the area, which is one in an odd number of contours, is in exactly one part; others are in none. -/
theorem C143_partition (around : α → Bool) (f : List (Node α)) (h : Nested around f) :
    (process f).countP (inPart around) = if (contours f).countP around % 2 = 1 then 1 else 0 := by
  have := cover_process around f h
  unfold cover count at this
  split <;> omega

/-- **C143.** No part is without an outline. -/
theorem C143_not_empty (f : List (Node α)) : ∀ part ∈ process f, part ≠ [] :=
  process_ne f

/-- **C144.** The points in the parts of a layer are those to be filled, each in one part. -/
theorem C144_filled (clip : Bool → List (Poly P) → List (Node (Poly P))) (hc : Unites clip)
    (removeHoles union surfaceOnly : Bool) (hs : surfaceOnly = false ∨ union = true) (polys : List (Poly P))
    (hp : ∀ q ∈ polys, Simple q) (p : P) :
    (Filled removeHoles union polys p →
      (createLayerWithParts clip removeHoles union surfaceOnly polys).countP (inPart (isAround p)) = 1) ∧
    (¬ Filled removeHoles union polys p →
      (createLayerWithParts clip removeHoles union surfaceOnly polys).countP (inPart (isAround p)) = 0) := by
  have hcond : (surfaceOnly && !union) = false := by rcases hs with h | h <;> simp [h]
  unfold createLayerWithParts
  simp only [hcond, Bool.false_eq_true, if_false, foldl_store, List.nil_append, splitIntoParts]
  have key : Filled removeHoles union polys p ↔
      (contours (clip (union || removeHoles) (if removeHoles = true then polys.map flip else polys))).countP
        (isAround p) % 2 = 1 := by
    rw [(hc _ _ p).2]
    unfold Filled
    rcases removeHoles with _ | _
    · rcases union with _ | _
      · simp only [Bool.false_eq_true, if_false, Bool.or_false]
        rw [sum_parity p polys hp]
        omega
      · simp
    · simp only [if_true, Bool.or_true]
      rw [sum_flipped p polys hp]
      have : (∃ q ∈ polys, isAround p q = true) ↔ 0 < polys.countP (isAround p) := by
        rw [List.countP_pos_iff]
      rw [this]
      omega
  rw [key, C143_partition _ _ (hc _ _ p).1]
  constructor <;> intro h <;> simp [h]

/-- **C144.** A surface that is not united has each of its outlines that has points as a part of its own, in order. -/
theorem C144_surface (clip : Bool → List (Poly P) → List (Node (Poly P))) (polys : List (Poly P)) :
    createLayerWithParts clip false false true polys = (polys.filter fun q => !q.empty).map fun q => [q] := by
  unfold createLayerWithParts
  simp [foldl_store]

/-- **C144.** If holes are to be removed from such a surface, its outlines still are parts of their own around the same points. -/
theorem C144_surface_holes (clip : Bool → List (Poly P) → List (Node (Poly P))) (polys : List (Poly P)) (p : P) :
    (createLayerWithParts clip true false true polys).map (inPart (isAround p)) =
      (polys.filter fun q => !q.empty).map (isAround p) := by
  unfold createLayerWithParts
  simp only [Bool.not_false, Bool.and_self, if_true, foldl_store, List.nil_append]
  induction polys with
  | nil => rfl
  | cons q rest ih =>
    have he : (flip q).empty = q.empty := by unfold flip; split <;> rfl
    have hw : isAround p (flip q) = isAround p q := by unfold flip; split <;> simp [isAround, Poly.reverse]
    rw [List.map_cons, List.filter_cons, List.filter_cons, he]
    split
    · simp only [List.map_cons, ih, inPart, List.all_nil, Bool.and_true, hw]
    · exact ih

/-- **C144.** The highest layer that is recorded is the highest one with parts, or, where surfaces are printed, with open lines;
it is 0 if there is none. -/
theorem C144_highest (surfaceMode : Bool) (layers : ℕ → Layer) (n : ℕ) :
    (highest surfaceMode layers n = 0 ∧
      ∀ k < n, (layers k).parts = 0 ∧ (surfaceMode = true → (layers k).openPolylines = 0)) ∨
    ∃ m < n, highest surfaceMode layers n = m ∧
      (0 < (layers m).parts ∨ surfaceMode = true ∧ 0 < (layers m).openPolylines) ∧
      ∀ k < n, m < k → (layers k).parts = 0 ∧ (surfaceMode = true → (layers k).openPolylines = 0) := by
  induction n with
  | zero => left; exact ⟨rfl, by simp⟩
  | succ n ih =>
    unfold highest
    split
    · rename_i hn
      right
      refine ⟨n, by omega, rfl, ?_, ?_⟩
      · simpa using hn
      · intro k hk hk'
        omega
    · rename_i hn
      have hn' : (layers n).parts = 0 ∧ (surfaceMode = true → (layers n).openPolylines = 0) := by simpa using hn
      rcases ih with ⟨h1, h2⟩ | ⟨m, hm, h1, h2, h3⟩
      · left
        refine ⟨h1, fun k hk => ?_⟩
        rcases Nat.lt_succ_iff_lt_or_eq.mp hk with h | h
        · exact h2 k h
        · exact h ▸ hn'
      · right
        refine ⟨m, by omega, h1, h2, fun k hk hmk => ?_⟩
        rcases Nat.lt_succ_iff_lt_or_eq.mp hk with h | h
        · exact h3 k h hmk
        · exact h ▸ hn'

/-! ## Concrete cases -/

/-- An interval of numbers as an outline. -/
def interval (a b : ℕ) : Node (ℕ × ℕ) := .node (a, b) []

/-- A ring with an island in its hole, and another outline beside it. -/
def rings : List (Node (ℕ × ℕ)) := [.node (0, 9) [.node (1, 5) [interval 2 4], interval 6 8], interval 10 12]

/-- Whether a number is in an interval. -/
def within (x : ℕ) (i : ℕ × ℕ) : Bool := decide (i.1 < x) && decide (x < i.2)

example : process rings = [[(2, 4)], [(0, 9), (1, 5), (6, 8)], [(10, 12)]] := by decide +kernel

example : Nested (within 3) rings ∧ (contours rings).countP (within 3) = 3 := by
  constructor
  · simp [rings, interval, Nested, NestedIn, within, Node.contour]
  · decide +kernel

/-- A kind of plane with one point: outlines around it or not, and a union of them by either rule. -/
def clipPoint (nonZero : Bool) (polys : List (Poly Unit)) : List (Node (Poly Unit)) :=
  let w := (polys.map fun q => q.winding ()).sum
  if (if nonZero then w ≠ 0 else w % 2 = 1) then [.node ⟨true, fun _ => 1, false⟩ []] else []

example : Unites clipPoint := by
  intro nonZero polys p
  unfold clipPoint
  rcases nonZero with _ | _ <;> simp only [Bool.false_eq_true, if_false, if_true] <;> split <;> rename_i h <;>
    simp_all [Nested, NestedIn, contours, contoursOf, isAround]

/-- An outline round the point and a hole round it: with the holes removed the point is filled, otherwise not. -/
def outerAndHole : List (Poly Unit) := [⟨true, fun _ => 1, false⟩, ⟨false, fun _ => -1, false⟩]

example : (∀ q ∈ outerAndHole, Simple q) ∧ Filled true false outerAndHole () ∧ ¬ Filled false true outerAndHole () ∧
    ¬ Filled false false outerAndHole () := by
  refine ⟨?_, ?_, ?_, ?_⟩
  · intro q hq p
    simp only [outerAndHole, List.mem_cons, List.not_mem_nil, or_false] at hq
    rcases hq with rfl | rfl <;> simp
  · exact ⟨_, List.mem_cons_self, by decide⟩
  · simp [Filled, outerAndHole]
  · simp [Filled, outerAndHole, isAround]

example : highest true (fun k => if k = 2 then ⟨1, 0⟩ else if k = 4 then ⟨0, 3⟩ else ⟨0, 0⟩) 7 = 4 ∧
    highest false (fun k => if k = 2 then ⟨1, 0⟩ else if k = 4 then ⟨0, 3⟩ else ⟨0, 0⟩) 7 = 2 := by decide +kernel

end Verif.Parts
