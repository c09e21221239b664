import Verif.Skirt.Props

/-! # Skirt and brim: cases -/

namespace Verif.Skirt.Cases

open Spec

/-- A place: the distance from a round model, in steps of 200 µm. -/
abbrev Place := Nat

def edge (a : Area Place) : Nat := ((List.range 8).filter fun r => a r).getLastD 0

/-- Lines are circles of 4 mm. -/
def geo : Geo Place where
  ring _ o out _ gapped touching p := out &&
    ((o.gapped 0 && p == edge o.gapped + (gapped / 200).toNat) || (o.touching 0 && p == edge o.touching + (touching / 200).toNat))
  beside _ w a p := a (p + (w / 200).toNat) || (decide ((w / 200).toNat ≤ p) && a (p - (w / 200).toNat))
  length a := 4000 * ((List.range 8).filter fun r => a r).length
  wide _ a p := a p || a (p + 1) || (decide (1 ≤ p) && a (p - 1))
  tidy _ a := a
  filled a p := decide (p ≤ edge a)

def confs : List Conf := [⟨true, true, false, 400, 8000, 1, 0⟩, ⟨true, true, false, 400, 3000, 2, 0⟩, ⟨false, false, false, 0, 0, 0, 0⟩]

def model : Area Place := fun p => p == 0

def start : St Place := ⟨fun _ p => decide (1 ≤ p) && decide (p < 8), model, fun _ => []⟩

theorem starts : Start confs start where
  width := by decide
  unused := by decide
  fresh := fun _ => rfl

def outlines : Nat → Outline Place := fun _ => ⟨model, fun _ => false⟩

def run (g : Geo Place) (cs : List Conf) (n : Nat) := generate g cs (some 0) (fun _ => false) outlines none 0 start n

/-- The planned line is not enough for the first extruder: it gets two. The second one gets one outside of them. -/
example : (run geo confs 20).map (fun r => r.2.1.map fun m => (m.ext, m.inset, m.total, (List.range 8).filter m.raw)) =
    some [(0, 0, 200, [1]), (0, 1, 600, [3])] := by decide +kernel

example : (run geo confs 20).map (fun r => r.2.2.map fun m => (m.ext, m.inset, (List.range 8).filter m.raw)) = some [(1, 0, [5])] := by decide +kernel

/-- With two extruders the lines alternate. -/
example : (plan none (fun _ => false) [⟨true, true, false, 400, 20000, 3, 0⟩, ⟨true, true, false, 400, 9000, 2, 0⟩]).map (fun o => (o.ext, o.inset, o.total, o.last)) =
    [(0, 0, 200, false), (1, 0, 200, false), (0, 1, 600, false), (1, 1, 600, true), (0, 2, 1000, true)] := by decide +kernel

example : ∃ r, run geo confs 11001 = some r := C119_ends geo confs (some 0) _ outlines none 0 start starts 11001 (by decide +kernel)

/-- Only a part of the place around the model is free, so that the circles are pieces of 2 mm: they are too short. -/
def short : Geo Place := { geo with length := fun a => 2000 * ((List.range 8).filter fun r => a r).length, tidy := fun _ _ _ => false }

def one : List Conf := [⟨true, true, false, 400, 4000, 1, 0⟩]

/-- The length is counted before pieces that are too short are removed: the minimal length of 4 mm is taken to be reached, but there are no lines. -/
theorem C119_short_counterexample :
    ∃ st l l', run short one 20 = some (st, l, l') ∧ Start one start ∧ 4000 ≤ sum short.length 0 (l ++ l') ∧ ∀ a ∈ st.out 0, ∀ p, a p = false := by
  cases h : run short one 20 with
  | none =>
    have : (run short one 20).isSome = true := by decide +kernel
    rw [h] at this
    cases this
  | some r =>
    obtain ⟨st, l, l'⟩ := r
    have hs : Start one start := ⟨by decide, by decide, fun _ => rfl⟩
    have h1 : (run short one 20).all (fun r => decide (4000 ≤ sum short.length 0 (r.2.1 ++ r.2.2))) = true := by decide +kernel
    rw [h] at h1
    simp only [Option.all_some, decide_eq_true_eq] at h1
    refine ⟨st, l, l', rfl, hs, h1, ?_⟩
    obtain ⟨mid, m1, _, m3⟩ := C119_stored hs h 0 _ rfl
    rw [m1 (Or.inr rfl)] at m3
    intro a ha p
    rw [m3] at ha
    simp only [List.append_nil, List.mem_append, List.mem_map] at ha
    rcases ha with ⟨_, _, rfl⟩ | ⟨_, _, rfl⟩ <;> rfl

/-- A round part of 10 mm of the first extruder within a ring of the second one, whose hole it fills, seen along a line through the middle, in millimetres. The hole is
allowed for the second extruder, although the part of the first one is there. -/
theorem C119_hole_counterexample :
    let part : Area Int := fun p => decide (p.natAbs ≤ 10)
    let partGrown : Area Int := fun p => decide (p.natAbs ≤ 12)
    let ringGrown : Area Int := fun p => decide (p.natAbs ≤ 32)
    let hole : Area Int := fun p => decide (p.natAbs ≤ 8)
    let own : Area Int := fun p => decide (10 ≤ p.natAbs) && decide (p.natAbs ≤ 30)
    let a := allowedArea (fun p => decide (p.natAbs ≤ 100)) [([.solid partGrown], fun _ => false), ([.solid ringGrown, .hole hole], fun _ => false)] ⟨own, fun _ => false⟩
    a 8 = true ∧ part 8 = true ∧ a 11 = false ∧ a 40 = true := by decide +kernel

end Verif.Skirt.Cases
