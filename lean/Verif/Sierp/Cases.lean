import Verif.Sierp.Props

/-! # Cross infill: cases -/

namespace Verif.Sierp

open Spec

/-- A square with the same density everywhere. -/
def evenEnv : Env := { exEnv with maxDepth := 4, leaf := fun t => if t.id % 2 = 0 then 4 else 3 }

example : exEnv.len root = 0 ∧ ∀ t, 0 ≤ exEnv.leaf t := by
  refine ⟨rfl, fun t => ?_⟩
  simp only [exEnv]
  split_ifs <;> norm_num

example : evenEnv.len root = 0 ∧ ∀ t, 0 ≤ evenEnv.leaf t := by
  refine ⟨rfl, fun t => ?_⟩
  simp only [evenEnv]
  split_ifs <;> norm_num

example : (2 : Int) ^ evenEnv.maxDepth ∣ evenEnv.lo.1 ∧ (2 : Int) ^ evenEnv.maxDepth ∣ evenEnv.lo.2 ∧ (2 : Int) ^ evenEnv.maxDepth ∣ evenEnv.hi.1 ∧ (2 : Int) ^ evenEnv.maxDepth ∣ evenEnv.hi.2 := by
  decide

-- the curve before dithering, and after it
example : (lower evenEnv true).map (·.map fun e => e.t.id) = some [15, 16, 8, 9, 10, 23, 24, 12, 13, 14] := by decide +kernel
example : (fill evenEnv true).map (fun l => (l.length, decide (l.map Entry.t ≠ [root]), ((l.map Entry.t).map area2).sum)) = some (13, true, 8192) := by decide +kernel
example : (lower evenEnv true).map (fun l => decide ((l.map Entry.t).IsChain fun t u => t.second = u.second → exitSide t = entrySide u ∧ exitLevel t = entryLevel u)) = some true := by decide +kernel
example : (fill evenEnv true).map (fun l => decide ((l.map Entry.t).IsChain fun t u => t.second = u.second → exitSide t = entrySide u ∧ exitLevel t = entryLevel u)) = some true := by decide +kernel

-- what is exchanged, in the example
example : (lower exEnv true).map (fun l => (l.map fun e => e.el)) = some [0, 22, 17, 12, 17 / 2, 5, 0, -5 / 2, -5, -17 / 2, 15 / 2, 5, 5 / 2] := by decide +kernel

example : (cross [fresh ⟨(64, 0), (0, 0), (64, 64), .acAb, false, 1, false, 1⟩]) = [(32, 32)] := by decide +kernel

end Verif.Sierp
