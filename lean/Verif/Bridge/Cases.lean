import Verif.Bridge.Props

/-! # Cases of C108 -/

namespace Verif.Bridge

open Verif.Order (Pt)
open Verif.Walls (size)

/-- A square that is not supported, between x = 1000 and x = 3000. -/
def gap : List Pt := [⟨1000, -1000⟩, ⟨3000, -1000⟩, ⟨3000, 1000⟩, ⟨1000, 1000⟩]

def gapMask : Mask :=
  ⟨fun p => decide (1000 < p.x ∧ p.x < 3000 ∧ -1000 < p.y ∧ p.y < 1000), crossings [gap], fun _ _ => true⟩

/-- A wall, a part of which is over it. -/
def wall : List Pt := [⟨0, 0⟩, ⟨4000, 0⟩, ⟨4000, 4000⟩, ⟨0, 4000⟩]

theorem gap_good : Good gapMask ⟨0, 0⟩ ⟨4000, 0⟩ :=
  ⟨by decide +kernel, by decide +kernel, by decide +kernel⟩

example := C108_bridges gapMask wall 0 0 1 5 400 ⟨0, 0⟩ ⟨4000, 0⟩ rfl rfl gap_good (by norm_num) (by norm_num) (by norm_num) [1 / 4, 3 / 4]
  (by decide +kernel) (by decide +kernel)

/-- The middle half is a bridge. -/
example : usesBridging gapMask wall 5 0 0 1 5 400 = some [(1 / 4, 3 / 4)] := by decide +kernel

/-- Of the last three quarters of the line, it is the first two thirds. -/
example : usesBridging gapMask wall 5 0 (1 / 4) 1 5 400 = some [(0, 2 / 3)] := by decide +kernel

/-- It is too short. -/
example : usesBridging gapMask wall 5 0 0 1 2001 400 = some [] := by decide +kernel

example : Long false [1 / 4, 3 / 4] 4000 5 (1 / 2) := ⟨1, 1 / 4, 3 / 4, by simp, by simp, by norm_num, by norm_num, by simp, by norm_num⟩

/-- A wall that starts over air, and is supported only at its end. -/
def loose : List Pt := [⟨2000, 0⟩, ⟨4000, 0⟩, ⟨2000, 10⟩]

/-- One end is not anchored, so that there is no bridge. -/
example : usesBridging gapMask loose 50 0 0 1 5 800 = some [] := by decide +kernel

/-- Coasting 100 micron before a bridge; the bridge is printed at a quarter of the speed. -/
def cfg : Cfg := ⟨1, 1, 1, 0, 1 / 25, 1 / 4⟩

theorem cfg_ok : cfg.Ok := ⟨by decide +kernel, by decide +kernel, by decide +kernel, by decide +kernel, by decide +kernel⟩

example := C108_line cfg 10000 (by norm_num) 10 (by norm_num) [(1 / 10, 2 / 10)] ⟨by intro x hx; simp at hx; subst hx; norm_num, by simp⟩ 100000 1 1000
  (by norm_num) (by norm_num)

/-- A line with a bridge is printed up to 0.1 mm before it, coasted, bridged and printed with increasing speed. -/
theorem run : (printLine cfg 10000 10 [(1 / 10, 2 / 10)] ⟨0, 100000, 1, 1000⟩).map (·.1) = some
    [⟨.plain, 0, 900, 1, 1⟩, ⟨.coast, 900, 1000, 0, 1⟩, ⟨.bridge, 1000, 2000, 1, 1⟩, ⟨.plain, 2000, 3000, 1, 1 / 2⟩, ⟨.plain, 3000, 4000, 1, 5 / 8⟩,
      ⟨.plain, 4000, 5000, 1, 23 / 32⟩, ⟨.plain, 5000, 6000, 1, 101 / 128⟩, ⟨.plain, 6000, 7000, 1, 431 / 512⟩, ⟨.plain, 7000, 8000, 1, 1805 / 2048⟩,
      ⟨.plain, 8000, 10000, 1, 1⟩] := by
  decide +kernel

/-- The material printed since the last bridge is counted, so that the next one is coasted to. -/
example : (printLine cfg 3000 10 [] ⟨0, 0, 1 / 2, 0⟩).map (·.2) = some ⟨3000, 7375 / 4, 101 / 128, 0⟩ := by decide +kernel

example (r : List Out × St) (hr : printLine cfg 10000 10 [(1 / 10, 2 / 10)] ⟨0, 100000, 1, 1000⟩ = some r) :=
  C108_coast cfg cfg_ok 10000 10 [(1 / 10, 2 / 10)] 100000 1 1000 (by norm_num) (by norm_num) (by norm_num) r hr

example := C108_approach cfg 1000 100000 (by norm_num) 3 (by norm_num) 100 (by unfold cfg; norm_num)

example (r : List Out × St) (hr : nonBridge cfg 10000 10 ⟨2000, 0, afterBridge cfg, 0⟩ = some r) :=
  C108_speed cfg 2000 10000 0 0 (by norm_num) 10 r hr

example : (nonBridge cfg 10000 10 ⟨2000, 0, afterBridge cfg, 0⟩).isSome = true := by decide +kernel

/-! ## What goes wrong -/

/-- A diamond that is not supported. -/
def diamond : List Pt := [⟨0, 0⟩, ⟨1000, -1000⟩, ⟨2000, 0⟩, ⟨1000, 1000⟩]

def diamondMask : Mask := ⟨fun p => decide (|p.x - 1000| + |p.y| < 1000), crossings [diamond], fun _ _ => true⟩

/-- C108: a line that passes through corners of the unsupported area is not bridged, although the one beside it is: at a corner there are two
intersections, one with each side. -/
theorem C108_corner_counterexample :
    usesBridging diamondMask [⟨-1000, 0⟩, ⟨3000, 0⟩, ⟨3000, 3000⟩, ⟨-1000, 3000⟩] 5 0 0 1 5 400 = some [] ∧
      usesBridging diamondMask [⟨-1000, 1⟩, ⟨3000, 1⟩, ⟨3000, 3000⟩, ⟨-1000, 3000⟩] 5 0 0 1 5 400 = some [(1001 / 4000, 2999 / 4000)] ∧
      diamondMask.inside ⟨1000, 0⟩ = true ∧ diamondMask.inside ⟨1500, 0⟩ = true := by
  refine ⟨?_, ?_, ?_, ?_⟩ <;> decide +kernel

/-- C108: a part of a line that starts where a bridge ends gets a bridge of no length, after which it is printed slowly. -/
theorem C108_touch_counterexample : usesBridging gapMask wall 5 0 (3 / 4) 1 5 400 = some [(0, 0)] ∧
    (printLine cfg 1000 10 [(0, 0)] ⟨0, 0, 1, 0⟩).map (·.1) = some [⟨.bridge, 0, 0, 1, 1⟩, ⟨.plain, 0, 1000, 1, 1 / 2⟩] ∧
    (printLine cfg 1000 10 [] ⟨0, 0, 1, 0⟩).map (·.1) = some [⟨.plain, 0, 1000, 1, 1⟩] := by
  refine ⟨?_, ?_, ?_⟩ <;> decide +kernel

/-- C108: a line with no bridges that is to be printed at half the speed is printed faster and faster. -/
theorem C108_slow_counterexample : (printLine cfg 3000 10 [] ⟨0, 0, 1 / 2, 0⟩).map (·.1) =
    some [⟨.plain, 0, 1000, 1, 1 / 2⟩, ⟨.plain, 1000, 2000, 1, 5 / 8⟩, ⟨.plain, 2000, 3000, 1, 23 / 32⟩] := by
  decide +kernel

/-- C108: with a coasting distance of 0.1 mm and a bridge that starts 0.09 mm after the end of a line, 0.19 mm are coasted. -/
theorem C108_early_counterexample : coastDist cfg 100000 = 100 ∧
    (nonBridge cfg 1000 10 ⟨0, 100000, 1, 1090⟩).map (fun r => (r.1, r.2.volume, r.2.dist)) =
      some ([⟨.plain, 0, 900, 1, 1⟩, ⟨.coast, 900, 1000, 0, 1⟩], 101000, 90) ∧
    (nonBridge cfg 90 10 ⟨0, 101000, 1, 90⟩).map (·.1) = some [⟨.coast, 0, 90, 0, 1⟩] := by
  refine ⟨?_, ?_, ?_⟩ <;> decide +kernel

/-- C108: only the first bridge of a line is coasted to. -/
theorem C108_second_counterexample : (printLine cfg 10000 10 [(1 / 10, 2 / 10), (1 / 2, 6 / 10)] ⟨0, 100000, 1, 1000⟩).map (fun r => r.1.take 7) = some
    [⟨.plain, 0, 900, 1, 1⟩, ⟨.coast, 900, 1000, 0, 1⟩, ⟨.bridge, 1000, 2000, 1, 1⟩, ⟨.plain, 2000, 3000, 1, 1 / 2⟩, ⟨.plain, 3000, 4000, 1, 5 / 8⟩,
      ⟨.plain, 4000, 5000, 1, 23 / 32⟩, ⟨.bridge, 5000, 6000, 1, 1⟩] := by
  decide +kernel

/-- Ends in the air are anchored by what follows: 1 mm of it is over air, and within 2 mm there is 1 mm that is supported. -/
example : usesBridging gapMask [⟨0, 0⟩, ⟨2900, 0⟩, ⟨2900, 2000⟩, ⟨0, 2000⟩] 50 0 0 1 5 1000 = some [(10 / 29, 1)] ∧
    usesBridging gapMask [⟨0, 0⟩, ⟨2900, 0⟩, ⟨2900, 2000⟩, ⟨0, 2000⟩] 50 0 0 1 5 999 = some [] := by
  constructor <;> decide +kernel

end Verif.Bridge
