import Verif.Scarf.Props

/-! # Cases: the properties are not vacuous, and what does not hold -/

namespace Verif.Scarf

open Verif.Order (Pt)
open Verif.Walls (Junction size)

/-- A square. -/
def box : List Junction := [⟨⟨0, 0⟩, 400⟩, ⟨⟨1000, 0⟩, 400⟩, ⟨⟨1000, 1000⟩, 400⟩, ⟨⟨0, 1000⟩, 400⟩]

/-- A scarf over one and a half of its sides. -/
def boxCfg : Cfg := ⟨true, false, false, false, 4000, 2000, 25, 1500, 500, -100, 300, 1 / 2, 600, 1 / 4, 800⟩

/-- A line of which the width changes. -/
def wedge : List Junction := [⟨⟨0, 0⟩, 400⟩, ⟨⟨1000, 0⟩, 403⟩, ⟨⟨1000, 1000⟩, 403⟩]

/-- Three pieces for the first line. -/
def wedgeCfg : Cfg := ⟨false, false, false, false, 2000, 250, 25, 0, 500, 0, 300, 1, 0, 1, 0⟩

/-- The parts among moves. -/
def segs (moves : List Move) : List Seg := moves.filterMap fun m => match m with | .seg s => some s | _ => none

example : Sane boxCfg := ⟨by decide, by decide, by decide, by decide⟩

example : FromEnd boxCfg box 1 ∧ (∀ a ∈ box, ∀ b ∈ box, a.w = b.w) ∧ boxCfg.scarf ≤ wallLength boxCfg.closed box ∧
    wallLength boxCfg.closed box = boxCfg.wallLength := by
  refine ⟨.inl rfl, ?_, ?_, ?_⟩ <;> decide +kernel

/-- The heights go up from the lowest point to the layer; speed goes up and, at the end, down. -/
example : (pass boxCfg box 1).map (fun m => (segs m).map fun s => (s.d1, s.b.z, s.speed)) =
    some [(300, -80, 5 / 8), (600, -60, 7 / 8), (1000, -33, 1), (1500, 0, 1), (2000, 0, 1), (3000, 0, 1), (3200, 0, 1),
      (3500, 0, 55 / 64), (3800, 0, 37 / 64), (4000, 0, 11 / 32)] := by decide +kernel

/-- The closure. -/
example : (pass { boxCfg with closure := true } box 1).map (fun m => (segs m).map fun s => (s.d1, s.b, s.speed)) =
    some [(500, ⟨1000, 500, 0⟩, 1 / 4), (1000, ⟨1000, 1000, 0⟩, 1 / 4), (1500, ⟨500, 1000, 0⟩, 1 / 4)] := by decide +kernel

/-- A small feature. -/
example : pass { boxCfg with small := true, scarf := 0, reversed := true } box 1 =
    some [.travel ⟨1000, 0⟩, .small ⟨0, 0⟩ 400, .small ⟨0, 1000⟩ 400, .small ⟨1000, 1000⟩ 400, .small ⟨1000, 0⟩ 400] := by decide +kernel

example : Sane wedgeCfg ∧ pieces wedgeCfg ⟨⟨0, 0⟩, 400⟩ ⟨⟨1000, 0⟩, 403⟩ = 3 := ⟨⟨by decide, by decide, by decide, by decide⟩, by decide +kernel⟩

/-- **C107** (counterexample). A line of which the width changes is not followed to its end: the length is divided by the number of pieces and rounded, and
the next line starts where it stops. -/
theorem C107_vertex_counterexample :
    (pass wedgeCfg wedge 0).map (fun m => (segs m).map fun s => (s.a, s.b)) =
      some [(⟨0, 0, 0⟩, ⟨333, 0, 0⟩), (⟨333, 0, 0⟩, ⟨666, 0, 0⟩), (⟨666, 0, 0⟩, ⟨999, 0, 0⟩), (⟨999, 0, 0⟩, ⟨1000, 1000, 0⟩)] := by
  decide +kernel

/-- **C107** (counterexample). When a wall is followed backwards, the index given with a part is not that of the line it is on: it belongs to the line on
the other side of the vertex it leads to. Whether there is a bridge is looked up by this index. -/
theorem C107_index_counterexample :
    (pass { boxCfg with reversed := true, scarf := 0, accelerate := 0, decelerate := 0 } box 1).map
        (fun m => (segs m).map fun s => (s.index, (⟨s.a.x, s.a.y⟩ : Pt), (⟨s.b.x, s.b.y⟩ : Pt))) =
      some [(3, ⟨1000, 0⟩, ⟨0, 0⟩), (2, ⟨0, 0⟩, ⟨0, 1000⟩), (1, ⟨0, 1000⟩, ⟨1000, 1000⟩), (0, ⟨1000, 1000⟩, ⟨1000, 0⟩)] ∧
    (box[3]?).map (·.p) = some ⟨0, 1000⟩ := by
  refine ⟨?_, ?_⟩ <;> decide +kernel

/-- **C107** (counterexample). A small feature is printed all around at the height of the layer, and with a scarf its start is then printed again at the
same height. -/
theorem C107_small_counterexample :
    addWall { boxCfg with small := true, scarf := 1000, scarfSplit := 1000 } box 1 =
      some [.travel ⟨1000, 0⟩, .small ⟨1000, 1000⟩ 400, .small ⟨0, 1000⟩ 400, .small ⟨0, 0⟩ 400, .small ⟨1000, 0⟩ 400,
        .seg ⟨1, 0, 1, ⟨1000, 0, 0⟩, ⟨1000, 1000, 0⟩, 1 / 4, 400, true, 0, 1000⟩] := by
  decide +kernel

/-- **C107** (counterexample). When the wall is shorter than what it takes to slow down, the first part is faster than what is due in its middle. -/
theorem C107_short_counterexample :
    (pass { wedgeCfg with wallLength := 1000, decelerate := 2000, speedSplit := 500, endSpeed := 0 } [⟨⟨0, 0⟩, 400⟩, ⟨⟨1000, 0⟩, 400⟩] 0).map
        (fun m => (segs m).map fun s => (s.d0, s.d1, s.speed)) = some [(0, 500, 5 / 8), (500, 1000, 1 / 8)] ∧
    speedAt { wedgeCfg with wallLength := 1000, decelerate := 2000, speedSplit := 500, endSpeed := 0 } 250 = 3 / 8 := by
  refine ⟨?_, ?_⟩ <;> decide +kernel

/-- **C107** (counterexample). With a split distance of 0 the loop does not end, however many rounds are allowed. -/
theorem C107_split_counterexample (n : Nat) (index : Nat) (a b : Junction) (width sofar : Int) {remaining : Int} (hr : 0 < remaining) (st : St)
    (hk : st.keep = true) (h0 : st.done = 0) : cut { boxCfg with scarfSplit := 0 } index a b width n sofar remaining st = none := by
  induction n generalizing sofar remaining st with
  | zero => unfold cut; rw [if_pos ⟨hr, hk⟩]
  | succ n ih =>
    unfold cut
    rw [if_pos ⟨hr, hk⟩]
    dsimp only
    have hs : stop { boxCfg with scarfSplit := 0 } st.done remaining = 0 := by
      rw [h0]
      unfold stop boxCfg
      simp
      omega
    have hd : (sub { boxCfg with scarfSplit := 0 } index a b width sofar remaining st).2.done = 0 := hs
    have hk' : (sub { boxCfg with scarfSplit := 0 } index a b width sofar remaining st).2.keep = true := hk
    rw [hd, h0, ih _ (by omega) _ hk' hd]
    rfl

/-- **C107** (counterexample). On the ramp more is extruded than there is room for: the flow is that between the height at which the part starts and the
height of the layer, instead of the one at which it ends. -/
theorem C107_flow_counterexample {thickness a b : Int} (ht : 0 < thickness) (ha : -thickness ≤ a) (hab : a ≤ b) (hb : b < 0) :
    1 + ((a : ℚ) + b) / 2 / thickness < thicknessFactor thickness a 0 := by
  rw [(C107_flow thickness a 0).2.2.2 ht ha (by omega) (by omega) (le_refl _)]
  have ht' : (0 : ℚ) < thickness := by exact_mod_cast ht
  have hb' : (b : ℚ) < 0 := by exact_mod_cast hb
  have : ((a : ℚ) + b) / 2 / thickness < ((a : ℚ) + (0 : Int)) / 2 / thickness := by
    rw [div_lt_div_iff_of_pos_right ht']
    push_cast
    linarith
  linarith

example : thicknessFactor 200 (-80) 0 = 4 / 5 ∧ thicknessFactor 200 (-80) (-60) = 13 / 20 := by
  refine ⟨?_, ?_⟩ <;> decide +kernel

end Verif.Scarf
