import Verif.Configs.Props

/-! # Settings of the features: cases -/

namespace Verif.Configs

open Spec

/-- Some settings: 20 mm/s on the first layer, 60 otherwise, four slow layers. -/
def env : Env :=
  ⟨fun e s => if s = "initial_layer_line_width_factor" then 1 + e / 10 else 1, fun _ s => if s = "speed_print_layer_0" then 20 else if s = "speed_wall_0" then 60 else if s = "wall_line_width_0" then 400 else 1,
    fun _ _ => 1, 0, 1, 1, 0, 1, 1, 0, false, 4, 100⟩

example : [(-1 : Int), 0, 1, 2, 3, 4, 5].map (fun l => (config env l (.mesh 0 .inset0)).speeds.speed) = [60, 20, 30, 40, 50, 60, 60] := by decide +kernel

example : [(0 : Int), 1].map (fun l => (config env l (.mesh 0 .inset0)).width) = [440, 400] := by decide +kernel

example : Except 1 env { env with ext := fun i => if i = 1 then fun _ => 7 else env.ext i } := ⟨fun _ => 7, rfl⟩

example : printer env (.supportInfill 0) = some 0 ∧ (0 : Nat) ≠ 1 := by decide

example : Slowed env 1 (.supportInfill 2) ⟨1, 1, 1⟩ := Slowed.support 2 (by norm_num)

end Verif.Configs
