import Verif.Wipe.Spec

/-! # Wiping: the code -/

namespace Verif.Wipe

/-- `index = (index + direction + path.size()) % path.size()` (src/LayerPlan.cpp:882). Numbers without sign wrap around, which does not happen here. -/
def step (n : Nat) (back : Bool) (i : Nat) : Nat := if back then (i + n - 1) % n else (i + 1 + n) % n

/-- The loop of `addWipeTravel` (src/LayerPlan.cpp:880-904), with fuel: the moves. `part p q d` is `p0 + normal(p1 - p0, d)`, and `len` is `vSize`. `none`: it did not end yet. -/
def loop (len : P2 → P2 → Int) (part : P2 → P2 → Int → P2) (pts : List P2) (dist : Int) (back : Bool) (start : Nat) : Nat → Nat → P2 → Int → Option (List P2)
  | 0, _, _, _ => none
  | fuel + 1, i, p0, walked =>
    if walked < dist then
      let i := step pts.length back i
      if i = start ∧ walked = 0 then some []
      else
        let p1 := pts.getD i (0, 0)
        let d := len p0 p1
        let move := if walked + d ≥ dist then part p0 p1 (dist - walked) else p1
        (loop len part pts dist back start fuel i p1 (walked + d)).map (move :: ·)
    else some []

/-- `addWipeTravel` (src/LayerPlan.cpp:872-907), with fuel for the loop. That a new path is started after it is left out. -/
def wipe (len : P2 → P2 → Int) (part : P2 → P2 → Int → P2) (pts : List P2) (dist : Int) (back : Bool) (start : Nat) (last : P2) (fuel : Nat) : Option (List P2) :=
  if pts.length ≥ 2 ∧ dist > 0 then loop len part pts dist back start fuel start last 0 else some []

end Verif.Wipe
