import Mathlib.Data.Rat.Floor
import Mathlib.Data.List.Basic

/-! # Wiping: walking along a closed wall -/

namespace Verif.Wipe

/-- A point. -/
abbrev P2 := Int × Int

namespace Spec

/-- The corner that is `k` corners after (or before) the given one. -/
def corner (pts : List P2) (start : Nat) (back : Bool) (k : Nat) : P2 :=
  if back then pts.getD ((start + k * pts.length - k) % pts.length) (0, 0) else pts.getD ((start + k) % pts.length) (0, 0)

/-- Where one is after `k` corners. -/
def place (pts : List P2) (start : Nat) (back : Bool) (last : P2) : Nat → P2
  | 0 => last
  | k + 1 => corner pts start back (k + 1)

/-- How far one went by then. -/
def walked (len : P2 → P2 → Int) (pts : List P2) (start : Nat) (back : Bool) (last : P2) : Nat → Int
  | 0 => 0
  | k + 1 => walked len pts start back last k + len (place pts start back last k) (corner pts start back (k + 1))

end Spec

end Verif.Wipe
