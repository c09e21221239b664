import Verif.Layers.Model

/-! # Specification of layer containers, raft layers and rounding (C41, C52, C53) -/

namespace Verif.Layers

variable {T : Type}

/-- The layer numbers a container holds: from minus the number of raft layers upwards. -/
def LayerVector.HasLayer (v : LayerVector T) (l : Int) : Prop :=
  -(v.delta : Int) ≤ l ∧ l < (v.items.length : Int) - v.delta

/-- Layer numbers and sizes are such that 64-bit signed arithmetic does not overflow. -/
def Sane (v : LayerVector T) (l : Int) : Prop :=
  v.items.length < 2 ^ 63 ∧ -2 ^ 63 ≤ l + v.delta ∧ l + v.delta < 2 ^ 63

end Verif.Layers
