import Verif.GCode.AcctSpec

/-! # Specification for the limit on the number of retractions (C22) -/

namespace Verif.GCode

/-- The retraction that a call performs with tool `t`, if any: whether it is exempt from the limit (forced, at a tool change
or during a wipe), and the reported amount of filament of the tool at that moment. A retraction counts as performed when
`writeRetraction` does not refuse it. -/
def performed (c : Cfg) (s : St) (op : Op) (t : Nat) : List (Bool × ℚ) :=
  if t = s.cur then
    match op with
    | .retraction r force switch dist =>
      if (retraction c s r force switch dist).2 then [(force, totalFilament c s t)] else []
    | .switch u _ _ => if s.cur ≠ u ∧ c.retractionEnable s.cur then [(true, totalFilament c s t)] else []
    | .wipe w =>
      if w.retractionEnable ∧ (retraction c (s.emit .note) w.rconfig false false none).2 then [(true, totalFilament c s t)]
      else []
    | _ => []
  else []

/-- The retractions performed with tool `t` during a history, the most recent first, in front of `acc`. -/
def retrLog (c : Cfg) (t : Nat) : St → List Op → List (Bool × ℚ) → List (Bool × ℚ)
  | _, [], acc => acc
  | s, op :: ops, acc => retrLog c t (step c s op) ops (performed c s op t ++ acc)

/-- The limit `N` per window `W` (mm of filament) is the one of all retractions that are subject to it, and the others
allow at least as many (tool changes and wipes use a practically unlimited count). -/
def LimitIs (N : Nat) (W : ℚ) : Op → Prop
  | .retraction r force _ _ => N ≤ r.countMax ∧ (force = false → r.countMax = N ∧ r.window = W)
  | .switch _ r _ => N ≤ r.countMax
  | .wipe w => N ≤ w.rconfig.countMax
  | _ => True

/-- No negative prime volumes. -/
def PrimesForward : Op → Prop
  | .retraction r _ _ _ => 0 ≤ r.primeVolume
  | .switch _ r _ => 0 ≤ r.primeVolume
  | .wipe w => 0 ≤ w.rconfig.primeVolume
  | .addPrime v => 0 ≤ v
  | _ => True

end Verif.GCode
