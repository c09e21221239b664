import Mathlib.Data.List.Basic

/-! # Skirt and brim: what is to be made -/

namespace Verif.Skirt

/-- A set of points, either an area or what lines cover. -/
abbrev Area (P : Type) := P → Bool

/-- The settings of an extruder (`ExtruderConfig`, include/SkirtBrim.h:75-84). A minimal length or a number of lines below zero is zero. -/
structure Conf where
  used : Bool
  outside : Bool
  inside : Bool
  width : Int
  minLength : Nat
  count : Nat
  gap : Int
  deriving DecidableEq, Repr

/-- What is made by one offset: the extruder, the number among the lines of the extruder, the distance from the model and the lines, before they are joined and
short ones are removed. -/
structure Made (P : Type) where
  ext : Nat
  inset : Nat
  total : Int
  raw : Area P

namespace Spec

variable {P : Type}

def Inside (a b : Area P) : Prop := ∀ p, a p = true → b p = true

def Apart (a b : Area P) : Prop := ∀ p, a p = true → b p = false

/-- What was made by an extruder, in order. -/
def by' (e : Nat) (l : List (Made P)) : List (Made P) := l.filter fun m => m.ext == e

/-- The length that an extruder has printed. -/
def sum (length : Area P → Nat) (e : Nat) (l : List (Made P)) : Nat := ((by' e l).map fun m => length m.raw).sum

/-- An extruder has enough: the minimal length is reached, or there was no room for its last line. -/
def Enough (length : Area P → Nat) (minLength : Nat) (e : Nat) (l : List (Made P)) : Prop :=
  minLength ≤ sum length e l ∨ ∃ m, (by' e l).getLast? = some m ∧ length m.raw = 0

end Spec

end Verif.Skirt
