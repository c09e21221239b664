import Verif.UnionFind.Model

/-!
# Specification of the disjoint-set structure

Handles are the numbers `0, 1, 2, …` in the order of `add`. The specification only remembers how many handles
were given out, which handle an item got last, and which pairs of handles were united.
-/

namespace Verif.UnionFind

/-- Connected by the united pairs: the least equivalence relation containing them. -/
inductive Connected (pairs : List (Nat × Nat)) : Nat → Nat → Prop where
  | refl (a : Nat) : Connected pairs a a
  | pair {a b : Nat} : (a, b) ∈ pairs → Connected pairs a b
  | symm {a b : Nat} : Connected pairs a b → Connected pairs b a
  | trans {a b c : Nat} : Connected pairs a b → Connected pairs b c → Connected pairs a c

/-- Abstract history: number of handles given out, current handle of each item, united pairs of handles. -/
structure Spec (E : Type) where
  count : Nat
  latest : E → Option Nat
  pairs : List (Nat × Nat)

def Spec.init {E : Type} : Spec E := { count := 0, latest := fun _ => none, pairs := [] }

def Spec.step {E : Type} [DecidableEq E] (s : Spec E) : Cmd E → Spec E
  | .add e => { s with count := s.count + 1, latest := fun x => if x = e then some s.count else s.latest x }
  | .find _ => s
  | .findByHandle _ => s
  | .unite a b =>
    match s.latest a, s.latest b with
    | some ha, some hb => { s with pairs := (ha, hb) :: s.pairs }
    | _, _ => s

def Spec.run {E : Type} [DecidableEq E] (cs : List (Cmd E)) : Spec E := cs.foldl Spec.step Spec.init

/-- A program only unites items that were added before. -/
def WellFormed {E : Type} [DecidableEq E] (s : Spec E) : List (Cmd E) → Prop
  | [] => True
  | c :: cs =>
    (match c with
     | .unite a b => s.latest a ≠ none ∧ s.latest b ≠ none
     | _ => True) ∧ WellFormed (s.step c) cs

end Verif.UnionFind
