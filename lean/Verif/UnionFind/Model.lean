import Verif.Basic

/-!
# Model of `include/utils/UnionFind.h`

`size_t` handles are natural numbers; the special value `(size_t)-1` is `npos`.
-/

namespace Verif.UnionFind
open Verif

/-- `(size_t)-1` (UnionFind.h:66, 83) on a 64-bit platform. -/
def npos : Nat := 2 ^ 64 - 1

/-- The members `items`, `element_to_position`, `parent_index` and `rank` (UnionFind.h:183-213).
The hash map is an association list, newest entry first (so that a later insertion overwrites). -/
structure State (E : Type) where
  items : List E
  pos : List (E × Nat)
  parent : List Nat
  rank : List Nat

/-- Constructor, UnionFind.h:30-33. -/
def init {E : Type} : State E := { items := [], pos := [], parent := [], rank := [] }

/-- `add`, UnionFind.h:44-52. -/
def add {E : Type} (s : State E) (item : E) : State E × Nat :=
  let handle := s.parent.length
  ({ items := s.items ++ [item]
     pos := (item, handle) :: s.pos
     parent := s.parent ++ [handle]
     rank := s.rank ++ [1] }, handle)

/-- `findByHandle`, UnionFind.h:79-91, on the `parent_index` vector, with path compression.
The recursion is bounded by `fuel`; running out of it is the outcome `diverge`. -/
def findByHandle : Nat → List Nat → Nat → Outcome (List Nat × Nat)
  | 0, _, _ => .diverge
  | fuel + 1, p, h =>
    if p.length ≤ h then .ok (p, npos)
    else do
      let parent ← Outcome.index p h
      if parent ≠ h then
        let (p', r) ← findByHandle fuel p parent
        let p'' := p'.set h r
        let res ← Outcome.index p'' h
        pure (p'', res)
      else
        let res ← Outcome.index p h
        pure (p, res)

/-- `element_to_position.find(item)`, UnionFind.h:63-68. -/
def position {E : Type} [DecidableEq E] (s : State E) (item : E) : Option Nat :=
  (s.pos.find? (fun e => e.1 = item)).map (·.2)

/-- `find`, UnionFind.h:61-70. -/
def find {E : Type} [DecidableEq E] (fuel : Nat) (s : State E) (item : E) : Outcome (State E × Nat) :=
  match position s item with
  | none => .ok (s, npos)
  | some index => do
    let (p, r) ← findByHandle fuel s.parent index
    pure ({ s with parent := p }, r)

/-- `unite`, UnionFind.h:99-117. Indexing `rank` or `parent_index` out of range is undefined behaviour. -/
def unite {E : Type} (fuel : Nat) (s : State E) (first second : Nat) : Outcome (State E × Nat) := do
  let (p1, firstRoot) ← findByHandle fuel s.parent first
  let (p2, secondRoot) ← findByHandle fuel p1 second
  let rf ← Outcome.index s.rank firstRoot
  let rs ← Outcome.index s.rank secondRoot
  if rf < rs then
    let _ ← Outcome.index p2 first
    pure ({ s with parent := p2.set first second, rank := s.rank.set secondRoot (rs + rf) }, second)
  else
    let _ ← Outcome.index p2 second
    pure ({ s with parent := p2.set second first, rank := s.rank.set firstRoot (rf + rs) }, first)

/-- A client of the class. `unite a b` is the idiom of the only client in the code base
(src/infill.cpp:983-1032): find both items, then unite the two representatives found. -/
inductive Cmd (E : Type) where
  | add (item : E)
  | find (item : E)
  | findByHandle (handle : Nat)
  | unite (a b : E)

/-- Execution of one client command; returns the new state and the value the call returns. -/
def exec {E : Type} [DecidableEq E] (fuel : Nat) (s : State E) : Cmd E → Outcome (State E × Nat)
  | .add e => .ok (add s e)
  | .find e => find fuel s e
  | .findByHandle h => do
    let (p, r) ← findByHandle fuel s.parent h
    pure ({ s with parent := p }, r)
  | .unite a b => do
    let (s1, ha) ← find fuel s a
    let (s2, hb) ← find fuel s1 b
    unite fuel s2 ha hb

/-- Execution of a whole client program; returns the final state and the values returned, in order. -/
def run {E : Type} [DecidableEq E] (fuel : Nat) : State E → List (Cmd E) → Outcome (State E × List Nat)
  | s, [] => .ok (s, [])
  | s, c :: cs => do
    let (s', o) ← exec fuel s c
    let (s'', os) ← run fuel s' cs
    pure (s'', o :: os)

end Verif.UnionFind
