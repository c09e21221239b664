import Verif.Nodes.Model

/-! # What is expected of the points of branches -/

namespace Verif.Nodes

variable {P : Type}

/-- The element is there in the beginning. -/
def Input.Has (inp : Input P) (e : Nat) : Prop := ∃ es ∈ inp.layers, e ∈ es

/-- How the elements are linked: those from which an element comes are on the layer above it, and from each element at most one comes. -/
structure Input.Ok (inp : Input P) : Prop where
  layer : ∀ l es, inp.layers[l]? = some es → ∀ e ∈ es, (inp.elem e).layer = l
  up : ∀ e p, inp.Has e → p ∈ (inp.elem e).parents → inp.Has p ∧ (inp.elem p).layer = (inp.elem e).layer + 1
  single : ∀ c d e, inp.Has c → inp.Has d → e ∈ (inp.elem c).parents → e ∈ (inp.elem d).parents → c = d
  once : ∀ es ∈ inp.layers, es.Nodup

/-- In the beginning no element is deleted, and a point is only set for elements from which one on the layer below comes. -/
structure Start (inp : Input P) (st : State P) : Prop where
  alive : ∀ e, st.alive e = true ↔ inp.Has e
  point : ∀ e p, inp.Has e → 0 < (inp.elem e).layer → st.point e = some p → ∃ c, inp.Has c ∧ e ∈ (inp.elem c).parents

/-- The branch ends at an element: it is placed where it can rest properly, or it is placed where it is because there is no such place. -/
def Rests (inp : Input P) (st : State P) (e : Nat) : Prop :=
  ∃ p, st.point e = some p ∧ (inp.placed e = some p ∨ st.gracious e = false ∧ p = inp.fallback e)

/-- The branch goes on one layer below. -/
def GoesOn (inp : Input P) (st : State P) (e : Nat) : Prop := ∃ c, st.alive c = true ∧ e ∈ (inp.elem c).parents

/-- Every point that may be chosen for an element is in its area. -/
structure InAreas (inp : Input P) (st : State P) (area : Nat → P → Prop) : Prop where
  first : ∀ e, inp.Has e → (inp.elem e).layer = 0 → area e (inp.first e)
  moved : ∀ e q, inp.Has e → area e (inp.moved e q)
  placed : ∀ e p, inp.placed e = some p → area e p
  fallback : ∀ e, inp.Has e → area e (inp.fallback e)
  start : ∀ e p, inp.Has e → st.point e = some p → area e p

/-- The elements of branches that reach the first layer. -/
inductive Rooted (inp : Input P) : Nat → Prop
  | base {e : Nat} : inp.Has e → (inp.elem e).layer = 0 → Rooted inp e
  | up {c e : Nat} : Rooted inp c → e ∈ (inp.elem c).parents → Rooted inp e

end Verif.Nodes
