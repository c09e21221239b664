import Verif.Order.Model
import Mathlib.Logic.Relation

/-! # Specification of the path ordering (C29) -/

namespace Verif.Order

/-- Coordinates up to a kilometre, so that squared distances fit in 64 bits. -/
def InRange (p : Pt) : Prop :=
  (-10 ^ 9 ≤ p.x ∧ p.x ≤ 10 ^ 9) ∧ (-10 ^ 9 ≤ p.y ∧ p.y ≤ 10 ^ 9)

/-- What is assumed of the parts that are parameters: seam positions are vertices of the path, sets are
iterated over their own elements, the grid returns positions of paths, coordinates and combing distances
do not overflow. -/
structure Env.Sane (env : Env) : Prop where
  seam : ∀ (i : Nat) (p : PathIn) (pos : Pt), env.paths[i]? = some p → p.points ≠ [] →
    env.seam i pos < p.points.length
  hash : ∀ l, (env.hashOrder l).Perm l
  near : ∀ pos, ∀ i ∈ env.nearby pos, i < env.paths.length
  startPoint : InRange env.startPoint
  points : ∀ p ∈ env.paths, ∀ q ∈ p.points, InRange q
  size : ∀ p ∈ env.paths, p.points.length < 2 ^ 63
  comb : ∀ c, env.combing = some c → ∀ a b, InRange a → InRange b → c a b < COORD_MAX

/-- The added paths that the result consists of, in its order. -/
def Env.printed (env : Env) (out : List Out) : List Nat :=
  out.filterMap (fun o => (env.paths[o.idx]?).map (·.id))

/-- Every path comes exactly once: the positions of the paths in the result are a rearrangement of
0, 1, ..., n - 1. -/
def EachOnce (env : Env) (out : List Out) : Prop :=
  (out.map (·.idx)).Perm (List.range env.paths.length)

/-- Whatever is required to come before a path does come before it. -/
def Respects (edges : Edges) (printed : List Nat) : Prop :=
  ∀ u v, (u, v) ∈ edges → ∀ l₁ l₂, printed = l₁ ++ v :: l₂ → u ∈ l₁

/-- The requirements contain no cycle. -/
def Acyclic (edges : Edges) : Prop :=
  ∀ v, ¬ Relation.TransGen (fun a b => (a, b) ∈ edges) v v

/-- The requirements are about the added paths, which are different values. -/
def About (env : Env) (edges : Edges) : Prop :=
  (env.paths.map (·.id)).Nodup ∧
    ∀ e ∈ edges, e.1 ∈ env.paths.map (·.id) ∧ e.2 ∈ env.paths.map (·.id)

/-- Each open path starts at one of its ends and runs towards the other one; a closed path starts at one of
its vertices. `env` holds the paths after the detection of loops. -/
def GoodStart (env : Env) (o : Out) : Prop :=
  ∀ p, env.paths[o.idx]? = some p → p.points ≠ [] →
    o.start < p.points.length ∧
    (p.closed = false → (o.start = 0 ∧ o.backwards = false) ∨
      (o.start = p.points.length - 1 ∧ o.backwards = true))

end Verif.Order
