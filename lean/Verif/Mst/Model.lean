import Verif.Basic

/-! # Minimum spanning trees (src/utils/MinimumSpanningTree.cpp)

Points have integer coordinates; squared lengths are assumed not to overflow. -/

namespace Verif.Mst

/-- `Point2LL`. -/
abbrev Pt := Int × Int

/-- `vSize2(a - b)` (include/geometry/Point2LL.h: `vSize2`). -/
def dist2 (a b : Pt) : Int := (a.1 - b.1) * (a.1 - b.1) + (a.2 - b.2) * (a.2 - b.2)

/-- `Edge` (include/utils/MinimumSpanningTree.h:28-39). -/
structure Edge where
  start : Pt
  stop : Pt
deriving DecidableEq

/-- `AdjacencyGraph_t` (include/utils/MinimumSpanningTree.h:67): the entries of the hash map, whose keys are
different; the order of the entries is the order of their insertion. The order in which the program walks over the map
depends on the hash function; nothing that is proved depends on it. -/
abbrev Graph := List (Pt × List Edge)

/-- An entry of `smallest_distance` and `smallest_distance_to` (src/utils/MinimumSpanningTree.cpp:37-38), which
always have the same keys. The key is a pointer into the list of vertices, here the index, together with the vertex it
points to. -/
structure Cand where
  idx : Nat
  pt : Pt
  d : Int
  to : Pt
deriving DecidableEq

/-- The first candidates (src/utils/MinimumSpanningTree.cpp:41-46). -/
def candidates (root : Pt) : Nat → List Pt → List Cand
  | _, [] => []
  | i, v :: rest => ⟨i, v, dist2 v root, root⟩ :: candidates root (i + 1) rest

/-- `std::min_element` with the comparison of the distances (src/utils/MinimumSpanningTree.cpp:55-61): the
first of the smallest; the end iterator for an empty map. -/
def minElement : List Cand → Option Cand
  | [] => none
  | c :: rest =>
    match minElement rest with
    | none => some c
    | some m => if m.d < c.d then some m else some c

/-- `result[a].push_back({a, b})`, with a new entry if there is none (src/utils/MinimumSpanningTree.cpp:66-70 and
71-75). -/
def link (g : Graph) (a b : Pt) : Graph :=
  match g with
  | [] => [(a, [⟨a, b⟩])]
  | (p, es) :: rest => if p = a then (p, es ++ [⟨a, b⟩]) :: rest else (p, es) :: link rest a b

/-- The new distance of a candidate (src/utils/MinimumSpanningTree.cpp:80-89). -/
def relax (closest : Pt) (c : Cand) : Cand :=
  if dist2 closest c.pt < c.d then { c with d := dist2 closest c.pt, to := closest } else c

/-- The loop of `prim` (src/utils/MinimumSpanningTree.cpp:48-90). `shuffle` is the order in which the hash map is
walked over: it is arbitrary and may change with every turn. Taking the element behind the end of an empty map is undefined
behaviour. Each turn removes a candidate, so the first number, the candidates at the start, is never used up. -/
def grow (shuffle : List Cand → List Cand) (n : Nat) : Nat → Graph → List Cand → Outcome Graph
  | fuel, g, cs =>
    if g.length < n then
      match minElement (shuffle cs) with
      | none => .ub
      | some c =>
        match fuel with
        | 0 => .diverge
        | fuel + 1 =>
          grow shuffle n fuel (link (link g c.pt c.to) c.to c.pt)
            ((cs.filter fun x => x.idx != c.idx).map (relax c.pt))
    else .ok g

/-- `prim` (src/utils/MinimumSpanningTree.cpp:18-93), which the constructor stores. -/
def prim (shuffle : List Cand → List Cand) : List Pt → Outcome Graph
  | [] => .ok []
  | [v] => .ok [(v, [])]
  | root :: rest => grow shuffle (rest.length + 1) rest.length [] (candidates root 1 rest)

/-- `adjacentNodes` (src/utils/MinimumSpanningTree.cpp:95-111). -/
def adjacentNodes (g : Graph) (node : Pt) : List Pt :=
  match g.find? (fun e => e.1 == node) with
  | none => []
  | some e => e.2.map fun x => if x.start = node then x.stop else x.start

/-- `leaves` (src/utils/MinimumSpanningTree.cpp:113-124). -/
def leaves (g : Graph) : List Pt := (g.filter fun e => decide (e.2.length ≤ 1)).map Prod.fst

/-- `vertices` (src/utils/MinimumSpanningTree.cpp:126-139). -/
def vertices (g : Graph) : List Pt := g.map Prod.fst

end Verif.Mst
