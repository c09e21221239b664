import Verif.Gyroid.Spec

/-! # Connected wavy infill: the code

Modelled is `AbstractLinesInfill::zigZaggify` (src/infill/AbstractLinesInfill.cpp:48-216). Simplification: which ends of lines are on a side of the outline (82-98), and in which order of distance they are visited (119-131), is given. -/

namespace Verif.Gyroid

open Spec

/-- The place of an end of a line (`split_lines[chain_index].chain[point_index]`). -/
def place (cs : List Chain) (e : End) : Pt :=
  match cs[e.chain]? with
  | none => (0, 0)
  | some c => if e.back then c.back else c.front

/-- `split_lines[chain_index].column_id`. -/
def column (cs : List Chain) (i : Nat) : Option Nat := (cs[i]?).map (·.column)

/-- The local variables for an outline (src/infill/AbstractLinesInfill.cpp:57-76), with those kept for all of them (56-57) and the result. -/
structure St where
  drawing : Bool
  points : List Pt
  first : Option Nat
  path : List Pt
  startChain : Option Nat
  startBack : Bool
  cur : Pt
  connected : Nat → Bool → Option Nat
  remaining : Int
  out : List (List Pt)

/-- A corner (src/infill/AbstractLinesInfill.cpp:100-116). -/
def corner (isFirst : Bool) (s : St) (p : Pt) : St :=
  if isFirst ∨ dist2 p s.cur > 100 then
    { s with path := if s.first = none then s.path ++ [p] else s.path, cur := p, points := if s.drawing then s.points ++ [p] else s.points }
  else s

/-- `connected_to[i][b] = v`. -/
def record (t : Nat → Bool → Option Nat) (i : Nat) (b : Bool) (v : Option Nat) : Nat → Bool → Option Nat := fun j c => if j = i ∧ c = b then v else t j c

/-- Whether a place is close to the last of the points (src/infill/AbstractLinesInfill.cpp:136). -/
def closeToLast (l : List Pt) (p : Pt) : Bool :=
  match l.getLast? with
  | none => false
  | some q => decide (dist2 p q < 100)

/-- Whether the begin of a connection is recorded (src/infill/AbstractLinesInfill.cpp:184). -/
def isNew (cs : List Chain) (start : Option Nat) (i : Nat) : Bool :=
  match start with
  | none => true
  | some k => decide (column cs i ≠ column cs k)

/-- The points with that of the end (src/infill/AbstractLinesInfill.cpp:136-141). -/
def withEnd (s : St) (p : Pt) : List Pt :=
  (if s.drawing ∧ closeToLast s.points p then s.points.dropLast else s.points) ++ [p]

/-- The record of the first line (src/infill/AbstractLinesInfill.cpp:143-148), and the counting (191-196). -/
def note (cs : List Chain) (s : St) (e : End) : St :=
  { s with cur := place cs e, path := if s.first = none then s.path ++ [place cs e] else s.path, first := if s.first = none then some e.chain else s.first, remaining := s.remaining - 1 }

/-- Both records of a connection (src/infill/AbstractLinesInfill.cpp:161-163). -/
def records (s : St) (e : End) : Nat → Bool → Option Nat :=
  match s.startChain with
  | none => s.connected
  | some k => record (record s.connected e.chain e.back (some k)) k s.startBack (some e.chain)

/-- An end of a line (src/infill/AbstractLinesInfill.cpp:133-196). -/
def visit (cs : List Chain) (s : St) (e : End) : St :=
  let t := note cs s e
  if s.drawing then
    if some e.chain ≠ s.startChain ∧ s.connected e.chain (!e.back) ≠ s.startChain then
      { t with out := s.out ++ [withEnd s (place cs e)], drawing := false, points := [], connected := records s e }
    else { t with points := [place cs e], startChain := some e.chain, startBack := e.back }
  else if isNew cs s.startChain e.chain then
    { t with points := withEnd s (place cs e), drawing := true, startChain := some e.chain, startBack := e.back }
  else { t with points := withEnd s (place cs e), drawing := true }

/-- The way round (src/infill/AbstractLinesInfill.cpp:78-197). -/
def walk (cs : List Chain) : Bool → List (Pt × List End) → St → St
  | _, [], s => s
  | isFirst, (p, es) :: rest, s => if s.remaining > 0 ∨ s.drawing then walk cs false rest (es.foldl (visit cs) (corner isFirst s p)) else s

/-- The connection over the begin (src/infill/AbstractLinesInfill.cpp:199-210). -/
def close (poly : List (Pt × List End)) (s : St) : List (List Pt) :=
  match poly, s.first with
  | (p, _) :: _, some f =>
    if s.drawing ∧ some f ≠ s.startChain ∧ s.connected f false ≠ s.startChain ∧ s.connected f true ≠ s.startChain then [s.points ++ [p], s.path] else []
  | _, _ => []

/-- The state at the begin of an outline. -/
def begin (connected : Nat → Bool → Option Nat) (remaining : Int) : St := ⟨false, [], none, [], none, false, (0, 0), connected, remaining, []⟩

/-- One outline (src/infill/AbstractLinesInfill.cpp:59-210). -/
def outline (cs : List Chain) (connected : Nat → Bool → Option Nat) (remaining : Int) (poly : List (Pt × List End)) : St × List (List Pt) :=
  let s := walk cs true poly (begin connected remaining)
  (s, s.out ++ close poly s)

/-- All outlines (src/infill/AbstractLinesInfill.cpp:59-216). -/
def outlines (cs : List Chain) (connected : Nat → Bool → Option Nat) (remaining : Int) : List (List (Pt × List End)) → List (List Pt)
  | [] => []
  | poly :: rest =>
    let r := outline cs connected remaining poly
    r.2 ++ (if r.1.remaining < 1 then [] else outlines cs r.1.connected r.1.remaining rest)

/-- `zigZaggify` (src/infill/AbstractLinesInfill.cpp:48-216). -/
def connect (cs : List Chain) (polys : List (List (Pt × List End))) : List (List Pt) := outlines cs (fun _ _ => none) (2 * cs.length) polys

end Verif.Gyroid
