import Verif.InfillOrder.Spec

/-! # Order of the infill of a part: the code -/

namespace Verif.InfillOrder

/-- `addPart` for open lines, polygons and walls (src/InfillOrderOptimizer.cpp:22-57): nothing is added if it is empty. Whether there are walls is given. -/
def addPart (parts : List Part) (support : Bool) : Content → List Part
  | .lines ls => if ls.isEmpty then parts else parts ++ [⟨support, .lines ls⟩]
  | .polygons ls => if ls.isEmpty then parts else parts ++ [⟨support, .polygons ls⟩]
  | .walls id => if id = 0 then parts else parts ++ [⟨support, .walls id⟩]

/-- The number of a type (include/InfillOrderOptimizer.h:80-85). -/
def kind : Content → Nat
  | .lines _ => 0
  | .polygons _ => 1
  | .walls _ => 2

/-- `shouldPrintBefore` (src/InfillOrderOptimizer.cpp:522-532). -/
def before (a b : Part) : Bool :=
  if a.support = b.support then decide (kind a.content < kind b.content) else decide (a.support = false ∧ b.support = true)

/-- `ranges::sort` (src/InfillOrderOptimizer.cpp:67). It does not keep the order of equal parts, but there are none: each is added once (src/FffGcodeWriter.cpp:2395-2399). -/
def sorted (parts : List Part) : List Part := parts.insertionSort fun a b => !(before b a)

/-- The points of lines, with the numbers of the line and of the point (src/InfillOrderOptimizer.cpp:541-545). -/
def indexed (ls : List (List P2)) : List ((Nat × Nat) × P2) := ls.zipIdx.flatMap fun l => l.1.zipIdx.map fun p => ((l.2, p.2), p.1)

/-- The closest point up to now, and its distance. -/
abbrev Best := Option ((Nat × Nat) × Int)

/-- `vSize2` (include/utils/IntPoint.h). -/
def size2 (p : P2) : Int := p.1 * p.1 + p.2 * p.2

/-- One point in `isCloserTo` (src/InfillOrderOptimizer.cpp:546-552). -/
def tryPoint (loc : P2) (s : Bool × Best) (x : (Nat × Nat) × P2) : Bool × Best :=
  let d := size2 (x.2.1 - loc.1, x.2.2 - loc.2)
  match s.2 with
  | none => (true, some (x.1, d))
  | some (_, c) => if d < c then (true, some (x.1, d)) else s

/-- `isCloserTo` (src/InfillOrderOptimizer.cpp:534-557). -/
def closer (loc : P2) (ls : List (List P2)) (best : Best) : Bool × Best := (indexed ls).foldl (tryPoint loc) (false, best)

/-- The loop for the closest part (src/InfillOrderOptimizer.cpp:92-119). Walls cannot be there. -/
def search (loc : P2) (interlace : Bool) : Nat → List Part → Option Nat → Best → Option Nat × Best
  | _, [], k, best => (k, best)
  | i, p :: ps, k, best =>
    match p.content with
    | .lines ls =>
      if interlace && p.support then search loc interlace (i + 1) ps k best
      else
        let r := closer loc ls best
        search loc interlace (i + 1) ps (if r.1 then some i else k) r.2
    | .polygons ls =>
      let r := closer loc ls best
      search loc interlace (i + 1) ps (if r.1 then some i else k) r.2
    | .walls _ => search loc interlace (i + 1) ps k best

/-- `OpenLinesSet::split` (src/geometry/OpenLinesSet.cpp:25-42). -/
def split (ls : List (List P2)) (i j : Nat) : List (List P2) :=
  match ls[i]? with
  | none => ls
  | some l =>
    if l.length < 2 ∨ j = 0 ∨ j ≥ l.length - 1 then ls
    else ls.take i ++ [l.take (j + 1), l.drop j] ++ ls.drop (i + 1)

/-- The closest part is moved to the end (src/InfillOrderOptimizer.cpp:122-128). -/
def moveLast (ps : List Part) : Option Nat → List Part
  | none => ps
  | some k =>
    match ps[k]? with
    | none => ps
    | some p => if k = ps.length - 1 then ps else ps.eraseIdx k ++ [p]

/-- The closest point of the last part is searched for if it is not known yet (src/InfillOrderOptimizer.cpp:134-138). -/
def lastPoint (loc : P2) (ls : List (List P2)) : Best → Best
  | none => (closer loc ls none).2
  | some b => some b

/-- The last part is divided (src/InfillOrderOptimizer.cpp:130-144). -/
def cutLast (loc : P2) (ps : List Part) (best : Best) : List Part :=
  match ps.getLast? with
  | some ⟨false, .lines ls⟩ =>
    match lastPoint loc ls best with
    | none => ps
    | some ((i, j), _) => ps.dropLast ++ [⟨false, .lines (split ls i j)⟩]
  | _ => ps

/-- The walls of the infill (src/InfillOrderOptimizer.cpp:79-84). -/
def isWalls (p : Part) : Bool := !p.support && decide (kind p.content = 2)

/-- `optimize` (src/InfillOrderOptimizer.cpp:59-146). -/
def optimize (interlace : Bool) (near : Option P2) (parts : List Part) : List Part :=
  if parts.isEmpty then parts
  else
    let ps := sorted parts
    match near with
    | none => ps
    | some loc =>
      let r := match ps.findIdx? isWalls with
        | some k => (some k, none)
        | none => if ps.length > 1 then search loc interlace 0 ps none none else (none, none)
      cutLast loc (moveLast ps r.1) r.2

/-- How the parts are printed (src/InfillOrderOptimizer.cpp:205-220): where each one should begin, and whether it is reversed afterwards. The random start is given. -/
def plan (start near : Option P2) (n : Nat) : Nat → List Part → List (Part × Option P2 × Bool)
  | _, [] => []
  | i, p :: ps => (p, if i = n - 1 ∧ near.isSome then (near, true) else if i = 0 then (start, false) else (none, false)) :: plan start near n (i + 1) ps

end Verif.InfillOrder
