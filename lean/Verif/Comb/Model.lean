import Verif.Comb.Spec
import Mathlib.Data.List.Sort

/-! # Combing: the code

The rotation, the distance, moving a corner outside of its polygon, going a part of the way and the test with the grid of lines are arbitrary functions. -/

namespace Verif.Comb

/-- `LinePolygonsCrossings` (include/pathPlanning/LinePolygonsCrossings.h:28-161). `off` is `getBoundaryPointWithOffset` (src/utils/polygonUtils.cpp:161-164), `hits` is `polygonCollidesWithLineSegment` (src/utils/polygonUtils.cpp:1110-1146). -/
structure Env where
  boundary : List (List P2)
  start : P2
  stop : P2
  dist : Int
  apply : P2 → P2
  unapply : P2 → P2
  off : Nat → Nat → P2
  len : P2 → P2 → Int
  part : P2 → P2 → Rat → P2
  hits : P2 → P2 → Bool

/-- Where a side meets the line (src/pathPlanning/LinePolygonsCrossings.cpp:37). -/
def meet (y : Int) (p0 p1 : P2) : Int := p0.1 + ((p1.1 - p0.1) * (y - p0.2)).tdiv (p1.2 - p0.2)

/-- The loop over the points of a polygon (src/pathPlanning/LinePolygonsCrossings.cpp:26-49). -/
def scan (env : Env) (poly : Nat) : P2 → Nat → List P2 → List Crossing
  | _, _, [] => []
  | p0, i, q :: rest =>
    let p1 := env.apply q
    let y := (env.apply env.start).2
    let more := scan env poly p1 (i + 1) rest
    if (p0.2 ≥ y ∧ p1.2 ≤ y) ∨ (p1.2 ≥ y ∧ p0.2 ≤ y) then
      if p1.2 = p0.2 then more
      else
        let x := meet y p0 p1
        if x ≥ (env.apply env.start).1 ∧ x ≤ (env.apply env.stop).1 then
          if ¬ ((p1.2 = y ∧ p1.2 < p0.2) ∨ (p0.2 = y ∧ p0.2 < p1.2)) then ⟨poly, x, i⟩ :: more else more
        else more
    else more

/-- The loop over the polygons (src/pathPlanning/LinePolygonsCrossings.cpp:22-55). `none`: a polygon without points; `some none`: failed. -/
def scanAll (env : Env) (fail : Bool) : Nat → List (List P2) → List Crossing → Option (Option (List Crossing))
  | _, [], acc => some (some acc)
  | i, poly :: rest, acc =>
    match poly.getLast? with
    | none => none
    | some last =>
      let acc := acc ++ scan env i (env.apply last) 0 poly
      if fail = true ∧ acc.length % 2 = 1 then some none else scanAll env fail (i + 1) rest acc

/-- `calcScanlineCrossings` (src/pathPlanning/LinePolygonsCrossings.cpp:20-65). -/
def crossings (env : Env) (fail : Bool) : Option (Option (List Crossing)) :=
  (scanAll env fail 0 env.boundary []).map fun r => r.map fun l => l.insertionSort fun a b => a.x ≤ b.x

/-- The loop over the points in `lineSegmentCollidesWithBoundary` (src/pathPlanning/LinePolygonsCrossings.cpp:78-98). -/
def touches (env : Env) : P2 → List P2 → Bool
  | _, [] => false
  | p0, q :: rest =>
    let p1 := env.apply q
    let y := (env.apply env.start).2
    if p1.2 ≠ p0.2 ∧ ((p0.2 ≥ y ∧ p1.2 ≤ y) ∨ (p1.2 ≥ y ∧ p0.2 ≤ y)) ∧ meet y p0 p1 > (env.apply env.start).1 ∧ meet y p0 p1 < (env.apply env.stop).1 then true
    else touches env p1 rest

/-- `lineSegmentCollidesWithBoundary` (src/pathPlanning/LinePolygonsCrossings.cpp:68-102). -/
def collides (env : Env) : List (List P2) → Option Bool
  | [] => some false
  | poly :: rest =>
    match poly.getLast? with
    | none => none
    | some last => if touches env (env.apply last) poly then some true else collides env rest

/-- The corners along the polygon (src/pathPlanning/LinePolygonsCrossings.cpp:161). `none`: the loop does not end. -/
def fwdIdx (n stop : Nat) : Nat → Nat → Option (List Nat)
  | 0, _ => none
  | fuel + 1, i => if i = stop then some [] else (fwdIdx n stop fuel (if i < n - 1 then i + 1 else 0)).map (i :: ·)

/-- The length of the way along the polygon (src/pathPlanning/LinePolygonsCrossings.cpp:158-174). -/
def fwdLen (env : Env) (prev last : P2) (pts : List P2) : Int :=
  match pts.getLast? with
  | none => 0
  | some l => Spec.wayLen env.len prev pts + env.len last l

/-- The loop the other way (src/pathPlanning/LinePolygonsCrossings.cpp:182-193): ends early when it is too long. The points, and the length. -/
def revLoop (env : Env) (poly n stop : Nat) (limit : Int) : Nat → Nat → P2 → Int → Option (List P2 × Int)
  | 0, _, _, _ => none
  | fuel + 1, i, prev, len =>
    if i = stop then some ([], len)
    else
      let p := env.off poly i
      let len := len + env.len p prev
      if len > limit then some ([p], len)
      else (revLoop env poly n stop limit fuel (if i > 0 then i - 1 else n - 1) p len).map fun r => (p :: r.1, r.2)

/-- `generateBasicCombingPath` between two crossings (src/pathPlanning/LinePolygonsCrossings.cpp:150-206). `none`: memory outside of the list is read, or it does not end. -/
def around (env : Env) (lo hi : Crossing) : Option (List P2) :=
  match env.boundary[lo.poly]? with
  | none => none
  | some poly =>
    let n := poly.length
    let y := (env.apply env.start).2
    let first := env.unapply (lo.x - |env.dist|, y)
    let last := env.unapply (hi.x + |env.dist|, y)
    match fwdIdx n hi.idx (n + 1) lo.idx with
    | none => none
    | some idx =>
      let fwd := idx.map (env.off lo.poly)
      let fl := fwdLen env first last fwd
      let lo' := if lo.idx = 0 then n - 1 else lo.idx - 1
      let hi' := if hi.idx = 0 then n - 1 else hi.idx - 1
      match revLoop env lo.poly n hi' fl (n + 1) lo' first 0 with
      | none => none
      | some (rev, rl) =>
        let rl := match rev.getLast? with
          | none => rl
          | some l => rl + env.len last l
        some (first :: (if fl < rl then fwd else rev) ++ [last])

/-- The next crossing with the same polygon, and those after it (src/pathPlanning/LinePolygonsCrossings.cpp:134-145). -/
def partner (poly : Nat) : List Crossing → Option (Crossing × List Crossing)
  | [] => none
  | c :: cs => if c.poly = poly then some (c, cs) else partner poly cs

/-- `generateBasicCombingPath` (src/pathPlanning/LinePolygonsCrossings.cpp:129-148), with fuel. -/
def basic (env : Env) : Nat → List Crossing → Option (List P2)
  | 0, _ => some [env.stop]
  | _ + 1, [] => some [env.stop]
  | n + 1, c :: cs =>
    match partner c.poly cs with
    | none => basic env n cs
    | some (d, rest) => do
      let a ← around env c d
      let b ← basic env n rest
      pure (a ++ b)

/-- Leaving out points at the end (src/pathPlanning/LinePolygonsCrossings.cpp:225-238): `n`, half of it, and so on. The path is in reverse order. -/
def shorten (env : Env) (target : P2) (path : List P2) : Nat → Nat → List P2
  | 0, _ => path
  | fuel + 1, n =>
    if n = 0 then path
    else
      match path[n]? with
      | none => shorten env target path fuel (n / 2)
      | some q => if env.hits q target = false then path.drop n else shorten env target path fuel (n / 2)

/-- Moving the first corner (src/pathPlanning/LinePolygonsCrossings.cpp:257-272). -/
def slideFirst (env : Env) (goal : P2) : List Rat → P2 → P2 → P2
  | [], _, best => best
  | f :: fs, p, best =>
    let p := env.part goal p f
    if env.hits env.start p = false then slideFirst env goal fs p p else best

/-- Leaving out points as long as it is clear (src/pathPlanning/LinePolygonsCrossings.cpp:280-290). -/
def popWhile (env : Env) (target : P2) : List P2 → List P2
  | p :: q :: l => if env.hits q target then p :: q :: l else popWhile env target (q :: l)
  | l => l

/-- One point in `optimizePath` (src/pathPlanning/LinePolygonsCrossings.cpp:213-291). The path is in reverse order. The flag is that of the path that is optimized. -/
def optStep (env : Env) (first : Bool) (prev cur : P2) (path : List P2) (flag : Bool) : List P2 × Bool :=
  if cur = prev then (path, flag)
  else
    match path with
    | [] => (path, flag)
    | top :: _ =>
      if env.hits top cur then
        let flag := flag || env.hits top prev
        let path := prev :: shorten env prev path (8 + 1) (min 8 path.length)
        if first then
          match path with
          | [] => (path, flag)
          | p :: rest => (slideFirst env cur [9 / 10, 9 / 10, 7 / 10, 1 / 2] p p :: rest, flag)
        else (path, flag)
      else (popWhile env cur path, flag)

/-- The loop of `optimizePath`. -/
def optLoop (env : Env) : Bool → P2 → List P2 → List P2 → Bool → List P2 × Bool
  | _, _, [], path, flag => (path, flag)
  | first, prev, cur :: rest, path, flag =>
    let r := optStep env first prev cur path flag
    optLoop env false cur rest r.1 r.2

/-- Moving the last corner (src/pathPlanning/LinePolygonsCrossings.cpp:306-320). -/
def slideLast (env : Env) (before goal : P2) : List Rat → P2 → P2
  | [], corner => corner
  | f :: fs, corner =>
    let p := env.part before corner f
    if env.hits p goal = false then slideLast env before goal fs p else corner

/-- The end of `optimizePath` (src/pathPlanning/LinePolygonsCrossings.cpp:294-324). -/
def finish (env : Env) (last : P2) (path : List P2) : List P2 :=
  let path := match path with
    | p :: q :: l => if env.hits q last = false then q :: l else slideLast env q last [9 / 10, 9 / 10, 7 / 10, 1 / 2] p :: q :: l
    | l => l
  last :: path

/-- `optimizePath` (src/pathPlanning/LinePolygonsCrossings.cpp:208-326): the new path, and the flag of the old one. -/
def optimize (env : Env) (comb : List P2) : List P2 × Bool :=
  match comb with
  | [] => ([], false)
  | c :: rest =>
    let r := optLoop env true c rest [env.start] false
    ((finish env ((c :: rest).getLast (by simp)) r.1).reverse, r.2)

/-- `generateCombingPath` (src/pathPlanning/LinePolygonsCrossings.cpp:105-126): the path with its flag, or that it failed. -/
def comb (env : Env) (short fail : Bool) : Option (Option (List P2 × Bool)) :=
  if short then some (some ([env.start, env.stop], false))
  else
    match collides env env.boundary with
    | none => none
    | some false => some (some ([env.start, env.stop], false))
    | some true =>
      match crossings env fail with
      | none => none
      | some none => some none
      | some (some cs) =>
        match basic env cs.length cs with
        | none => none
        | some path => some (some ((optimize env path).1, false))

end Verif.Comb
