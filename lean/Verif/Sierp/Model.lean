import Verif.Sierp.Spec

/-! # Cross infill: the code

Numbers are rational instead of doubles. The list of triangles is written as the part before, the one that is looked at, and the part after it. -/

namespace Verif.Sierp

/-- The square, the depth of the tree, and for each triangle the length of the curve in it (src/infill/SierpinskiFill.cpp:120-133) and, for those that are not divided, the length that is asked for (src/infill/SierpinskiFill.cpp:137-146). -/
structure Env where
  lo : P2
  hi : P2
  maxDepth : Nat
  len : Tri → Rat
  leaf : Tri → Rat

/-- The root (include/infill/SierpinskiFill.h:267-279). The points it has there are not used. -/
def root : Tri := ⟨(0, 0), (0, 0), (0, 0), .abBc, false, 0, false, 0⟩

/-- The two triangles of the square (src/infill/SierpinskiFill.cpp:69-75). -/
def halves (env : Env) : List Tri :=
  let lt : P2 := (env.lo.1, env.hi.2)
  let rb : P2 := (env.hi.1, env.lo.2)
  [⟨rb, env.lo, env.hi, .acAb, false, 1, false, 1⟩, ⟨lt, env.hi, env.lo, .acAb, false, 1, true, 2⟩]

/-- How the curve goes through the two parts of a triangle (src/infill/SierpinskiFill.cpp:95-110). -/
def dirs : Dir → Dir × Dir
  | .abBc => (.acBc, .acAb)
  | .acAb => (.abBc, .acBc)
  | .acBc => (.abBc, .acAb)

/-- The parts of a triangle (src/infill/SierpinskiFill.cpp:91-112). -/
def split (t : Tri) : List Tri :=
  let middle : P2 := ((t.a.1 + t.b.1).tdiv 2, (t.a.2 + t.b.2).tdiv 2)
  [⟨middle, t.a, t.c, (dirs t.dir).1, !t.left, t.depth + 1, t.second, 2 * t.id + 1⟩,
    ⟨middle, t.c, t.b, (dirs t.dir).2, !t.left, t.depth + 1, t.second, 2 * t.id + 2⟩]

/-- The children of a node (src/infill/SierpinskiFill.cpp:67-119). -/
def kids (env : Env) (t : Tri) : List Tri := if t.depth = 0 then halves env else if t.depth < env.maxDepth then split t else []

/-- `createTreeRequestedLengths` (src/infill/SierpinskiFill.cpp:135-157), with fuel. -/
def reqFuel (env : Env) : Nat → Tri → Rat
  | 0, t => env.leaf t
  | n + 1, t =>
    match kids env t with
    | [] => env.leaf t
    | ks => (ks.map (reqFuel env n)).sum

/-- `requested_length_`. -/
def req (env : Env) (t : Tri) : Rat := reqFuel env (env.maxDepth + 2 - t.depth) t

/-- `total_child_realized_length_` (src/infill/SierpinskiFill.cpp:154). -/
def childLen (env : Env) (t : Tri) : Rat := ((kids env t).map env.len).sum

/-- `getErroredValue` (src/infill/SierpinskiFill.cpp:680-688). -/
def errored (env : Env) (e : Entry) : Rat := req env e.t + (e.el + e.er)

/-- `getSubdivisionError` (src/infill/SierpinskiFill.cpp:690-693). -/
def subErr (env : Env) (e : Entry) : Rat := errored env e - childLen env e.t

/-- `getValueError` (src/infill/SierpinskiFill.cpp:695-698). -/
def valErr (env : Env) (e : Entry) : Rat := errored env e - env.len e.t

/-- `allowed_length_error` (src/infill/SierpinskiFill.cpp:25). -/
def allowed : Rat := 1 / 100

/-- `isConstrainedBackward` (src/infill/SierpinskiFill.cpp:592-599). -/
def back (pre : List Entry) (e : Entry) : Bool := pre.getLast?.any fun p => decide (e.t.dir = .abBc) && decide (p.t.depth < e.t.depth)

/-- `isConstrainedForward` (src/infill/SierpinskiFill.cpp:600-607). -/
def fwd (e : Entry) (post : List Entry) : Bool := post.head?.any fun n => decide (e.t.dir = .acAb) && decide (n.t.depth < e.t.depth)

/-- Adding to what the first one got from its left. -/
def addLeft (x : Rat) : List Entry → List Entry
  | [] => []
  | e :: es => { e with el := e.el + x } :: es

/-- Adding to what the last one got from its right. -/
def addRight (x : Rat) : List Entry → List Entry
  | [] => []
  | [e] => [{ e with er := e.er + x }]
  | e :: f :: es => e :: addRight x (f :: es)

/-- The exchange within the range (src/infill/SierpinskiFill.cpp:357-373), from a node on. -/
def exchangeFrom (e : Entry) : List Entry → List Entry
  | [] => [e]
  | f :: es =>
    let x := if e.er < f.el then -e.er else e.er
    { e with er := e.er - x } :: exchangeFrom { f with el := f.el + x } es

/-- The exchange within the range (src/infill/SierpinskiFill.cpp:357-373). -/
def exchange : List Entry → List Entry
  | [] => []
  | e :: es => exchangeFrom e es

/-- What the first one got from its left. -/
def firstEl (l : List Entry) : Rat := (l.head?.map Entry.el).getD 0

/-- What the last one got from its right. -/
def lastEr (l : List Entry) : Rat := (l.getLast?.map Entry.er).getD 0

/-- `redistributeLeftoverErrors` (src/infill/SierpinskiFill.cpp:349-415): before, range and after. -/
def redistribute (env : Env) (sub : Bool) (pre range post : List Entry) : List Entry × List Entry × List Entry :=
  let range := exchange range
  let total := (range.map fun e => if sub then subErr env e else valErr env e).sum
  let l := firstEl range
  let r := lastEr range
  if total < allowed then (pre, range, post)
  else if pre ≠ [] ∧ post ≠ [] ∧ l > allowed ∧ r > allowed then
    let input := l + r
    let total := min total input
    let toLeft := total * l / input
    let toRight := total * r / input
    (addRight toLeft pre, addRight (-toRight) (addLeft (-toLeft) range), addLeft toRight post)
  else if pre ≠ [] ∧ l > allowed then
    let total := min total l
    (addRight total pre, addLeft (-total) range, post)
  else if post ≠ [] ∧ r > allowed then
    let total := min total r
    (pre, addRight (-total) range, addLeft total post)
  else (pre, range, post)

/-- The last loop of `balanceErrors` (src/infill/SierpinskiFill.cpp:505-511). -/
def pass (energy : Rat) : List (Entry × Rat) → List Entry
  | [] => []
  | (e, x) :: es => { e with el := e.el - energy, er := e.er + (energy + x) } :: pass (energy + x) es

/-- `balanceErrors` (src/infill/SierpinskiFill.cpp:417-513). The order by size, which only says that those below zero come first, is left out. -/
def balance (env : Env) (nodes : List Entry) : List Entry :=
  let added := (nodes.map fun e => if valErr env e < 0 then -valErr env e else 0).sum
  if added = 0 then nodes
  else
    let rest := (nodes.map fun e => if valErr env e < 0 then 0 else valErr env e).sum
    if |rest| < 1 / 10000 then nodes
    else pass 0 (nodes.map fun e => (e, if valErr env e < 0 then -valErr env e else -(added * valErr env e / rest)))

/-- A child, when it comes into the list. -/
def fresh (t : Tri) : Entry := ⟨t, 0, 0, false⟩

/-- `subdivide` (src/infill/SierpinskiFill.cpp:300-347): the part before with the children, and the part after. `none`: a node without children. -/
def subdivide (env : Env) (move : Bool) (pre range post : List Entry) : Option (List Entry × List Entry) :=
  if range.any fun e => (kids env e.t).isEmpty then none
  else if move then
    let (pre, range, post) := redistribute env true pre range post
    let children := range.flatMap fun e => (kids env e.t).map fresh
    let children := addRight (lastEr range) (addLeft (firstEl range) children)
    some (pre ++ balance env children, post)
  else some (pre ++ range.flatMap fun e => (kids env e.t).map fresh, post)

/-- A loop over the list with a state, which may change what is before and after the current node. -/
def walk {σ : Type} (f : σ → List Entry → Entry → List Entry → Option (σ × List Entry × List Entry)) : Nat → σ → List Entry → List Entry → Option (σ × List Entry)
  | 0, s, pre, rest => some (s, pre ++ rest)
  | _ + 1, s, pre, [] => some (s, pre)
  | n + 1, s, pre, e :: post =>
    match f s pre e post with
    | none => none
    | some (s, pre, post) => walk f n s pre post

/-- The range that is divided together with a node: with the one before it, if the curve comes in through the long side (src/infill/SierpinskiFill.cpp:211-224). -/
def range (pre : List Entry) (e : Entry) : List Entry × List Entry :=
  if e.t.dir = .abBc ∧ pre ≠ [] then (pre.dropLast, pre.getLast?.toList ++ [e]) else (pre, [e])

/-- One node in `subdivideAll` (src/infill/SierpinskiFill.cpp:204-240). Only nodes whose iterator was stored are looked at; `none`: an iterator that will be used later is erased. -/
def allStep (env : Env) (d : Nat) (change : Bool) (pre : List Entry) (e : Entry) (post : List Entry) : Option (Bool × List Entry × List Entry) :=
  let keep := some (change, pre ++ [e], post)
  if ¬ (e.old = true ∧ e.t.depth = d) then keep
  else if e.t.dir = .acAb ∧ post ≠ [] then keep
  else
    let (before, r) := range pre e
    let constrained := (r.head?.any fun b => back before b) || fwd e post
    if e.t.depth = env.maxDepth then keep
    else
      let total := (r.map (subErr env)).sum
      if kids env e.t ≠ [] ∧ 0 ≤ total ∧ constrained = false then
        if r.any fun b => b.old && decide (d < b.t.depth) then none
        else (subdivide env true before r post).map fun p => (true, p.1, p.2)
      else keep

/-- A loop over the depths. -/
def depths {σ : Type} (f : Nat → σ → List Entry → Entry → List Entry → Option (σ × List Entry × List Entry)) : List Nat → σ → List Entry → Option (σ × List Entry)
  | [], s, seq => some (s, seq)
  | d :: ds, s, seq =>
    match walk (f d) seq.length s [] seq with
    | none => none
    | some (s, seq) => depths f ds s seq

/-- `subdivideAll` (src/infill/SierpinskiFill.cpp:199-243). The list of depths has no place for the largest depth, the nodes of which are stored outside of it and not looked at. -/
def subdivideAll (env : Env) (seq : List Entry) : Option (Bool × List Entry) :=
  depths (allStep env) (List.range env.maxDepth) false (seq.map fun e => { e with old := true })

/-- One node in `bubbleUpConstraintErrors` (src/infill/SierpinskiFill.cpp:255-293). -/
def bubbleStep (env : Env) (d : Nat) (change : Bool) (pre : List Entry) (e : Entry) (post : List Entry) : Option (Bool × List Entry × List Entry) :=
  if e.t.depth ≠ d then some (change, pre ++ [e], post)
  else
    let u := valErr env e
    let f := fwd e post
    let b := back pre e
    if u > allowed ∧ (f = true ∨ b = true) then
      let u := if f && b then u / 2 else u
      let e' := { e with el := e.el - (if b then u else 0), er := e.er - (if f then u else 0) }
      some (change || decide (|u| > allowed), (if b then addRight u pre else pre) ++ [e'], if f then addLeft u post else post)
    else some (change, pre ++ [e], post)

/-- `bubbleUpConstraintErrors` (src/infill/SierpinskiFill.cpp:245-297), as if the list of depths had a place for the largest one. -/
def bubble (env : Env) (seq : List Entry) : Option (Bool × List Entry) := depths (bubbleStep env) (List.range (env.maxDepth + 1)).reverse false seq

/-- The loop of `createLowerBoundSequence` (src/infill/SierpinskiFill.cpp:165-184). -/
def lowerLoop (env : Env) (diffusion : Bool) : Nat → List Entry → Option (List Entry)
  | 0, seq => some seq
  | n + 1, seq =>
    match subdivideAll env seq with
    | none => none
    | some (c, seq) =>
      if diffusion then
        match bubble env seq with
        | none => none
        | some (c', seq) => if c || c' then lowerLoop env diffusion n seq else some seq
      else if c then lowerLoop env diffusion n seq else some seq

/-- `createLowerBoundSequence` (src/infill/SierpinskiFill.cpp:159-185). -/
def lower (env : Env) (diffusion : Bool) : Option (List Entry) := lowerLoop env diffusion 999 [fresh root]

/-- One node in `settleErrors` (src/infill/SierpinskiFill.cpp:519-525). -/
def settleStep (env : Env) (d : Nat) (s : Unit) (pre : List Entry) (e : Entry) (post : List Entry) : Option (Unit × List Entry × List Entry) :=
  if e.t.depth ≠ d then some (s, pre ++ [e], post)
  else
    let (pre, r, post) := redistribute env false pre [e] post
    some (s, pre ++ r, post)

/-- `settleErrors` (src/infill/SierpinskiFill.cpp:515-526). -/
def settle (env : Env) (seq : List Entry) : Option (List Entry) := (depths (settleStep env) (List.range env.maxDepth) () seq).map (·.2)

/-- One node in `diffuseError` (src/infill/SierpinskiFill.cpp:535-583). -/
def ditherStep (env : Env) (dithering : Bool) (error : Rat) (pre : List Entry) (e : Entry) (post : List Entry) : Option (Rat × List Entry × List Entry) :=
  let boundary := (env.len e.t + childLen env e.t) / 2
  let value := errored env e
  let boundaryError := value - boundary + error
  if e.t.dir = .acAb ∧ post ≠ [] then some (error, pre ++ [e], post)
  else
    let (before, r) := range pre e
    let constrained := (r.head?.any fun b => back before b) || (decide (r.length = 2) && (r.head?.any (fun b => fwd b [e]) || back pre e)) || fwd e post
    if constrained = false ∧ 0 ≤ boundaryError ∧ kids env e.t ≠ [] then
      (subdivide env false before r post).map fun p => (if dithering then error + (value - childLen env e.t) else error, p.1, p.2)
    else some (if dithering then error + (value - env.len e.t) else error, pre ++ [e], post)

/-- `diffuseError` (src/infill/SierpinskiFill.cpp:528-590). -/
def dither (env : Env) (dithering : Bool) (seq : List Entry) : Option (List Entry) := (walk (ditherStep env dithering) seq.length 0 [] seq).map (·.2)

/-- The constructor (src/infill/SierpinskiFill.cpp:29-60): the triangles of the curve. -/
def fill (env : Env) (dithering : Bool) : Option (List Entry) :=
  match lower env dithering with
  | none => none
  | some seq =>
    match settle env seq with
    | none => none
    | some seq => dither env dithering seq

/-- `getFromEdge` (src/infill/SierpinskiFill.cpp:636-656): left and right of the curve. -/
def fromEdge (t : Tri) : P2 × P2 :=
  let e := match t.dir with
    | .abBc => (t.a, t.b)
    | .acAb => (t.c, t.a)
    | .acBc => (t.c, t.a)
  if t.left then e else (e.2, e.1)

/-- `getToEdge` (src/infill/SierpinskiFill.cpp:658-678). -/
def toEdge (t : Tri) : P2 × P2 :=
  let e := match t.dir with
    | .abBc => (t.c, t.b)
    | .acAb => (t.b, t.a)
    | .acBc => (t.c, t.b)
  if t.left then e else (e.2, e.1)

/-- `generateCross` (src/infill/SierpinskiFill.cpp:701-729): the points of the curve. -/
def cross (seq : List Entry) : List P2 :=
  seq.map fun e =>
    let t := e.t
    let m : P2 := (t.a.1 + t.b.1 + t.c.1, t.a.2 + t.b.2 + t.c.2)
    let m : P2 := match t.dir with
      | .abBc => (m.1 - t.a.1, m.2 - t.a.2)
      | .acAb => (m.1 - t.c.1, m.2 - t.c.2)
      | .acBc => (m.1 - t.a.1, m.2 - t.a.2)
    (m.1.tdiv 2, m.2.tdiv 2)

end Verif.Sierp
