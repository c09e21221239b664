/-! # Where the branches of tree support are placed

Models `TreeSupport::createNodesFromArea` (src/TreeSupport.cpp:1555-1641) with `setPointsOnAreas` (1387-1418) and `setToModelContact` (1420-1553),
and `TreeSupportElement::setToBuildplateForAllParents` (src/TreeSupportElement.cpp:214-231). From the areas in which a branch may be on each layer
they choose a point on each layer, from the first layer upwards, and delete the elements that are not needed.

An element is a number; pointers to elements are numbers of elements. An access to an element that was deleted is the outcome `none`. What points
the areas provide are parameters. Not modelled: messages. `SUPPORT_TREE_ONLY_GRACIOUS_TO_MODEL` is false (include/TreeSupport.h:43). -/

namespace Verif.Nodes

/-- What does not change of a `TreeSupportElement` (include/TreeSupportElement.h). The `parents` are the elements on the layer above from which it comes.
`small` is whether `distance_to_top_ < min_dtt_to_model`. -/
structure Elem where
  layer : Nat
  parents : List Nat
  nextHeight : Nat
  small : Bool
  roof : Bool

/-- `layers` is `move_bounds`, each set in the order in which it is visited. `first` is `next_position_`, moved into the area (src/TreeSupport.cpp:1562-1567);
`moved` is a point, moved into the area (1405-1414); `placed` is the point in the part of the area on which a branch can rest properly, if there is one
(1441, 1494-1501); `fallback` is where it is placed otherwise (1509-1547). `buildplate` is whether `support_rest_preference` is `BUILDPLATE`. -/
structure Input (P : Type) where
  elem : Nat → Elem
  layers : List (List Nat)
  first : Nat → P
  moved : Nat → P → P
  placed : Nat → Option P
  fallback : Nat → P
  buildplate : Bool

/-- What changes: which elements are not deleted, `result_on_layer_` (`none` for (-1, -1)), `to_buildplate_` and `to_model_gracious_`. -/
structure State (P : Type) where
  alive : Nat → Bool
  point : Nat → Option P
  toBp : Nat → Bool
  gracious : Nat → Bool

variable {P : Type}

/-- A point is set. -/
def State.set (st : State P) (e : Nat) (p : Option P) : State P := { st with point := fun x => if x = e then p else st.point x }

/-- Elements are deleted. -/
def State.delete (st : State P) (es : List Nat) : State P := { st with alive := fun x => st.alive x && !es.contains x }

/-- The loop of `setPointsOnAreas` over the parents (src/TreeSupport.cpp:1397-1417). -/
def setParents (inp : Input P) (from' : P) : List Nat → State P → Option (State P)
  | [], st => some st
  | p :: ps, st =>
    if st.alive p then setParents inp from' ps (if (st.point p).isSome then st else st.set p (some (inp.moved p from'))) else none

/-- `setPointsOnAreas` (src/TreeSupport.cpp:1387-1418). -/
def setPoints (inp : Input P) (st : State P) (e : Nat) : Option (State P) :=
  match st.point e with
  | none => some st
  | some p => setParents inp p (inp.elem e).parents st

/-- The elements that are `checked` (src/TreeSupport.cpp:1439-1460), from the element `check` on. The first number bounds the number of rounds. -/
def look (inp : Input P) (st : State P) : Nat → Nat → Nat → Option (List Nat)
  | 0, _, _ => none
  | n + 1, check, layer =>
    if st.alive check then
      if layer ≤ (inp.elem check).nextHeight then
        match (inp.elem check).parents with
        | [p] => (look inp st n p (layer + 1)).map (check :: ·)
        | _ => some [check]
      else some []
    else none

/-- The last of the elements on which the branch can rest (src/TreeSupport.cpp:1443-1448): its index, the element and the point. -/
def lastPlaced (inp : Input P) : List Nat → Option (Nat × Nat × P)
  | [] => none
  | e :: es =>
    match lastPlaced inp es with
    | some (i, x, p) => some (i + 1, x, p)
    | none => (inp.placed e).map fun p => (0, e, p)

/-- The branch is placed where it is (src/TreeSupport.cpp:1509-1552). -/
def placeHere (inp : Input P) (st : State P) (e : Nat) : State P :=
  { st.set e (some (inp.fallback e)) with gracious := fun x => if x = e then false else st.gracious x }

/-- What is done when elements were checked (src/TreeSupport.cpp:1462-1506). -/
def contactAt (inp : Input P) (st : State P) (e layer : Nat) (checked : List Nat) : Bool × State P :=
  match lastPlaced inp checked with
  | none => if inp.buildplate = false ∧ layer = 0 then (false, st) else (false, placeHere inp st e)
  | some (k, x, p) =>
    let st := st.delete ((checked.take (k - 1)).drop 1)
    if inp.buildplate = false ∧ layer + k = 0 then (false, st) else (decide (k ≠ 0), st.set x (some p))

/-- `setToModelContact` (src/TreeSupport.cpp:1420-1553). -/
def contact (inp : Input P) (st : State P) (e layer : Nat) : Option (Bool × State P) :=
  if st.gracious e then (look inp st (inp.layers.length + 1) e layer).map (contactAt inp st e layer) else some (false, placeHere inp st e)

/-- The loop of `setToBuildplateForAllParents` (src/TreeSupportElement.cpp:219-229). -/
def markUp (inp : Input P) : Nat → List Nat → State P → Option (State P)
  | 0, _, st => some st
  | n + 1, es, st =>
    if es.all st.alive then
      markUp inp n (es.flatMap fun e => (inp.elem e).parents)
        { st with toBp := fun x => es.contains x || st.toBp x, gracious := fun x => es.contains x || st.gracious x }
    else none

/-- What is done with an element on the first layer (src/TreeSupport.cpp:1560-1584). -/
def doFirst (inp : Input P) (a : State P × List Nat) (e : Nat) : Option (State P × List Nat) := do
  let st ← setPoints inp (a.1.set e (some (inp.first e))) e
  if inp.buildplate then some (st, a.2)
  else do
    let (removed, st) ← contact inp st e 0
    if removed then some (st, e :: a.2) else (markUp inp (inp.layers.length + 1) [e] st).map fun st => (st, a.2)

/-- The points of the parents are reset (src/TreeSupport.cpp:1612-1617). -/
def resetParents : List Nat → State P → Option (State P)
  | [], st => some st
  | p :: ps, st => if st.alive p then resetParents ps (st.set p none) else none

/-- What is done with an element on another layer (src/TreeSupport.cpp:1596-1635). -/
def doElem (inp : Input P) (layer : Nat) (a : State P × List Nat) (e : Nat) : Option (State P × List Nat) :=
  match a.1.point e with
  | some _ => (setPoints inp a.1 e).map fun st => (st, a.2)
  | none =>
    if a.1.toBp e ∨ (inp.elem e).small ∧ ¬ (inp.elem e).roof then (resetParents (inp.elem e).parents a.1).map fun st => (st, e :: a.2)
    else do
      let (removed, st) ← contact inp a.1 e layer
      if removed then some (st, e :: a.2) else (setPoints inp st e).map fun st => (st, a.2)

/-- A loop over elements. -/
def doAll (f : State P × List Nat → Nat → Option (State P × List Nat)) : List Nat → State P × List Nat → Option (State P × List Nat)
  | [], a => some a
  | e :: es, a => (f a e).bind (doAll f es)

/-- The loop over the layers above the first one (src/TreeSupport.cpp:1593-1640). Elements that were deleted are not in the sets any more. -/
def doLayers (inp : Input P) : List (List Nat) → Nat → State P → Option (State P)
  | [], _, st => some st
  | es :: rest, layer, st => do
    let (st, remove) ← doAll (doElem inp layer) (es.filter st.alive) (st, [])
    doLayers inp rest (layer + 1) (st.delete remove)

/-- `createNodesFromArea` (src/TreeSupport.cpp:1555-1641). -/
def createNodes (inp : Input P) (st : State P) : Option (State P) :=
  match inp.layers with
  | [] => some st
  | es :: rest => do
    let (st, remove) ← doAll (doFirst inp) (es.filter st.alive) (st, [])
    doLayers inp rest 1 (st.delete remove)

end Verif.Nodes
