import Verif.Skirt.Spec
import Mathlib.Data.List.Sort

/-! # Skirt and brim -/

namespace Verif.Skirt

variable {P : Type}

/-- `Outline` (include/SkirtBrim.h:28-32). -/
structure Outline (P : Type) where
  gapped : Area P
  touching : Area P

/-- The geometry that is taken from elsewhere: the lines around an outline (extruder, outline, outside, inside, distance with gap, distance without) and beside other lines,
both simplified (src/SkirtBrim.cpp:241-273), the length of lines, the area they cover with a given distance, and joining and removing short ones
(src/SkirtBrim.cpp:280-299), and the areas without their holes. -/
structure Geo (P : Type) where
  ring : Nat → Outline P → Bool → Bool → Int → Int → Area P
  beside : Nat → Int → Area P → Area P
  length : Area P → Nat
  wide : Int → Area P → Area P
  tidy : Int → Area P → Area P
  filled : Area P → Area P

/-- `Offset` (include/SkirtBrim.h:37-69). `ref`: the number of the line to start from, or none for the outline. -/
structure Off where
  ref : Option Nat
  outside : Bool
  inside : Bool
  gapped : Int
  touching : Int
  total : Int
  inset : Nat
  ext : Nat
  last : Bool
  deriving DecidableEq, Repr

/-- `OffsetSorter`, as an order: not after (include/SkirtBrim.h:89-93). -/
def Off.le (a b : Off) : Bool := if a.total = b.total then decide (a.ext ≤ b.ext) else decide (a.total < b.total)

/-- `std::stable_sort`, as an insertion sort, which yields the same. -/
def sort (l : List Off) : List Off := l.insertionSort fun a b => Off.le a b = true

/-- The lines that are planned for an extruder (src/SkirtBrim.cpp:95-140). -/
def planOf (e : Nat) (c : Conf) : List Off :=
  (List.range c.count).map fun (i : Nat) =>
    let touching := c.width.tdiv 2 + c.width * (i : Int)
    let gapped := touching + c.gap
    if i = 0 then ⟨none, c.outside, c.inside, gapped, touching, gapped, i, e, decide (i + 1 = c.count)⟩
    else ⟨some (i - 1), c.outside, c.inside, c.width, c.width, gapped, i, e, decide (i + 1 = c.count)⟩

/-- Whether the extruder is left out of the plan (src/SkirtBrim.cpp:100-104). -/
def leftOut (brim : Option Nat) (empty : Nat → Bool) (e : Nat) (c : Conf) : Bool :=
  !c.used || (brim.any fun b => b != e) || empty e

/-- `generateBrimOffsetPlan`, with the outlines given (src/SkirtBrim.cpp:75-144). -/
def plan (brim : Option Nat) (empty : Nat → Bool) (confs : List Conf) : List Off :=
  sort (confs.zipIdx.flatMap fun (c, e) => if leftOut brim empty e c then [] else planOf e c)

/-- What changes: the areas where each extruder may still print, the area that is covered, and the lines of each extruder. -/
structure St (P : Type) where
  allowed : Nat → Area P
  covered : Area P
  out : Nat → List (Area P)

/-- The lines of an extruder with those of a number added. The list is made longer if needed (src/SkirtBrim.cpp:200-204). -/
def put (l : List (Area P)) (i : Nat) (a : Area P) : List (Area P) :=
  let l := if l.length ≤ i then l ++ List.replicate (i + 1 - l.length) (fun _ => false) else l
  l.modify i fun old p => old p || a p

/-- `generateOffset` (src/SkirtBrim.cpp:236-312). `none`: there is no such extruder, or no such line to start from. -/
def gen (g : Geo P) (confs : List Conf) (outline : Outline P) (st : St P) (o : Off) : Option (St P × Made P) :=
  match confs[o.ext]? with
  | none => none
  | some c =>
    let brim := match o.ref with
      | none => some (g.ring o.ext outline o.outside o.inside o.gapped o.touching)
      | some k => ((st.out o.ext)[k]?).map (g.beside o.ext c.width)
    match brim with
    | none => none
    | some b =>
      let raw : Area P := fun p => b p && st.allowed o.ext p
      let covered : Area P := fun p => st.covered p || g.wide (c.width.tdiv 2 + 10) raw p
      some (⟨fun e => if (confs[e]?.any (·.used)) then fun p => st.allowed e p && !covered p else st.allowed e, covered,
        fun e => if e = o.ext then put (st.out e) o.inset (g.tidy c.width raw) else st.out e⟩, ⟨o.ext, o.inset, o.total, raw⟩)

/-- The line that is added if the last one of an extruder is not enough (src/SkirtBrim.cpp:221-230). -/
def further (c : Conf) (o : Off) : Off :=
  ⟨some o.inset, c.outside, c.inside, c.width, o.total + c.width, o.total + c.width, o.inset + 1, o.ext, true⟩

/-- `generatePrimaryBrim` (src/SkirtBrim.cpp:192-234). `n` bounds the number of rounds. -/
def primary (g : Geo P) (confs : List Conf) (outlines : Nat → Outline P) : Nat → St P → (Nat → Nat) → List Off → Option (St P × (Nat → Nat) × List (Made P))
  | _, st, total, [] => some (st, total, [])
  | 0, _, _, _ :: _ => none
  | n + 1, st, total, o :: rest =>
    match gen g confs (outlines o.ext) st o, confs[o.ext]? with
    | some (st, m), some c =>
      let added := g.length m.raw
      let total := if added = 0 then total else fun e => if e = o.ext then total e + added else total e
      let rest := if added ≠ 0 ∧ o.last ∧ total o.ext < c.minLength ∧ 0 < total o.ext then sort (rest ++ [further c o]) else rest
      (primary g confs outlines n st total rest).map fun (st, total, l) => (st, total, m :: l)
    | _, _ => none

/-- What the shields add: the area they cover, and lines to be printed there (`generateShieldBrim`, src/SkirtBrim.cpp:444-516). Both are arbitrary functions of the
area that is allowed. -/
structure Shield (P : Type) where
  cover : Area P → Area P
  heap : Option (Area P → Area P)

def shield (s : Option (Shield P)) (e : Nat) (st : St P) : St P :=
  match s with
  | none => st
  | some s =>
    let a := s.cover (st.allowed e)
    { allowed := fun x => if x = e then fun p => st.allowed x p && !a p else st.allowed x
      covered := fun p => st.covered p || a p
      out := match s.heap with
        | none => st.out
        | some h => fun x => if x = e then st.out x ++ [h (st.allowed e)] else st.out x }

/-- The very outside (src/SkirtBrim.cpp:173-179). -/
def onlyOutside (g : Geo P) (st : St P) : St P :=
  let c := g.filled st.covered
  { st with covered := c, allowed := fun e p => st.allowed e p && !c p }

/-- The loop for one extruder of `generateSecondarySkirtBrim` (src/SkirtBrim.cpp:518-566). `n` bounds the number of rounds. -/
def secondaryLoop (g : Geo P) (confs : List Conf) (c : Conf) (e : Nat) (outline : Outline P) : Nat → Bool → St P → Nat → Option (St P × List (Made P))
  | n, first, st, total =>
    if total < c.minLength then
      match n with
      | 0 => none
      | n + 1 =>
        let dist := if first then c.width.tdiv 2 else c.width
        let o : Off := ⟨if first then none else some ((st.out e).length - 1), c.outside, c.inside, dist, dist, 0, (st.out e).length, e, false⟩
        match gen g confs outline st o with
        | none => none
        | some (st, m) =>
          if g.length m.raw = 0 then some (st, [m])
          else (secondaryLoop g confs c e outline n false st (total + g.length m.raw)).map fun (st, l) => (st, m :: l)
    else some (st, [])

/-- `generateSecondarySkirtBrim` for the extruders from `e` on. The bound on the number of rounds of an extruder is the length it still needs. -/
def secondary (g : Geo P) (confs : List Conf) (total : Nat → Nat) : Nat → List Conf → St P → Option (St P × List (Made P))
  | _, [], st => some (st, [])
  | e, c :: cs, st =>
    match secondaryLoop g confs c e ⟨fun _ => false, st.covered⟩ c.minLength true st (total e) with
    | none => none
    | some (st, l) => (secondary g confs total (e + 1) cs st).map fun (st, l') => (st, l ++ l')

/-- `generate` after the outlines and the allowed areas are known, without the simplification at the end (src/SkirtBrim.cpp:146-190). Yields the primary and the
secondary lines. -/
def generate (g : Geo P) (confs : List Conf) (brim : Option Nat) (empty : Nat → Bool) (outlines : Nat → Outline P) (sh : Option (Shield P)) (shieldExt : Nat)
    (st : St P) (n : Nat) : Option (St P × List (Made P) × List (Made P)) :=
  match primary g confs outlines n st (fun _ => 0) (plan brim empty confs) with
  | none => none
  | some (st, total, l) =>
    (secondary g confs total 0 confs (onlyOutside g (shield sh shieldExt st))).map fun (st, l') => (st, l, l')

/-- A polygon of the first layer: an outline, with what is kept free around it, or a hole, with what may be used of it (src/SkirtBrim.cpp:619-652). -/
inductive Piece (P : Type) where
  | solid (grown : Area P)
  | hole (free : Area P)

/-- One round of the loop over the polygons: an outline is subtracted, a hole is added as it is. -/
def piece (a : Area P) : Piece P → Area P
  | .solid grown => fun p => a p && !grown p
  | .hole free => fun p => a p || free p

/-- The area that is allowed for an extruder (src/SkirtBrim.cpp:599-664): the build plate, changed by the polygons of each extruder and its supports, and without
the surroundings of its own outlines. -/
def allowedArea (border : Area P) (others : List (List (Piece P) × Area P)) (own : Outline P) : Area P :=
  let a := others.foldl (fun a (ps, support) => fun p => ps.foldl piece a p && !support p) border
  fun p => (a p && !own.gapped p) && !own.touching p

end Verif.Skirt
