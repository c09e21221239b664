import Mathlib.Data.List.Basic

/-! # Connected wavy infill: what it should be -/

namespace Verif.Gyroid

abbrev Pt := Int × Int

/-- A line of infill: its two ends, and the number of the row it is a piece of. -/
structure Chain where
  front : Pt
  back : Pt
  column : Nat
deriving DecidableEq, Repr

/-- An end of a line: the number of the line and which end it is. -/
structure End where
  chain : Nat
  back : Bool
deriving DecidableEq, Repr

/-- Something met on the way round the outline. -/
inductive Stop where
  | corner (p : Pt)
  | stop (e : End)
deriving DecidableEq, Repr

namespace Spec

/-- The way round an outline, given as its corners, each with the ends of lines on the side that begins there. -/
def route : List (Pt × List End) → List Stop
  | [] => []
  | (p, es) :: rest => .corner p :: (es.map .stop ++ route rest)

/-- The square of the distance. -/
def dist2 (a b : Pt) : Int := (a.1 - b.1) ^ 2 + (a.2 - b.2) ^ 2

/-- A connection from `a` past some of the corners to `b`. If `a` and `b` are closer than 10 micrometres it may be `b` only. -/
def Between (a : Pt) (corners : List Pt) (b : Pt) (c : List Pt) : Prop :=
  (∃ kept, kept.Sublist corners ∧ c = a :: kept ++ [b]) ∨ (dist2 a b < 100 ∧ c = [b])

/-- Where an end of a line is. -/
def position (cs : List Chain) (e : End) : Pt := ((cs[e.chain]?).map fun c => if e.back then c.back else c.front).getD (0, 0)

/-- The ends of lines on a way. -/
def ends : List Stop → List End
  | [] => []
  | .corner _ :: r => ends r
  | .stop e :: r => e :: ends r

/-- A connection: the two ends and the points. -/
structure Conn where
  a : End
  b : End
  points : List Pt

/-- The connections drawn on a way: one after the other, each from an end of a line past corners to the next end. So no end has two of them. -/
inductive Drawn (pos : End → Pt) : List Stop → List Conn → Prop where
  | none : Drawn pos [] []
  | skip (s : Stop) (r : List Stop) (out : List Conn) : Drawn pos r out → Drawn pos (s :: r) out
  | join (e : End) (corners : List Pt) (f : End) (c : List Pt) (r : List Stop) (out : List Conn) :
      Between (pos e) corners (pos f) c → Drawn pos r out → Drawn pos (.stop e :: corners.map .corner ++ .stop f :: r) (⟨e, f, c⟩ :: out)

/-- A connection over the begin of the outline, in two pieces: from the last end of a line on the way to the first corner, and from there to the first end. -/
def Closed (pos : End → Pt) (way : List Stop) (e f : End) (a b : List Pt) : Prop :=
  ∃ p before between after, way = .corner p :: (before.map .corner ++ .stop e :: (between ++ .stop f :: after.map .corner))
    ∧ (∃ kept, kept.Sublist after ∧ a = pos f :: kept ++ [p]) ∧ (∃ kept, kept.Sublist before ∧ b = p :: kept ++ [pos e])

/-- An end has a connection. -/
def Used (l : List Conn) (e : End) : Prop := ∃ x ∈ l, x.a = e ∨ x.b = e

/-- Two lines are connected directly. -/
def Joined (l : List Conn) (i k : Nat) : Prop := ∃ x ∈ l, (x.a.chain = i ∧ x.b.chain = k) ∨ (x.a.chain = k ∧ x.b.chain = i)

/-- Neighbouring ends: if neither has a connection, they are of one line or of lines connected already. -/
def Served (l : List Conn) (e f : End) : Prop := Used l e ∨ Used l f ∨ e.chain = f.chain ∨ Joined l f.chain e.chain

/-- What is drawn for an outline. The connection over its begin is between different lines, if `R`. -/
def Connected (pos : End → Pt) (R : Prop) (way : List Stop) (con : List Conn) (pieces : List (List Pt)) : Prop :=
  Drawn pos way con ∧ (pieces = con.map (·.points) ∨ ∃ e f a b, Closed pos way e f a b ∧ (R → e.chain ≠ f.chain) ∧ pieces = con.map (·.points) ++ [a, b])

/-- The same for all outlines, one after the other. -/
inductive All (pos : End → Pt) (R : Prop) : List (List (Pt × List End)) → List (List Conn) → List (List Pt) → Prop where
  | nil : All pos R [] [] []
  | cons (poly : List (Pt × List End)) (polys : List (List (Pt × List End))) (con : List Conn) (cons : List (List Conn)) (r rs : List (List Pt)) :
      Connected pos R (route poly) con r → All pos R polys cons rs → All pos R (poly :: polys) (con :: cons) (r ++ rs)

/-- The number of ends of lines on the outlines. -/
def total : List (List (Pt × List End)) → Nat
  | [] => 0
  | poly :: polys => (ends (route poly)).length + total polys

/-- A piece leads between lines `i` and `k`. -/
def Links (cs : List Chain) (c : List Pt) (i k : Nat) : Bool :=
  [false, true].any fun b => [false, true].any fun d => (c.head? == some (position cs ⟨i, b⟩) && c.getLast? == some (position cs ⟨k, d⟩))
    || (c.head? == some (position cs ⟨k, d⟩) && c.getLast? == some (position cs ⟨i, b⟩))

/-- All pieces are in rows of their own. -/
def OwnRows (cs : List Chain) : Prop := ∀ i j : Nat, ∀ c d : Chain, cs[i]? = some c → cs[j]? = some d → c.column = d.column → i = j

end Spec

end Verif.Gyroid
