import Verif.Polylines.Model

/-! # What is expected of stitched polylines -/

namespace Verif.Polylines

open Grid (Pt dist2)

variable {J : Type}

/-- The vertices of a line, in its own direction or reversed. -/
def oriented (l : Line J) (reversed : Bool) : List J := if reversed then l.pts.reverse else l.pts

/-- Line `k` could be appended (or prepended) to a chain of the given kind at its end in `x`: it is of that kind, and this does not reverse it unless that is allowed. -/
def Fits (c : Cfg J) (lines : List (Line J)) (odd before : Bool) (k : Nat) (x : J) : Prop :=
  ∃ l, lines[k]? = some l ∧ l.odd = odd ∧
    (before = false ∧ l.pts.head? = some x ∨ before = true ∧ 1 < l.pts.length ∧ l.pts.getLast? = some x ∨
      (c.free = true ∨ odd = true) ∧ (l.pts.head? = some x ∨ l.pts.getLast? = some x))

/-- The point touches one of the vertices. -/
def Touches (c : Cfg J) (w : List J) (x : J) : Prop := ∃ q ∈ w, dist2 (c.pt x) (c.pt q) < c.snap * c.snap

/-- Nothing better could have followed on `a` than what is `d` away: not one of the lines in `others` within the maximal distance, unless `d`
is below the snap distance, or the line touches the chain. -/
def Best (c : Cfg J) (lines : List (Line J)) (odd before : Bool) (others : Nat → Prop) (w : List J) (a : J) (d : Int) : Prop :=
  d < c.snap ∨ ∀ k x, others k → Fits c lines odd before k x → size (c.pt x) (c.pt a) ≤ c.maxDist →
    d ≤ size (c.pt x) (c.pt a) ∨ Touches c w x

/-- A chain of lines of one kind, given by their indices and whether they are reversed: it is grown from one line by others at either end. They
are at most the maximal distance away and no other would have been better. If it is less than the snap distance, their first vertex (or last)
is left out. Only lines that allow it are reversed. -/
inductive Joined (c : Cfg J) (lines : List (Line J)) (odd : Bool) (others : Nat → Prop) : List (Nat × Bool) → List J → Prop where
  | seed {i : Nat} {l : Line J} : lines[i]? = some l → l.odd = odd → Joined c lines odd others [(i, false)] l.pts
  | after {ps : List (Nat × Bool)} {w new : List J} {i : Nat} {r : Bool} {l : Line J} {a b : J} :
      Joined c lines odd others ps w → lines[i]? = some l → l.odd = odd → (r = true → c.free = true ∨ odd = true) →
      w.getLast? = some a → oriented l r = b :: new → size (c.pt a) (c.pt b) ≤ c.maxDist →
      Best c lines odd false others w a (size (c.pt a) (c.pt b)) →
      Joined c lines odd others (ps ++ [(i, r)]) (w ++ if size (c.pt a) (c.pt b) < c.snap then new else b :: new)
  | before {ps : List (Nat × Bool)} {w new : List J} {i : Nat} {r : Bool} {l : Line J} {a b : J} :
      Joined c lines odd others ps w → lines[i]? = some l → l.odd = odd → (r = true → c.free = true ∨ odd = true) →
      w.head? = some a → oriented l r = new ++ [b] → size (c.pt a) (c.pt b) ≤ c.maxDist →
      Best c lines odd true others w a (size (c.pt a) (c.pt b)) →
      Joined c lines odd others ((i, r) :: ps) ((if size (c.pt a) (c.pt b) < c.snap then new else new ++ [b]) ++ w)

/-- A chain of `n` lines is closed: from its one end `a` to its other `z` it is at most the maximal distance, by way of an end of a line that
touches `z`. It has more than two vertices and is at least three times as long as the maximal distance. Only a line that is at least 10 µm
farther away than `a` from `z` could have been appended (and for a single odd line, 10 µm closer). -/
def Closed (c : Cfg J) (lines : List (Line J)) (odd : Bool) (others : Nat → Prop) (n : Nat) (w : List J) : Prop :=
  ∃ before a z x, (before = false ∧ w.getLast? = some a ∧ w.head? = some z ∨ before = true ∧ w.head? = some a ∧ w.getLast? = some z) ∧
    (∃ (k : Nat) (l : Line J), lines[k]? = some l ∧ (l.pts.head? = some x ∨ l.pts.getLast? = some x)) ∧
    size (c.pt x) (c.pt a) ≤ c.maxDist ∧ dist2 (c.pt x) (c.pt z) < c.snap * c.snap ∧ 2 < w.length ∧
    3 * c.maxDist ≤ length c w + size (c.pt x) (c.pt a) ∧
    Best c lines odd before others w a (size (c.pt x) (c.pt a) + if odd = true ∧ n = 1 then -10 else 10)

/-- No other line could be appended to the chain within the maximal distance, unless it touches it. -/
def Maximal (c : Cfg J) (lines : List (Line J)) (odd : Bool) (others : Nat → Prop) (w : List J) : Prop :=
  ∀ k x, others k →
    (∀ a, w.getLast? = some a → Fits c lines odd false k x → c.maxDist < size (c.pt x) (c.pt a) ∨ Touches c w x) ∧
    (∀ a, w.head? = some a → Fits c lines odd true k x → c.maxDist < size (c.pt x) (c.pt a) ∨ Touches c w x)

/-- A result is a chain of the given lines. If it is closed, that is justified, otherwise nothing could be appended to it; lines that may be
reversed come out reversed if they are open. -/
def IsChain (c : Cfg J) (lines : List (Line J)) (others : Nat → Prop) (r : Result J) (ps : List (Nat × Bool)) : Prop :=
  ∃ w, Joined c lines r.odd others ps w ∧
    (r.closed = true ∧ r.pts = w ∧ Closed c lines r.odd others ps.length w ∨
     r.closed = false ∧ r.pts = (if c.free = true ∨ r.odd = true then w.reverse else w) ∧ Maximal c lines r.odd others w)

/-- Results made of the given chains, one after the other: what is left for the others is what comes later. -/
inductive Chains (c : Cfg J) (lines : List (Line J)) : List (Result J) → List (List (Nat × Bool)) → Prop where
  | nil : Chains c lines [] []
  | cons {r : Result J} {rs : List (Result J)} {ps : List (Nat × Bool)} {pss : List (List (Nat × Bool))} :
      IsChain c lines (fun k => ∃ qs ∈ pss, k ∈ qs.map Prod.fst) r ps → Chains c lines rs pss → Chains c lines (r :: rs) (ps :: pss)

/-- A segment of one of the lines, in either direction. -/
def Segment (lines : List (Line J)) (a b : J) : Prop := ∃ l ∈ lines, [a, b] <:+: l.pts ∨ [b, a] <:+: l.pts

/-- Two vertices that may follow on each other: a segment of a line, a new one of at most the maximal distance, or a segment of which one end
is moved by less than the snap distance. -/
def Follows (c : Cfg J) (lines : List (Line J)) (a b : J) : Prop :=
  Segment lines a b ∨ size (c.pt a) (c.pt b) ≤ c.maxDist ∨
    ∃ x, size (c.pt x) (c.pt a) < c.snap ∧ Segment lines x b ∨ size (c.pt x) (c.pt b) < c.snap ∧ Segment lines a x

end Verif.Polylines
