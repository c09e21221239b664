import Mathlib.Algebra.Order.Field.Basic

/-! # Model of the choice of a seam: src/utils/scoring/BestElementFinder.cpp, the scoring criteria and
PathOrderOptimizer::findStartLocation

Doubles are elements of an ordered field. -/

namespace Verif.Seam

variable {K : Type} [Field K] [LinearOrder K] [IsStrictOrderedRing K]

/-- `BestElementFinder::Candidate`, BestElementFinder.h:29-33. -/
structure Cand (K : Type) where
  idx : ℕ
  score : K
  deriving DecidableEq, Repr

/-- `CriteriaPass`, BestElementFinder.h:55-66: the criteria with their weights, and the threshold. A criterion is asked
once per pass and candidate, so that a function of the candidate models also the random criterion. -/
structure Pass (K : Type) where
  criteria : List ((ℕ → K) × K)
  threshold : K

/-- The score of a candidate, BestElementFinder.cpp:45-50. -/
def Pass.score (p : Pass K) (i : ℕ) : K := p.criteria.foldl (fun s c => s + c.1 i * c.2) 0

/-- The search for the best candidate, BestElementFinder.cpp:42-56: `i` is the position of the iterator, the last
argument `best_candidate_iterator`. -/
def bestLoop : List (Cand K) → ℕ → Option (ℕ × Cand K) → Option (ℕ × Cand K)
  | [], _, best => best
  | c :: rest, i, none => bestLoop rest (i + 1) (some (i, c))
  | c :: rest, i, some (j, d) => bestLoop rest (i + 1) (if d.score < c.score then some (i, c) else some (j, d))

/-- One step of `std::remove_if` with the predicate of BestElementFinder.cpp:75-78, at position `i`; `r` is where the
next element that is kept goes. The predicate reads the score through the iterator `b` to the best candidate, in the
vector that is being changed. (The search for the first element to remove, with which `std::remove_if` begins, is
modelled as storing elements where they are already.) -/
def removeStep (delta : K) (b : ℕ) (s : List (Cand K) × ℕ) (i : ℕ) : List (Cand K) × ℕ :=
  match s.1[i]?, s.1[b]? with
  | some c, some best => if delta < best.score - c.score then s else (s.1.set s.2 c, s.2 + 1)
  | _, _ => s

/-- `std::remove_if`, BestElementFinder.cpp:70-78: the candidates before the new end. -/
def removeIf (delta : K) (b : ℕ) (v : List (Cand K)) : List (Cand K) :=
  let s := (List.range v.length).foldl (removeStep delta b) (v, 0)
  s.1.take s.2

/-- The rest of the passes with the candidates that are left, BestElementFinder.cpp:38-87. `eps` is the epsilon of
double. -/
def passLoop (eps : K) : List (Pass K) → List (Cand K) → Option ℕ
  | [], cands => cands.head?.map Cand.idx
  | p :: rest, cands =>
    let scored := cands.map fun c => { c with score := p.score c.idx }
    match bestLoop scored 0 none with
    | none => none
    | some (b, best) =>
      if rest.isEmpty then some best.idx else
        let kept := removeIf (p.threshold + eps) b scored
        if kept.length = 1 then kept.head?.map Cand.idx else passLoop eps rest kept

/-- `BestElementFinder::findBestElement`, BestElementFinder.cpp:26-88. -/
def findBest (eps : K) (passes : List (Pass K)) (count : ℕ) : Option ℕ :=
  passLoop eps passes ((List.range count).map fun i => ⟨i, 0⟩)

/-! ## The criteria -/

/-- `DistanceScoringCriterion::computeScore`, DistanceScoringCriterion.cpp:20-39, for a distance in millimetres. -/
def distanceScore (divider distance : K) : K := 1 / (1 + distance / divider)

/-- `EZSeamCornerPrefType`, settings/EnumSettings.h. -/
inductive CornerPref | inner | outer | any | weighted | plugin
  deriving DecidableEq, Repr

/-- `CornerScoringCriterion::computeScore`, CornerScoringCriterion.cpp:30-66, for the angle of the corner: between -1
(the sharpest concave corner) and 1 (the sharpest convex one). -/
def cornerScore (pref : CornerPref) (angle : K) : K :=
  match pref with
  | .inner => (angle - 1) / (-1 - 1)
  | .outer => (angle - -1) / (1 - -1)
  | .any => |angle|
  | .weighted => if angle < 0 then -angle else angle / 2
  | .plugin => 0

/-- `TextureArea`, TextureDataProvider.h. -/
inductive TextureArea | normal | preferred | avoid
  deriving DecidableEq, Repr

/-- `TextureScoringCriterion::computeScore`, TextureScoringCriterion.cpp:21-38. -/
def textureScore (area : Option TextureArea) : K :=
  match area with
  | some .normal => 1 / 2
  | some .preferred => 1
  | some .avoid => 0
  | none => 1 / 2

/-- `ExclusionAreaScoringCriterion::computeScore`, ExclusionAreaScoringCriterion.cpp:18-21. -/
def overhangScore (inside : Bool) : K := if inside then 0 else 1

/-! ## The start of a path -/

/-- `EZSeamType`, settings/EnumSettings.h. -/
inductive SeamType | random | shortest | userSpecified | sharpestCorner | plugin
  deriving DecidableEq, Repr

/-- What is known of a closed path: its seam settings, and for each vertex what the criteria measure. Distances are in
millimetres; how they and the angles are computed is not modelled. -/
structure Path (K : Type) where
  /-- The number of vertices. -/
  size : ℕ
  /-- `force_start_index_`. -/
  forced : Option ℕ
  type : SeamType
  corner : CornerPref
  /-- Distance from a vertex to the target position. -/
  toTarget : ℕ → K
  /-- Distance between two vertices. -/
  between : ℕ → ℕ → K
  /-- Angles of the corners. -/
  angle : ℕ → K
  /-- Distances in Y and in X to the maximum of the bounding box. -/
  toBack : ℕ → K
  toRight : ℕ → K
  /-- What the random criterion answers. -/
  random : ℕ → K
  /-- What is painted on the model at a vertex, if it has a texture. -/
  texture : Option (ℕ → Option TextureArea)
  /-- Whether a vertex is in the overhanging areas, if there are any. -/
  overhang : Option (ℕ → Bool)

/-- The main criterion, PathOrderOptimizer.h:785-806. -/
def mainCriterion (p : Path K) : Option (ℕ → K) :=
  match p.forced, p.type, p.corner with
  | some f, _, _ => some fun i => distanceScore 1 (p.between f i)
  | none, .shortest, _ => some fun i => distanceScore 20 (p.toTarget i)
  | none, .userSpecified, _ => some fun i => distanceScore 20 (p.toTarget i)
  | none, .sharpestCorner, .plugin => none
  | none, .sharpestCorner, pref => some fun i => cornerScore pref (p.angle i)
  | none, .random, _ => some p.random
  | none, .plugin, _ => none

/-- The main pass, PathOrderOptimizer.h:774-825. -/
def mainPass (p : Path K) : Pass K where
  criteria :=
    (match p.texture with
      | some t => [(fun i => textureScore (t i), 5)]
      | none => []) ++
    (match mainCriterion p with
      | some f => [(f, 1)]
      | none => []) ++
    (match p.overhang with
      | some o => [(fun i => overhangScore (o i), 2)]
      | none => [])
  threshold := 1 / 20

/-- The fallback passes, PathOrderOptimizer.h:827-842. (In the code the criteria hold references to the maximum of a
bounding box that no longer exists when they are asked; the model lets them see the value it had.) -/
def fallbackPasses (p : Path K) : List (Pass K) :=
  if p.type = .sharpestCorner then
    [⟨[(fun i => distanceScore 20 (p.toBack i), 1)], 1 / 100⟩, ⟨[(fun i => distanceScore 20 (p.toRight i), 1)], 0⟩]
  else []

/-- `findStartLocation` for a closed path, PathOrderOptimizer.h:767-852, when seams are allowed everywhere. -/
def startClosed (eps : K) (p : Path K) : ℕ := (findBest eps (mainPass p :: fallbackPasses p) p.size).getD 0

/-- `pathIfZseamIsInDisallowedArea`, PathOrderOptimizer.h:709-732: `left` is how many vertices may still be tried. -/
def skipDisallowed (size : ℕ) (disallowed : ℕ → Bool) : ℕ → ℕ → ℕ
  | 0, best => best
  | left + 1, best =>
    if disallowed best then skipDisallowed size disallowed left (if best + 1 < size then best + 1 else 0) else best

/-- `findStartLocation` for a closed path, PathOrderOptimizer.h:844-852, with the areas where seams are disallowed, if
there are any. -/
def startAllowed (eps : K) (p : Path K) (disallowed : Option (ℕ → Bool)) : ℕ :=
  match disallowed with
  | none => startClosed eps p
  | some bad => skipDisallowed p.size bad p.size (startClosed eps p)

/-- `findStartLocation` for an open path, PathOrderOptimizer.h:753-765: the direct distances from the target to the
first and the last vertex, and those around obstacles if there is a boundary for combing. -/
def startOpen (size : ℕ) (directFront directBack : K) (combing : Option (K × K)) : ℕ :=
  match combing with
  | none => if directBack < directFront then size - 1 else 0
  | some (combFront, combBack) => if combBack < directFront ∨ combBack < combFront then size - 1 else 0

end Verif.Seam
