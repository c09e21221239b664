import Verif.Ooze.Model
import Mathlib.Algebra.BigOperators.Group.List.Basic

/-! # Specification of retracting and priming during travels (C101, C102) -/

namespace Verif.Ooze
section
variable {X : Type}

/-- What is used of lengths and interpolation. -/
structure Laws (G : Geo X) : Prop where
  nonneg : ∀ a b, 0 ≤ G.len a b
  symm : ∀ a b, G.len a b = G.len b a
  zero : ∀ a b, G.lerp a b 0 = a

variable (G : Geo X) (speed : ℚ)

/-- The time that it takes to go through points at the speed of travels. -/
def elapsed (start : X) (l : List X) : ℚ := (List.zipWith (fun a b => G.len a b / speed) (start :: l) l).sum

/-- Where one is after points. -/
def endOf (start : X) (l : List X) : X := l.getLastD start

/-- Moves through points, with the amount that a function of the time gives for each of them. -/
def sampled (f : ℚ → ℚ) : ℚ → X → List X → List (Event X)
  | _, _, [] => []
  | e, p, q :: l => .move q (some (f (e + G.len p q / speed))) :: sampled f (e + G.len p q / speed) q l

/-- A travel through `a ++ b ++ c` with retraction: the amount rises in proportion to the time from `bottom` to `top` until `rise` has
elapsed, at the position `x` between `a` and what follows; it stays; and from `fall` before the end, at the position `y` before `c`, it falls
in proportion to the time to `rest`. The positions are on the right segments up to the time `slack`. -/
structure Written (slack : ℚ) (start : X) (points : List X) (rise fall bottom top rest : ℚ) (out : List (Event X)) (a b c : List X) (u v : X)
    (s t : ℚ) : Prop where
  eq : points = a ++ b ++ c
  left : (b ++ c).head? = some u
  right : c.head? = some v
  out : out = sampled G speed (fun τ => bottom + (top - bottom) * (τ / rise)) 0 start a ++
      .move (G.lerp (endOf start a) u s) (some top) :: b.map (.move · none) ++
      .move (G.lerp v (endOf start (a ++ b)) t) none ::
      sampled G speed (fun τ => rest + (top - rest) * ((elapsed G speed start points - τ) / fall)) (elapsed G speed start (a ++ b)) (endOf start (a ++ b)) c
  sLower : 0 ≤ s
  sUpper : s * (G.len (endOf start a) u / speed) ≤ G.len (endOf start a) u / speed + slack
  sEarly : elapsed G speed start a + s * (G.len (endOf start a) u / speed) ≤ rise
  sLate : rise ≤ elapsed G speed start a + s * (G.len (endOf start a) u / speed) + 2 * slack
  tLower : 0 ≤ t
  tUpper : t * (G.len v (endOf start (a ++ b)) / speed) ≤ G.len v (endOf start (a ++ b)) / speed + slack
  tEarly : elapsed G speed v c.tail + t * (G.len v (endOf start (a ++ b)) / speed) ≤ fall
  tLate : fall ≤ elapsed G speed v c.tail + t * (G.len v (endOf start (a ++ b)) / speed) + 2 * slack

/-- No point of the travel is reached within a millisecond before some time, counted from the beginning or from the end. -/
def ClearStart (start : X) (points : List X) (d : ℚ) : Prop :=
  ∀ l r, points = l ++ r → ¬ (elapsed G speed start l < d ∧ d ≤ elapsed G speed start l + 1 / 1000)
def ClearEnd (start : X) (points : List X) (d : ℚ) : Prop :=
  ∀ l r, points = l ++ r → ¬ (elapsed G speed (endOf start l) r < d ∧ d ≤ elapsed G speed (endOf start l) r + 1 / 1000)

/-- Settings that make sense. -/
structure Valid (h : Half) : Prop where
  distance : 0 < h.distance
  speed : 0 < h.speed
  lower : 0 ≤ h.ratio
  upper : h.ratio ≤ 1

/-- The amount that is retracted after events. -/
def level : ℚ → List (Event X) → ℚ
  | l, [] => l
  | l, .move _ none :: es => level l es
  | _, .move _ (some m) :: es => level m es
  | _, .unretract :: es => level 0 es

end
end Verif.Ooze
