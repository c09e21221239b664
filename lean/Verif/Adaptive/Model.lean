import Verif.Basic
import Mathlib.Data.Rat.Defs
import Mathlib.Algebra.Order.Ring.Unbundled.Rat

/-! # Adaptive layer heights (src/settings/AdaptiveLayerHeights.cpp) -/

namespace Verif.Adaptive

/-- What is kept of a triangle (src/settings/AdaptiveLayerHeights.cpp:186-232): the lowest and highest z
and the slope. How these are computed from the vertices is not modelled. The 32-bit integers of the code
are unbounded here. -/
structure Face where
  minZ : Int
  maxZ : Int
  slope : ℚ

/-- The settings and the model. `tan` stands for `std::tan`; doubles are rationals. -/
structure Cfg where
  base : Int
  variation : Int
  step : Int
  threshold : Int
  initial : Int
  modelMax : Int
  middle : Bool
  faces : List Face
  tan : ℚ → ℚ

/-- `AdaptiveLayer` (include/settings/AdaptiveLayerHeights.h:13-32) without the unused temperature. -/
structure Layer where
  height : Int
  z : Int
deriving DecidableEq, Repr

/-- The loop of `calculateAllowedLayerHeights` (src/settings/AdaptiveLayerHeights.cpp:47-60); the fuel is
the number of rounds. -/
def allowedFrom (lo step : Int) : Nat → Int → Outcome (List Int)
  | 0, _ => .diverge
  | n + 1, h =>
    if h ≥ lo then
      if h ≤ 0 then .ok []
      else do
        let rest ← allowedFrom lo step n (h - step)
        .ok (h :: rest)
    else .ok []

/-- `upper_bound` (src/settings/AdaptiveLayerHeights.cpp:92-94). -/
def upper (cfg : Cfg) (z h : Int) : Int := z + if cfg.middle then h.tdiv 2 else h

/-- The triangles of interest (src/settings/AdaptiveLayerHeights.cpp:96-126): all that touch the thickest
layer, and then those that are left over. -/
def interesting (cfg : Cfg) (z h first : Int) (last : List Face) : List Face :=
  if h = first then cfg.faces.filter (fun f => decide (f.minZ ≤ upper cfg z h ∧ f.maxZ ≥ z))
  else last.filter (fun f => decide (f.minZ ≤ upper cfg z h))

/-- `std::numeric_limits<double>::max()`. -/
def DBL_MAX : ℚ := 2 ^ 1024 - 2 ^ 971

/-- The minimum slope (src/settings/AdaptiveLayerHeights.cpp:134-142). -/
def minSlope (fs : List Face) : ℚ := fs.foldl (fun m f => if m > f.slope then f.slope else m) DBL_MAX

/-- The condition of src/settings/AdaptiveLayerHeights.cpp:164-165, without the last two cases. -/
def shallow (cfg : Cfg) (h : Int) (slope : ℚ) : Bool :=
  decide (cfg.tan slope = 0) || decide ((h : ℚ) / cfg.tan slope ≤ cfg.threshold)

/-- The loop over the allowed heights (src/settings/AdaptiveLayerHeights.cpp:89-175): the height of the
layer that is added, if any. `has_exceeded_step_size` is `prev > h && prev - h > step`. -/
def scan (cfg : Cfg) (least first z prev : Int) : List Int → List Face → Option Int
  | [], _ => none
  | h :: hs, last =>
    if interesting cfg z h first last = [] then none
    else if ¬ (prev > h ∧ prev - h > cfg.step) ∧ h - prev > cfg.step ∧ h > least then
      scan cfg least first z prev hs (interesting cfg z h first last)
    else if shallow cfg h (minSlope (interesting cfg z h first last)) = true ∨ h = least ∨
        (prev > h ∧ prev - h > cfg.step) then some h
    else scan cfg least first z prev hs (interesting cfg z h first last)

/-- The outer loop (src/settings/AdaptiveLayerHeights.cpp:82-187); the fuel is the number of rounds. If
no layer was added the last allowed height is used. -/
def loop (cfg : Cfg) (allowed : List Int) (least first lastH : Int) :
    Nat → Int → Int → List Layer → Outcome (List Layer)
  | 0, _, _, _ => .diverge
  | n + 1, z, prev, layers =>
    if z ≤ cfg.modelMax ∨ layers.length < 2 then
      let h := (scan cfg least first z prev allowed []).getD lastH
      loop cfg allowed least first lastH n (z + h) h (layers ++ [⟨h, z + h⟩])
    else .ok layers

/-- `*std::min_element` of a list that starts with `h`. -/
def least (h : Int) (l : List Int) : Int := l.foldl min h

/-- The constructor (src/settings/AdaptiveLayerHeights.cpp:25-35, 62-188). With no allowed height the
dereferenced `min_element` is undefined. -/
def calculate (cfg : Cfg) (fuel : Nat) : Outcome (List Layer) := do
  let allowed ← allowedFrom (cfg.base - cfg.variation) cfg.step fuel (cfg.base + cfg.variation)
  match allowed with
  | [] => .ub
  | h :: hs =>
    loop cfg (h :: hs) (least h hs) h ((h :: hs).getLastD h) fuel cfg.initial cfg.initial
      [⟨cfg.initial, cfg.initial⟩]

end Verif.Adaptive
