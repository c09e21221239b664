import Verif.Adaptive.Model

/-! # Specification of the adaptive layers (C37) -/

namespace Verif.Adaptive

/-- The allowed heights: whole steps down from the thickest one, within the variation, positive. -/
def Allowed (cfg : Cfg) (h : Int) : Prop :=
  (∃ k : Nat, h = cfg.base + cfg.variation - k * cfg.step) ∧ cfg.base - cfg.variation ≤ h ∧ 0 < h

/-- The thinnest allowed height. -/
def Thinnest (cfg : Cfg) (h : Int) : Prop := Allowed cfg h ∧ ∀ h', Allowed cfg h' → h ≤ h'

/-- The top of the part of a layer that is looked at: half of it if the slicing tolerance is "middle". -/
def top (cfg : Cfg) (z h : Int) : Int := z + if cfg.middle then h / 2 else h

/-- A face touches the layer of height `h` on top of `z`. -/
def Touches (cfg : Cfg) (z h : Int) (f : Face) : Prop :=
  f ∈ cfg.faces ∧ f.minZ ≤ top cfg z h ∧ z ≤ f.maxZ

/-- The flattest face that touches the layer makes stairs no wider than the threshold. -/
def Fine (cfg : Cfg) (z h : Int) : Prop :=
  ∃ f, Touches cfg z h f ∧ (∀ g, Touches cfg z h g → f.slope ≤ g.slope) ∧
    (cfg.tan f.slope = 0 ∨ (h : ℚ) / cfg.tan f.slope ≤ cfg.threshold)

/-- A height is suitable on top of `z` and a layer of height `prev`: some face touches the layer; it is fine,
or the thinnest, or thinner than the previous one by more than a step; it is not thicker by more than a step
unless it is the thinnest. -/
def Suitable (cfg : Cfg) (z prev h : Int) : Prop :=
  (∃ f, Touches cfg z h f) ∧ (Fine cfg z h ∨ Thinnest cfg h ∨ cfg.step < prev - h) ∧
    (h - prev ≤ cfg.step ∨ Thinnest cfg h)

/-- The height of the next layer: the thickest suitable one, or the thinnest if none is suitable. -/
def Next (cfg : Cfg) (z prev h : Int) : Prop :=
  (Allowed cfg h ∧ Suitable cfg z prev h ∧ ∀ h', Allowed cfg h' → Suitable cfg z prev h' → h' ≤ h) ∨
  (Thinnest cfg h ∧ ∀ h', Allowed cfg h' → ¬ Suitable cfg z prev h')

/-- The whole result. -/
structure Tiles (cfg : Cfg) (layers : List Layer) : Prop where
  /-- The first layer has the initial height. -/
  first : layers[0]? = some ⟨cfg.initial, cfg.initial⟩
  /-- There are at least two layers. -/
  two : 2 ≤ layers.length
  /-- Every layer lies on the one before. -/
  stacked : ∀ k a b, layers[k]? = some a → layers[k + 1]? = some b → b.z = a.z + b.height
  /-- Every further layer has the height that the rule says. -/
  next : ∀ k a b, layers[k]? = some a → layers[k + 1]? = some b → Next cfg a.z a.height b.height
  /-- The top of the model is reached. -/
  top : ∀ a, layers.getLast? = some a → cfg.modelMax < a.z
  /-- There are no more layers than needed. -/
  needed : ∀ k a, 1 ≤ k → k + 1 < layers.length → layers[k]? = some a → a.z ≤ cfg.modelMax

/-- Sensible settings: a positive step and at least one positive height. -/
structure Cfg.Sane (cfg : Cfg) : Prop where
  step : 0 < cfg.step
  variation : 0 ≤ cfg.variation
  positive : 0 < cfg.base + cfg.variation
  slopes : ∀ f ∈ cfg.faces, f.slope ≤ DBL_MAX

end Verif.Adaptive
