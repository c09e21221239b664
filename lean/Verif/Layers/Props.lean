import Verif.Layers.Spec
import Mathlib.Tactic.FieldSimp
import Mathlib.Tactic.Ring
import Mathlib.Algebra.Order.Field.Basic
import Mathlib.Tactic.Linarith
import Mathlib.Data.List.GetD

/-! # C41, C52, C53: layer numbers, raft layers, rounding divisions -/

namespace Verif.Layers

variable {T : Type}

/-! ### C41 -/

theorem toSize_of_nonneg {i : Int} (h0 : 0 ≤ i) (h : i < 2 ^ 63) : toSize i = i.toNat := by
  unfold toSize
  rw [Int.emod_eq_of_lt h0 (by omega)]

theorem toSize_of_neg {i : Int} (h0 : i < 0) (h : -2 ^ 63 ≤ i) : 2 ^ 63 ≤ toSize i := by
  unfold toSize
  have : i % 2 ^ 64 = i + 2 ^ 64 := by
    rw [← Int.add_emod_right, Int.emod_eq_of_lt (by omega) (by omega)]
  omega

theorem toSize_lt_iff (v : LayerVector T) (l : Int) (h : Sane v l) :
    toSize (l + v.delta) < v.items.length ↔ v.HasLayer l := by
  obtain ⟨h1, h2, h3⟩ := h
  unfold LayerVector.HasLayer
  by_cases h0 : 0 ≤ l + v.delta
  · rw [toSize_of_nonneg h0 h3]; omega
  · have := toSize_of_neg (not_le.1 h0) h2
    constructor
    · intro h; omega
    · intro h; omega

/-- **C41.** The layers a container holds correspond one to one to its slots: the slot of a layer is its
number plus the number of raft layers, `operator[]`, `at` and `get` read it, the iterator for the layer
points to it, and asking the iterator for its layer, forwards or backwards, gives the number back. -/
theorem C41_slot [Inhabited T] (v : LayerVector T) (l : Int) (hs : Sane v l) (hl : v.HasLayer l) :
    ∃ (i : Nat) (x : T), (i : Int) = l + v.delta ∧ v.items[i]? = some x ∧
      v.index l = .ok x ∧ v.at l = .value x ∧ v.get l = .ok x ∧ v.iteratorAt l = i ∧
      v.getLayer i = l ∧ v.getLayerRev (v.items.length - 1 - i) = l := by
  have hlt := (toSize_lt_iff v l hs).2 hl
  obtain ⟨h1, h2, h3⟩ := hs
  obtain ⟨hl1, hl2⟩ := hl
  have h0 : 0 ≤ l + v.delta := by omega
  have e : toSize (l + v.delta) = (l + v.delta).toNat := toSize_of_nonneg h0 h3
  rw [e] at hlt
  have hx : v.items[(l + v.delta).toNat]? = some (v.items[(l + v.delta).toNat]) := List.getElem?_eq_getElem hlt
  refine ⟨(l + v.delta).toNat, v.items[(l + v.delta).toNat], by omega, hx, ?_, ?_, ?_, ?_, ?_, ?_⟩
  · unfold LayerVector.index; rw [e]; exact Outcome.index_eq_ok.2 hx
  · unfold LayerVector.at; rw [e, hx]
  · unfold LayerVector.get
    dsimp only
    rw [e, if_pos ⟨h0, hlt⟩]
    exact Outcome.index_eq_ok.2 hx
  · unfold LayerVector.iteratorAt
    dsimp only
    rw [e, if_pos ⟨h0, hlt⟩]
  · unfold LayerVector.getLayer; omega
  · unfold LayerVector.getLayerRev; omega

/-- Three raft layers and two print layers: layer -3 is the first, layer 1 the last. -/
example : let v : LayerVector Nat := ⟨[10, 11, 12, 13, 14], 3⟩
    Sane v (-3) ∧ v.HasLayer (-3) ∧ v.index (-3) = .ok 10 ∧ v.index 1 = .ok 14 ∧ v.get 2 = .ok 0 ∧
    v.at (-4) = .outOfRange ∧ v.iteratorAt 0 = 3 ∧ v.getLayerRev 0 = 1 := by
  refine ⟨?_, ?_, by decide, by decide, by decide, by decide, by decide, by decide⟩
  · unfold Sane; decide
  · unfold LayerVector.HasLayer; decide

/-- **C41.** Layer numbers out of range are detected: `at` throws, `get` gives a default value and
`iterator_at` gives the end. `operator[]` does not check: it reads outside the storage. -/
theorem C41_out_of_range [Inhabited T] (v : LayerVector T) (l : Int) (hs : Sane v l) (hl : ¬ v.HasLayer l) :
    v.at l = .outOfRange ∧ v.get l = .ok default ∧ v.iteratorAt l = v.items.length ∧ v.index l = .ub := by
  have hlt : ¬ toSize (l + v.delta) < v.items.length := fun h => hl ((toSize_lt_iff v l hs).1 h)
  have hn : v.items[toSize (l + v.delta)]? = none := List.getElem?_eq_none (not_lt.1 hlt)
  refine ⟨?_, ?_, ?_, ?_⟩
  · unfold LayerVector.at; rw [hn]
  · unfold LayerVector.get; dsimp only; rw [if_neg (by tauto)]
  · unfold LayerVector.iteratorAt; dsimp only; rw [if_neg (by tauto)]
  · unfold LayerVector.index Outcome.index; rw [hn]

/-- **C41.** Writing to one layer changes that layer and no other. -/
theorem C41_assign (v : LayerVector T) (l : Int) (hs : Sane v l) (hl : v.HasLayer l) (x : T) :
    ∃ v', v.assign l x = .ok v' ∧ v'.delta = v.delta ∧ v'.items.length = v.items.length ∧
      v'.index l = .ok x ∧ ∀ l', Sane v l' → l' ≠ l → v'.index l' = v.index l' := by
  have hlt := (toSize_lt_iff v l hs).2 hl
  refine ⟨{ v with items := v.items.set (toSize (l + v.delta)) x }, ?_, rfl, by simp, ?_, ?_⟩
  · unfold LayerVector.assign; rw [if_pos hlt]
  · unfold LayerVector.index
    dsimp only
    rw [Outcome.index_eq_ok, List.getElem?_set_self hlt]
  · intro l' hs' hne
    unfold LayerVector.index Outcome.index
    dsimp only
    have : toSize (l + v.delta) ≠ toSize (l' + v.delta) := by
      intro he
      have hlt' := (toSize_lt_iff v l' hs').1 (he ▸ hlt)
      obtain ⟨_, _, h3⟩ := hs
      obtain ⟨_, _, h3'⟩ := hs'
      unfold LayerVector.HasLayer at hl hlt'
      rw [toSize_of_nonneg (by omega) h3, toSize_of_nonneg (by omega) h3'] at he
      omega
    rw [List.getElem?_set_ne this]

/-- **C41.** Going through the container visits its layers in increasing order without gaps, starting
with the lowest raft layer; going backwards visits them in decreasing order. -/
theorem C41_order (v : LayerVector T) (i : Nat) (hi : i < v.items.length) :
    v.HasLayer (v.getLayer i) ∧ v.getLayer 0 = -(v.delta : Int) ∧ v.getLayer (i + 1) = v.getLayer i + 1 ∧
    v.HasLayer (v.getLayerRev i) ∧ v.getLayerRev i = v.getLayer (v.items.length - 1 - i) ∧
    (i + 1 < v.items.length → v.getLayerRev (i + 1) = v.getLayerRev i - 1) := by
  unfold LayerVector.HasLayer LayerVector.getLayer LayerVector.getLayerRev
  refine ⟨?_, ?_, ?_, ?_, ?_, ?_⟩ <;> omega

/-- **C41.** Appending an element makes it the next higher layer and leaves the others; removing the last
element and resizing keep the layers that remain. -/
theorem C41_grow [Inhabited T] (v : LayerVector T) (x : T) (n : Nat) (l : Int)
    (hs : v.items.length + 1 < 2 ^ 63) (hn : n < 2 ^ 63) (hl : v.HasLayer l) :
    (v.pushBack x).index ((v.items.length : Int) - v.delta) = .ok x ∧
    (v.pushBack x).index l = v.index l ∧
    (∃ v', (v.pushBack x).popBack = .ok v' ∧ v'.items = v.items ∧ v'.delta = v.delta) ∧
    (l < (n : Int) - v.delta → (v.resize n).index l = v.index l) ∧
    (v.resize n).items.length = n ∧
    ∀ m : Int, (v.items.length : Int) - v.delta ≤ m → m < (n : Int) - v.delta → (v.resize n).index m = .ok default := by
  obtain ⟨h1, h2⟩ := hl
  have key : ∀ m : Int, 0 ≤ m + v.delta → m + v.delta < 2 ^ 63 → toSize (m + v.delta) = (m + v.delta).toNat :=
    fun m h h' => toSize_of_nonneg h h'
  refine ⟨?_, ?_, ?_, ?_, ?_, ?_⟩
  · unfold LayerVector.index LayerVector.pushBack
    dsimp only
    rw [key _ (by omega) (by omega), Outcome.index_eq_ok]
    have : ((v.items.length : Int) - v.delta + v.delta).toNat = v.items.length := by omega
    rw [this]; simp
  · unfold LayerVector.index LayerVector.pushBack Outcome.index
    dsimp only
    rw [key _ (by omega) (by omega), List.getElem?_append_left (by omega)]
  · refine ⟨v, ?_, rfl, rfl⟩
    unfold LayerVector.popBack LayerVector.pushBack
    dsimp only
    rw [if_neg (by simp)]
    simp
  · intro h3
    unfold LayerVector.index LayerVector.resize Outcome.index
    dsimp only
    rw [key _ (by omega) (by omega), List.getElem?_append_left (by rw [List.length_take]; omega),
      List.getElem?_take_of_lt (by omega)]
  · unfold LayerVector.resize
    simp
    omega
  · intro m hm1 hm2
    unfold LayerVector.index LayerVector.resize
    dsimp only
    rw [key _ (by omega) (by omega), Outcome.index_eq_ok,
      List.getElem?_append_right (by rw [List.length_take]; omega), List.length_take,
      List.getElem?_replicate, if_pos (by omega)]

/-- **C41.** A container for raft layers starts at minus the number of extra layers of the raft, one
without at zero, both without any elements. -/
theorem C41_init (r : RaftSettings) (h : r.layerHeight ≠ 0) :
    (∃ v : LayerVector T, ∃ n, totalExtraLayers r = .ok n ∧ LayerVector.init true r = .ok v ∧
      v.items = [] ∧ v.delta = n) ∧
    ∃ v : LayerVector T, LayerVector.init false r = .ok v ∧ v.items = [] ∧ v.delta = 0 := by
  constructor
  · obtain ⟨f, hf⟩ : ∃ f, fillerLayerCount r = .ok f := by
      unfold fillerLayerCount roundDivide; rw [if_neg h]; exact ⟨_, rfl⟩
    have ht : totalExtraLayers r = .ok (baseLayers r + interfaceLayers r + surfaceLayers r + f) := by
      unfold totalExtraLayers; rw [hf]; rfl
    refine ⟨⟨[], baseLayers r + interfaceLayers r + surfaceLayers r + f⟩, _, ht, ?_, rfl, rfl⟩
    unfold LayerVector.init
    rw [if_pos rfl, ht]; rfl
  · exact ⟨⟨[], 0⟩, rfl, rfl, rfl⟩

/-! ### C53: rounding divisions -/

/-- The C++ quotient and remainder, as fractions. -/
theorem tdiv_facts (n d : Int) (hd : d ≠ 0) :
    (n : ℚ) / d = n.tdiv d + (n.tmod d : ℚ) / d ∧
    |(n.tmod d : ℚ) / d| + 1 / |(d : ℚ)| ≤ 1 ∧
    (0 ≤ (n : ℚ) / d → 0 ≤ (n.tmod d : ℚ) / d) ∧ ((n : ℚ) / d ≤ 0 → (n.tmod d : ℚ) / d ≤ 0) := by
  have hdq : (d : ℚ) ≠ 0 := by exact_mod_cast hd
  have e : (n : ℚ) = d * (n.tdiv d : Int) + (n.tmod d : Int) := by
    exact_mod_cast (Int.mul_tdiv_add_tmod n d).symm
  have hr : |(n.tmod d : ℚ)| + 1 ≤ |(d : ℚ)| := by
    have h1 : |n.tmod d| < |d| := by
      rcases lt_or_gt_of_ne hd with h | h
      · have e1 := Int.tmod_lt_of_pos n (by omega : 0 < -d)
        have e2 := Int.lt_tmod_of_pos n (by omega : 0 < -d)
        rw [Int.tmod_neg] at e1 e2
        rw [abs_lt, abs_of_neg h]
        omega
      · have e1 := Int.tmod_lt_of_pos n h
        have e2 := Int.lt_tmod_of_pos n h
        rw [abs_lt, abs_of_pos h]
        omega
    have : |n.tmod d| + 1 ≤ |d| := h1
    exact_mod_cast this
  have hap : 0 < |(d : ℚ)| := abs_pos.2 hdq
  have hsign : (0 ≤ n → 0 ≤ n.tmod d) ∧ (n ≤ 0 → n.tmod d ≤ 0) := by
    constructor
    · intro h; exact Int.tmod_nonneg d h
    · intro h
      have := Int.tmod_nonneg d (by omega : 0 ≤ -n)
      rw [Int.neg_tmod] at this
      omega
  refine ⟨?_, ?_, ?_, ?_⟩
  · rw [e]
    field_simp
  · rw [abs_div, ← add_div, div_le_one hap]
    exact hr
  · intro h
    rcases lt_or_gt_of_ne hdq with hn | hp
    · have : (n : ℚ) ≤ 0 := by
        by_contra hc
        have := div_neg_of_pos_of_neg (not_le.1 hc) hn
        linarith
      have h2 := hsign.2 (by exact_mod_cast this)
      exact div_nonneg_of_nonpos (by exact_mod_cast h2) hn.le
    · have : (0 : ℚ) ≤ n := by
        by_contra hc
        have := div_neg_of_neg_of_pos (not_le.1 hc) hp
        linarith
      have h2 := hsign.1 (by exact_mod_cast this)
      exact div_nonneg (by exact_mod_cast h2) hp.le
  · intro h
    rcases lt_or_gt_of_ne hdq with hn | hp
    · have : (0 : ℚ) ≤ n := by
        by_contra hc
        have := div_pos_of_neg_of_neg (not_le.1 hc) hn
        linarith
      have h2 := hsign.1 (by exact_mod_cast this)
      exact div_nonpos_of_nonneg_of_nonpos (by exact_mod_cast h2) hn.le
    · have : (n : ℚ) ≤ 0 := by
        by_contra hc
        have := div_pos (not_le.1 hc) hp
        linarith
      have h2 := hsign.2 (by exact_mod_cast this)
      exact div_nonpos_of_nonpos_of_nonneg (by exact_mod_cast h2) hp.le

theorem div_sign (n d : Int) :
    ((n > 0 ∧ d > 0) ∨ (n < 0 ∧ d < 0) ↔ 0 < (n : ℚ) / d) ∧
    ((n > 0 ∧ d < 0) ∨ (n < 0 ∧ d > 0) ↔ (n : ℚ) / d < 0) := by
  constructor
  · rw [div_pos_iff]
    norm_cast
  · rw [div_neg_iff]
    norm_cast

/-- **C53.** The signed division rounded down gives the largest integer not above the exact quotient. -/
theorem C53_floor (n d : Int) (hd : d ≠ 0) :
    ∃ q, floorDivideSigned n d = .ok q ∧ (q : ℚ) ≤ (n : ℚ) / d ∧ (n : ℚ) / d < q + 1 := by
  obtain ⟨h1, h2, h3, h4⟩ := tdiv_facts n d hd
  have hdq : (d : ℚ) ≠ 0 := by exact_mod_cast hd
  have hpos : 0 < 1 / |(d : ℚ)| := one_div_pos.2 (abs_pos.2 hdq)
  obtain ⟨a1, a2⟩ := abs_le.1 (by linarith : |(n.tmod d : ℚ) / d| ≤ 1 - 1 / |(d : ℚ)|)
  have hz : n.tmod d = 0 ↔ (n.tmod d : ℚ) / d = 0 := by
    rw [div_eq_zero_iff]
    constructor
    · intro h; left; exact_mod_cast h
    · rintro (h | h)
      · exact_mod_cast h
      · exact absurd h hdq
  unfold floorDivideSigned
  rw [if_neg hd]
  dsimp only
  simp only [(div_sign n d).2]
  split_ifs with h
  · refine ⟨_, rfl, ?_, ?_⟩
    · push_cast; linarith
    · have hne : (n.tmod d : ℚ) / d ≠ 0 := fun hc => h.1 (hz.2 hc)
      have := lt_of_le_of_ne (h4 h.2.le) hne
      push_cast; linarith
  · refine ⟨_, rfl, ?_, ?_⟩
    · by_cases h0 : n.tmod d = 0
      · rw [h1, hz.1 h0]; simp
      · have : ¬ (n : ℚ) / d < 0 := by tauto
        have := h3 (not_lt.1 this)
        linarith
    · linarith

/-- **C53.** The signed division rounded up gives the smallest integer not below the exact quotient. -/
theorem C53_ceil (n d : Int) (hd : d ≠ 0) :
    ∃ q, ceilDivideSigned n d = .ok q ∧ (n : ℚ) / d ≤ q ∧ (q : ℚ) - 1 < (n : ℚ) / d := by
  obtain ⟨h1, h2, h3, h4⟩ := tdiv_facts n d hd
  have hdq : (d : ℚ) ≠ 0 := by exact_mod_cast hd
  have hpos : 0 < 1 / |(d : ℚ)| := one_div_pos.2 (abs_pos.2 hdq)
  obtain ⟨a1, a2⟩ := abs_le.1 (by linarith : |(n.tmod d : ℚ) / d| ≤ 1 - 1 / |(d : ℚ)|)
  have hz : n.tmod d = 0 ↔ (n.tmod d : ℚ) / d = 0 := by
    rw [div_eq_zero_iff]
    constructor
    · intro h; left; exact_mod_cast h
    · rintro (h | h)
      · exact_mod_cast h
      · exact absurd h hdq
  unfold ceilDivideSigned
  rw [if_neg hd]
  dsimp only
  simp only [(div_sign n d).1]
  split_ifs with h
  · refine ⟨_, rfl, ?_, ?_⟩
    · push_cast; linarith
    · have hne : (n.tmod d : ℚ) / d ≠ 0 := fun hc => h.1 (hz.2 hc)
      have := lt_of_le_of_ne (h3 h.2.le) (Ne.symm hne)
      push_cast; linarith
  · refine ⟨_, rfl, ?_, ?_⟩
    · by_cases h0 : n.tmod d = 0
      · rw [h1, hz.1 h0]; simp
      · have : ¬ 0 < (n : ℚ) / d := by tauto
        have := h4 (not_lt.1 this)
        linarith
    · linarith

/-- Half of a divisor, as a fraction of it. -/
theorem half_facts (d : Int) (hd : d ≠ 0) :
    1 / 2 - 1 / |(d : ℚ)| / 2 ≤ (d.tdiv 2 : ℚ) / d ∧ (d.tdiv 2 : ℚ) / d ≤ 1 / 2 := by
  have hdq : (d : ℚ) ≠ 0 := by exact_mod_cast hd
  have h := Int.mul_tdiv_add_tmod d 2
  rcases lt_or_gt_of_ne hd with hn | hp
  · have hm : d.tmod 2 = 0 ∨ d.tmod 2 = -1 := by
      have e1 := Int.lt_tmod_of_pos d (by decide : (0 : Int) < 2)
      have e2 := Int.tmod_nonneg 2 (by omega : 0 ≤ -d)
      rw [Int.neg_tmod] at e2
      omega
    have hnq : (d : ℚ) < 0 := by exact_mod_cast hn
    rw [abs_of_neg hnq]
    have hh : 2 * (d.tdiv 2 : ℚ) + (d.tmod 2 : Int) = d := by exact_mod_cast h
    have hm' : (d.tmod 2 : ℚ) = 0 ∨ (d.tmod 2 : ℚ) = -1 := by exact_mod_cast hm
    constructor
    · rw [le_div_iff_of_neg hnq]
      have : (1 / 2 - 1 / -(d : ℚ) / 2) * d = (d + 1) / 2 := by field_simp; ring
      rw [this]
      rcases hm' with h' | h' <;> rw [h'] at hh <;> linarith
    · rw [div_le_iff_of_neg hnq]
      rcases hm' with h' | h' <;> rw [h'] at hh <;> linarith
  · have hm : d.tmod 2 = 0 ∨ d.tmod 2 = 1 := by
      have e1 := Int.tmod_lt_of_pos d (by decide : (0 : Int) < 2)
      have e2 := Int.tmod_nonneg 2 (by omega : 0 ≤ d)
      omega
    have hpq : (0 : ℚ) < d := by exact_mod_cast hp
    rw [abs_of_pos hpq]
    have hh : 2 * (d.tdiv 2 : ℚ) + (d.tmod 2 : Int) = d := by exact_mod_cast h
    have hm' : (d.tmod 2 : ℚ) = 0 ∨ (d.tmod 2 : ℚ) = 1 := by exact_mod_cast hm
    constructor
    · rw [le_div_iff₀ hpq]
      have : (1 / 2 - 1 / (d : ℚ) / 2) * d = (d - 1) / 2 := by field_simp
      rw [this]
      rcases hm' with h' | h' <;> rw [h'] at hh <;> linarith
    · rw [div_le_iff₀ hpq]
      rcases hm' with h' | h' <;> rw [h'] at hh <;> linarith

/-- **C53.** The signed rounding division gives a nearest integer to the exact quotient; halves are
rounded away from zero. -/
theorem C53_round (n d : Int) (hd : d ≠ 0) :
    ∃ q, roundDivideSigned n d = .ok q ∧ |(n : ℚ) / d - q| ≤ 1 / 2 ∧
      (|(n : ℚ) / d - q| = 1 / 2 → |(n : ℚ) / d| < |(q : ℚ)|) := by
  have hdq : (d : ℚ) ≠ 0 := by exact_mod_cast hd
  have hpos : 0 < 1 / |(d : ℚ)| := one_div_pos.2 (abs_pos.2 hdq)
  obtain ⟨g1, g2⟩ := half_facts d hd
  have hle1 : 1 / |(d : ℚ)| ≤ 1 := by
    rw [div_le_one (abs_pos.2 hdq)]
    have : 1 ≤ |d| := Int.one_le_abs hd
    exact_mod_cast this
  have gpos : 0 ≤ (d.tdiv 2 : ℚ) / d := by linarith
  unfold roundDivideSigned
  rw [if_neg hd]
  split_ifs with h
  · -- different signs: the quotient is not positive
    have hq : (n : ℚ) / d ≤ 0 := by
      by_contra hc
      have := (div_sign n d).1.2 (not_le.1 hc)
      rcases this with ⟨a, b⟩ | ⟨a, b⟩
      · rw [decide_eq_false (by omega), decide_eq_false (by omega)] at h; simp at h
      · rw [decide_eq_true a, decide_eq_true b] at h; simp at h
    obtain ⟨h1, h2, h3, h4⟩ := tdiv_facts (n - d.tdiv 2) d hd
    have e : ((n - d.tdiv 2 : Int) : ℚ) / d = (n : ℚ) / d - (d.tdiv 2 : ℚ) / d := by
      push_cast; rw [sub_div]
    rw [e] at h1 h3 h4
    have h5 := h4 (by linarith)
    obtain ⟨a1, a2⟩ := abs_le.1 (by linarith : |((n - d.tdiv 2).tmod d : ℚ) / d| ≤ 1 - 1 / |(d : ℚ)|)
    refine ⟨_, rfl, ?_, ?_⟩
    · rw [abs_le]; constructor <;> linarith
    · intro hh
      generalize ((n - d.tdiv 2).tdiv d : ℚ) = Q at *
      have hqq : (n : ℚ) / d - Q = 1 / 2 := by
        rcases abs_eq (by norm_num : (0 : ℚ) ≤ 1 / 2) |>.1 hh with h6 | h6
        · exact h6
        · linarith
      rw [abs_of_nonpos hq, abs_of_nonpos (by linarith)]
      linarith
  · have hq : 0 ≤ (n : ℚ) / d := by
      by_contra hc
      have := (div_sign n d).2.2 (not_le.1 hc)
      rcases this with ⟨a, b⟩ | ⟨a, b⟩
      · rw [decide_eq_false (by omega), decide_eq_true (by omega)] at h; simp at h
      · rw [decide_eq_true a, decide_eq_false (by omega)] at h; simp at h
    obtain ⟨h1, h2, h3, h4⟩ := tdiv_facts (n + d.tdiv 2) d hd
    have e : ((n + d.tdiv 2 : Int) : ℚ) / d = (n : ℚ) / d + (d.tdiv 2 : ℚ) / d := by
      push_cast; rw [add_div]
    rw [e] at h1 h3 h4
    have h5 := h3 (by linarith)
    obtain ⟨a1, a2⟩ := abs_le.1 (by linarith : |((n + d.tdiv 2).tmod d : ℚ) / d| ≤ 1 - 1 / |(d : ℚ)|)
    refine ⟨_, rfl, ?_, ?_⟩
    · rw [abs_le]; constructor <;> linarith
    · intro hh
      generalize ((n + d.tdiv 2).tdiv d : ℚ) = Q at *
      have hqq : (n : ℚ) / d - Q = -(1 / 2) := by
        rcases abs_eq (by norm_num : (0 : ℚ) ≤ 1 / 2) |>.1 hh with h6 | h6
        · linarith
        · exact h6
      rw [abs_of_nonneg hq, abs_of_nonneg (by linarith)]
      linarith

example : floorDivideSigned (-7) 2 = .ok (-4) ∧ ceilDivideSigned (-7) (-2) = .ok 4 ∧
    ceilDivideSigned (-7) 2 = .ok (-3) ∧ roundDivideSigned (-7) 2 = .ok (-4) ∧
    roundDivideSigned 7 (-3) = .ok (-2) := by decide

/-- **C53.** The unsigned divisions: rounded to the nearest integer, halves up; and rounded up. -/
theorem C53_unsigned (n d : Nat) (hd : d ≠ 0) :
    (∃ q, roundDivide n d = .ok q ∧ (q : ℚ) - 1 / 2 ≤ (n : ℚ) / d ∧ (n : ℚ) / d < q + 1 / 2) ∧
    (∃ q, roundUpDivide n d = .ok q ∧ (n : ℚ) / d ≤ q ∧ (q : ℚ) - 1 < (n : ℚ) / d) := by
  have hp : (0 : ℚ) < d := by exact_mod_cast Nat.pos_of_ne_zero hd
  constructor
  · refine ⟨(n + d / 2) / d, by unfold roundDivide; rw [if_neg hd], ?_, ?_⟩
    · rw [le_div_iff₀ hp]
      have h1 : (n + d / 2) / d * d ≤ n + d / 2 := Nat.div_mul_le_self _ _
      have h2 : 2 * ((n + d / 2) / d * d) ≤ 2 * n + d := by omega
      have h3 : (2 : ℚ) * (((n + d / 2) / d : Nat) * d) ≤ 2 * n + d := by exact_mod_cast h2
      linarith
    · rw [div_lt_iff₀ hp]
      have h1 : n + d / 2 < d * ((n + d / 2) / d + 1) := Nat.lt_mul_div_succ _ (by omega)
      have h2 : 2 * n + 2 * (d / 2) < 2 * (d * ((n + d / 2) / d)) + 2 * d := by
        rw [Nat.mul_add] at h1; omega
      have h3 : 2 * n < 2 * (d * ((n + d / 2) / d)) + d := by
        have := Nat.mod_lt (n + d / 2) (by omega : d > 0)
        have e := Nat.div_add_mod (n + d / 2) d
        omega
      have h4 : (2 : ℚ) * n < 2 * (d * ((n + d / 2) / d : Nat)) + d := by exact_mod_cast h3
      linarith
  · refine ⟨(n + d - 1) / d, by unfold roundUpDivide; rw [if_neg hd], ?_, ?_⟩
    · rw [div_le_iff₀ hp]
      have h1 : n + d - 1 < d * ((n + d - 1) / d + 1) := Nat.lt_mul_div_succ _ (by omega)
      have h2 : n ≤ d * ((n + d - 1) / d) := by rw [Nat.mul_add] at h1; omega
      have h3 : (n : ℚ) ≤ d * ((n + d - 1) / d : Nat) := by exact_mod_cast h2
      linarith
    · rw [lt_div_iff₀ hp]
      have h1 : d * ((n + d - 1) / d) ≤ n + d - 1 := Nat.mul_div_le _ _
      have h2 : d * ((n + d - 1) / d) < n + d := by omega
      have h3 : (d : ℚ) * ((n + d - 1) / d : Nat) < n + d := by exact_mod_cast h2
      linarith

/-- **C53.** Dividing by zero is undefined behaviour in all five; the exception that the documentation
announces is never thrown. -/
theorem C53_zero (n : Int) (m : Nat) :
    roundDivideSigned n 0 = .ub ∧ ceilDivideSigned n 0 = .ub ∧ floorDivideSigned n 0 = .ub ∧
    roundDivide m 0 = .ub ∧ roundUpDivide m 0 = .ub := by
  simp [roundDivideSigned, ceilDivideSigned, floorDivideSigned, roundDivide, roundUpDivide]

/-! ### C52: raft layers -/

theorem filler_ok (r : RaftSettings) (hh : r.layerHeight ≠ 0) :
    fillerLayerCount r = .ok (((zdiff r).toNat + r.layerHeight / 2) / r.layerHeight) := by
  unfold fillerLayerCount roundDivide
  rw [if_neg hh]

theorem range_split (P : Nat → LayerType) (a b c d : Nat) (ta tb tc td : LayerType)
    (h1 : ∀ i, i < a → P i = ta) (h2 : ∀ i, a ≤ i → i < a + b → P i = tb)
    (h3 : ∀ i, a + b ≤ i → i < a + b + c → P i = tc)
    (h4 : ∀ i, a + b + c ≤ i → i < a + b + c + d → P i = td) :
    (List.range (a + b + c + d)).map P =
      List.replicate a ta ++ List.replicate b tb ++ List.replicate c tc ++ List.replicate d td := by
  apply List.ext_getElem
  · simp; omega
  · intro i hi hj
    simp only [List.length_map, List.length_range] at hi
    simp only [List.getElem_map, List.getElem_range, List.getElem_append, List.length_append,
      List.length_replicate, List.getElem_replicate]
    split_ifs with g1 g2 g3
    · exact h1 i (by omega)
    · exact h2 i (by omega) (by omega)
    · exact h3 i (by omega) (by omega)
    · exact h4 i (by omega) (by omega)

/-- **C52.** With a raft, the layers below the model are, from the build plate up: one base layer, the
configured number of interface layers, the configured number of surface layers, then the filler layers
that bridge the air gap; every layer from 0 up is a model layer. -/
theorem C52_order (r : RaftSettings) (hr : r.raft = true) (hh : r.layerHeight ≠ 0) :
    ∃ filler total, fillerLayerCount r = .ok filler ∧ totalExtraLayers r = .ok total ∧
      (List.range total).map (fun i : Nat => layerType r ((i : Int) - total)) =
        (List.replicate 1 LayerType.raftBase ++ List.replicate r.interfaceLayers LayerType.raftInterface ++
          List.replicate r.surfaceLayers LayerType.raftSurface ++
          List.replicate filler LayerType.airgap).map Outcome.ok ∧
      ∀ l : Int, 0 ≤ l → layerType r l = .ok .model := by
  refine ⟨_, 1 + r.interfaceLayers + r.surfaceLayers + ((zdiff r).toNat + r.layerHeight / 2) / r.layerHeight,
    filler_ok r hh, ?_, ?_, ?_⟩
  · unfold totalExtraLayers
    rw [filler_ok r hh]
    simp [Outcome.bind, baseLayers, interfaceLayers, surfaceLayers, hr]
  · generalize hF : ((zdiff r).toNat + r.layerHeight / 2) / r.layerHeight = F
    have hf := filler_ok r hh
    rw [hF] at hf
    have key : ∀ l : Int, layerType r l = .ok (
        if l < -((F + r.surfaceLayers + r.interfaceLayers : Nat) : Int) then .raftBase
        else if l < -((F + r.surfaceLayers : Nat) : Int) then .raftInterface
        else if l < -(F : Int) then .raftSurface
        else if l < 0 then .airgap
        else .model) := by
      intro l
      unfold layerType
      rw [hf]
      simp only [Outcome.bind, interfaceLayers, surfaceLayers, hr, if_true]
      split_ifs <;> rfl
    simp only [key]
    rw [← range_split (fun i : Nat =>
        if (i : Int) - (1 + r.interfaceLayers + r.surfaceLayers + F : Nat) <
          -((F + r.surfaceLayers + r.interfaceLayers : Nat) : Int) then .raftBase
        else if (i : Int) - (1 + r.interfaceLayers + r.surfaceLayers + F : Nat) <
          -((F + r.surfaceLayers : Nat) : Int) then .raftInterface
        else if (i : Int) - (1 + r.interfaceLayers + r.surfaceLayers + F : Nat) < -(F : Int) then .raftSurface
        else if (i : Int) - (1 + r.interfaceLayers + r.surfaceLayers + F : Nat) < 0 then .airgap
        else .model)]
    · rw [List.map_map]
      rfl
    · intro i hi
      rw [if_pos (by push_cast; omega)]
    · intro i h1 h2
      rw [if_neg (by push_cast; omega), if_pos (by push_cast; omega)]
    · intro i h1 h2
      rw [if_neg (by push_cast; omega), if_neg (by push_cast; omega), if_pos (by push_cast; omega)]
    · intro i h1 h2
      rw [if_neg (by push_cast; omega), if_neg (by push_cast; omega), if_neg (by push_cast; omega),
        if_pos (by push_cast; omega)]
  · intro l hl
    unfold layerType
    rw [filler_ok r hh]
    simp only [Outcome.bind]
    generalize ((zdiff r).toNat + r.layerHeight / 2) / r.layerHeight = F
    rw [if_neg (by omega), if_neg (by omega), if_neg (by omega), if_neg (by omega)]

/-- **C52.** Without a raft there are no extra layers, whatever the raft settings are. -/
theorem C52_no_raft (r : RaftSettings) (hr : r.raft = false) (hh : r.layerHeight ≠ 0) :
    totalExtraLayers r = .ok 0 ∧ fillerLayerCount r = .ok 0 ∧ fillerLayerHeight r = .ok r.layerHeight := by
  have hz : ((zdiff r).toNat + r.layerHeight / 2) / r.layerHeight = 0 := by
    unfold zdiff
    rw [hr]
    simp
    right
    omega
  have hf := filler_ok r hh
  rw [hz] at hf
  refine ⟨?_, hf, ?_⟩
  · unfold totalExtraLayers
    rw [hf]
    simp [Outcome.bind, baseLayers, interfaceLayers, surfaceLayers, hr]
  · unfold fillerLayerHeight
    rw [if_pos hr]

/-- **C52.** The number of filler layers is the one whose normal layer heights come nearest to the air
gap, and the height given to each of them is a nearest whole number of microns to the equal share of the
gap: together they miss the gap by at most half a micron per filler layer. If the gap is less than half a
layer there are no filler layers, and asking for their height is a division by zero. -/
theorem C52_filler (r : RaftSettings) (hr : r.raft = true) (hh : r.layerHeight ≠ 0) :
    ∃ filler, fillerLayerCount r = .ok filler ∧
      2 * |(filler : Int) * r.layerHeight - max 0 r.airgap| ≤ r.layerHeight ∧
      (filler ≠ 0 → ∃ h, fillerLayerHeight r = .ok h ∧
        2 * |(filler : Int) * h - max 0 r.airgap| ≤ filler) ∧
      (filler = 0 → fillerLayerHeight r = .ub) := by
  have near : ∀ a b : Nat, b ≠ 0 → 2 * |(((a + b / 2) / b : Nat) : Int) * b - a| ≤ b := by
    intro a b hb
    have e := Nat.div_add_mod (a + b / 2) b
    have l := Nat.mod_lt (a + b / 2) (Nat.pos_of_ne_zero hb)
    generalize (a + b / 2) / b = Q at *
    have e' : (b : Int) * Q + ((a + b / 2) % b : Nat) = a + (b / 2 : Nat) := by exact_mod_cast e
    rw [mul_comm (Q : Int)]
    rcases abs_cases ((b : Int) * Q - a) with ⟨h, _⟩ | ⟨h, _⟩ <;> rw [h] <;> omega
  have hz : ((zdiff r).toNat : Int) = max 0 r.airgap := by
    unfold zdiff
    rw [hr]
    simp
  refine ⟨_, filler_ok r hh, ?_, ?_, ?_⟩
  · rw [← hz]
    exact near _ _ hh
  · intro h0
    generalize hF : ((zdiff r).toNat + r.layerHeight / 2) / r.layerHeight = F at h0 ⊢
    refine ⟨((zdiff r).toNat + F / 2) / F, ?_, ?_⟩
    · unfold fillerLayerHeight
      rw [filler_ok r hh, hr, hF]
      simp only [Outcome.bind, roundDivide, if_neg h0]
      rfl
    · rw [← hz, mul_comm (F : Int)]
      exact near _ _ h0
  · intro h0
    unfold fillerLayerHeight
    rw [filler_ok r hh, h0, hr]
    rfl

example : totalExtraLayers ⟨true, 300, 200, 2, 3⟩ = .ok 8 ∧
    (List.range 9).map (fun i : Nat => layerType ⟨true, 300, 200, 2, 3⟩ ((i : Int) - 8)) =
      [.ok .raftBase, .ok .raftInterface, .ok .raftInterface, .ok .raftSurface, .ok .raftSurface,
        .ok .raftSurface, .ok .airgap, .ok .airgap, .ok .model] ∧
    fillerLayerHeight ⟨true, 300, 200, 2, 3⟩ = .ok 150 ∧
    fillerLayerHeight ⟨true, 50, 200, 2, 3⟩ = .ub := by decide

end Verif.Layers
