import Verif.Beading.OptLemmas

/-! # C28 and C50: the lines that walls are made of

The strategy is always one that the factory builds (`makeStrategy`), for reasonable settings (`Sane`); `n` is the number of lines asked
for and `t` the thickness of the wall. -/

set_option linter.dupNamespace false

namespace Verif.Beading

/-- Two walls of 0.4 mm lines per side: what the default settings give. -/
def sample : Params :=
  { outerWidth := 400, innerWidth := 400, thinWalls := true, minBeadWidth := 340, minFeatureSize := 100, split := 7 / 10, add := 17 / 20,
    maxCount := 4, outerOffset := 0, innerOffset := 0, radius := 2, ratio := 1 / 2 }

/-- Five walls per side, no thin walls. -/
def sample10 : Params := { sample with maxCount := 10, thinWalls := false, innerWidth := 350 }

theorem sample_sane : Sane sample where
  outer := by decide
  inner := by decide
  ratio := by norm_num [sample]
  split := by norm_num [sample]
  add := by norm_num [sample]
  max := by decide
  even := by decide
  thin := by decide

theorem sample10_sane : Sane sample10 where
  outer := by decide
  inner := by decide
  ratio := by norm_num [sample10, sample]
  split := by norm_num [sample10, sample]
  add := by norm_num [sample10, sample]
  max := by decide
  even := by decide
  thin := by decide

/-! ## C28 -/

/-- C28, every computation is defined: as many locations as widths, the thickness that was asked for, widths that are the same from
either side. -/
theorem C28_shape {p : Params} (hp : Sane p) (t n : Int) :
    ∃ b, compute (makeStrategy p) t n = .ok b ∧ b.total = t ∧ b.locs.length = b.widths.length ∧ b.widths.reverse = b.widths := by
  by_cases hn : n ≤ p.maxCount
  · obtain ⟨b, h1, h2, _, h4⟩ := limit_under hp t hn
    refine ⟨b, h1, h2, ?_⟩
    have hs := base_symm p t n
    rcases h4 with ⟨hw, hl, _⟩ | ⟨A, x, B, C, w, D, hA, hC, hAC, hD, hl, hw, _⟩
    · rw [hw, hl, insetLocs_length, base_length]; exact ⟨rfl, hs⟩
    · have hlen : (insetLocs p t (base p t n)).length = (base p t n).widths.length := by rw [insetLocs_length, base_length]
      constructor
      · rw [hA, hC] at hlen
        rw [hl, hw]; simp at hlen ⊢; omega
      · rw [hC] at hs
        rw [hw]
        have e : D.reverse ++ (w :: C.reverse) = (C ++ [w]) ++ D := by simpa using hs
        obtain ⟨e1, e2⟩ := List.append_inj e (by simp [hD])
        rw [List.reverse_append, List.reverse_cons, List.reverse_cons, e1]
        rw [← e2]
        simp
  · obtain ⟨k, x, a, hk, _, _, h⟩ := limit_over hp t (by omega : p.maxCount < n)
    refine ⟨_, h, rfl, ?_, ?_⟩
    · simp [limitLocs, limitWidths]
    · simp

/-- C28: the left-over is exactly what the lines leave of the thickness, except for a thin wall that is widened. -/
theorem C28_left_over {p : Params} (hp : Sane p) {t n : Int} (h : ¬Thin p t ∨ p.maxCount < n) {b : Beading}
    (hb : compute (makeStrategy p) t n = .ok b) : b.leftOver = some (t - b.widths.sum) := by
  by_cases hn : n ≤ p.maxCount
  · have ht : ¬Thin p t := by rcases h with h | h; exact h; omega
    obtain ⟨b', h1, _, h3, h4⟩ := limit_under hp t hn
    rw [hb] at h1; cases h1
    have hbase : base p t n = core p t n := base_not_thin n ht
    rw [h3, hbase, core_leftOver, ← hbase]
    rcases h4 with ⟨hw, _⟩ | ⟨A, x, B, C, w, D, _, hC, _, _, _, hw, _⟩
    · rw [hw]
    · rw [hw, hC]; simp
  · obtain ⟨k, x, a, _, _, _, h⟩ := limit_over hp t (by omega : p.maxCount < n)
    rw [hb] at h; cases h
    unfold limitWidths
    simp
    ring

/-- C28: no line has a negative width, if the number of lines is at most one more than what fits. -/
theorem C28_widths {p : Params} (hp : Sane p) {t n : Int} (ht : 0 ≤ t) (hn : 0 ≤ n)
    (hf : Fits p t n ∨ t ≤ 2 * p.outerWidth ∨ p.maxCount < n) {b : Beading} (hb : compute (makeStrategy p) t n = .ok b) :
    ∀ w ∈ b.widths, 0 ≤ w := by
  by_cases hm : n ≤ p.maxCount
  · obtain ⟨b', h1, _, _, h4⟩ := limit_under hp t hm
    rw [hb] at h1; cases h1
    have hw : ∀ w ∈ (base p t n).widths, 0 ≤ w := by
      unfold base
      split
      · split
        · intro w hw; simp at hw; omega
        · intro w hw; simp at hw
      · exact core_nonneg hp ht hn (by rcases hf with h | h | h; exact Or.inl h; exact Or.inr h; omega)
    rcases h4 with ⟨hw', _⟩ | ⟨A, x, B, C, w, D, _, hC, _, _, _, hw', _⟩
    · rw [hw']; exact hw
    · rw [hw']
      rw [hC] at hw
      intro y hy
      simp only [List.mem_append, List.mem_cons] at hy
      rcases hy with hy | rfl | rfl | hy
      · exact hw y (by simp [hy])
      · exact hw y (by simp)
      · exact le_refl _
      · exact hw y (by simp [hy])
  · obtain ⟨k, x, a, _, _, _, h⟩ := limit_over hp t (by omega : p.maxCount < n)
    rw [hb] at h; cases h
    have hl : ∀ w ∈ limitWidths p k, 0 ≤ w := by
      intro w hw
      unfold limitWidths at hw
      rw [List.mem_cons, List.mem_replicate] at hw
      have := hp.outer
      have := hp.inner
      omega
    intro w hw
    simp only [List.mem_append, List.mem_reverse, List.mem_cons, List.not_mem_nil, or_false] at hw
    rcases hw with (hw | rfl | rfl) | hw
    · exact hl w hw
    · exact le_refl _
    · exact le_refl _
    · exact hl w hw

/-- C28, as far as it holds: the lines fill the thickness and do not exceed it, up to rounding of one unit per line; with up to four
lines, or when every line has its full width, they do not exceed it at all. Missing for the full property: with five or more squeezed
lines the widths can exceed the thickness, see `C28_overfull`. -/
theorem C28_fill_partial {p : Params} (hp : Sane p) {t n : Int} (ht : 0 ≤ t) (hn : 0 ≤ n) (hm : n ≤ p.maxCount) (hthin : ¬Thin p t)
    {b : Beading} (hb : compute (makeStrategy p) t n = .ok b) :
    b.widths.sum ≤ t + max 0 (n - 2) ∧
    (n ≤ 4 ∨ 2 * p.outerWidth + (n - 2) * p.innerWidth ≤ t → b.widths.sum ≤ t) ∧
    (1 ≤ n → p.ratio * p.outerWidth ≤ t → t ≤ b.widths.sum + n) := by
  obtain ⟨b', h1, _, _, h4⟩ := limit_under hp t hm
  rw [hb] at h1; cases h1
  have hbase := base_not_thin n hthin
  have hs : b.widths.sum = (core p t n).widths.sum := by
    rw [← hbase]
    rcases h4 with ⟨hw, _⟩ | ⟨A, x, B, C, w, D, _, hC, _, _, _, hw, _⟩
    · rw [hw]
    · rw [hw, hC]; simp
  rw [hs]
  obtain ⟨q1, q2⟩ := core_sum hp ht hn
  exact ⟨q1, q2, fun h1 h2 => core_fill hp ht h1 h2⟩

/-- C28: the widths can exceed the thickness: six lines in a wall that lacks one unit. All four inner widths are rounded up. -/
theorem C28_overfull : ∃ b, compute (makeStrategy sample10) 2199 6 = .ok b ∧ b.widths.sum = 2200 ∧ b.leftOver = some (-1) := by
  refine ⟨⟨2199, [400, 350, 350, 350, 350, 400], [200, 575, 925, 1275, 1625, 1999], some (-1)⟩, ?_, ?_, ?_⟩ <;> decide +kernel

/-- C28: widths below zero, for a number of lines that does not fit. -/
theorem C28_negative : ∃ b, compute (makeStrategy sample10) 1000 9 = .ok b ∧ ∃ w ∈ b.widths, w < 0 := by
  refine ⟨⟨1000, [400, 350, 350, 350, -1900, 350, 350, 350, 400], [200, 575, 925, 1275, 500, -275, 75, 425, 800], some 0⟩, ?_, ?_⟩ <;>
    decide +kernel

/-- C28, thin walls: a wall thinner than a line becomes one line of the whole thickness, or of the minimum width if that is more; below
the minimum feature size it is left out. -/
theorem C28_thin {p : Params} (hp : Sane p) {t n : Int} (ht : Thin p t) (hm : n ≤ p.maxCount) :
    ∃ b, compute (makeStrategy p) t n = .ok b ∧
      (p.minFeatureSize ≤ t → b.widths = [max t p.minBeadWidth] ∧ b.locs = [t.tdiv 2]) ∧ (t < p.minFeatureSize → b.widths = []) := by
  obtain ⟨b, h1, _, _, h4⟩ := limit_under hp t hm
  refine ⟨b, h1, ?_⟩
  have h2 := hp.max
  have hb := base_thin n ht
  by_cases hf : t ≥ p.minFeatureSize
  · rw [if_pos hf] at hb
    rcases h4 with ⟨hw, hl, _⟩ | ⟨A, x, B, C, w, D, _, hC, _, _, _, hw, hlen⟩
    · refine ⟨fun _ => ⟨by rw [hw, hb], ?_⟩, fun h => by omega⟩
      rw [hl, hb]
      unfold insetLocs
      rw [if_pos]
      have := List.countP_le_length (p := fun w : Int => decide (0 < w)) (l := [max t p.minBeadWidth])
      simp only [List.length_cons, List.length_nil] at this
      dsimp only
      omega
    · rw [hb] at hlen; simp at hlen; omega
  · rw [if_neg hf] at hb
    rcases h4 with ⟨hw, hl, _⟩ | ⟨A, x, B, C, w, D, _, hC, _, _, _, hw, hlen⟩
    · exact ⟨fun h => by omega, fun _ => by rw [hw, hb]⟩
    · rw [hb] at hlen; simp at hlen; omega

/-- C28: neighbouring lines do not overlap, apart from rounding and from what the lines exceed the thickness by; without insets, which
move lines on purpose. -/
theorem C28_apart {p : Params} (hp : Sane p) (ho : p.outerOffset ≤ 0) (hi : p.innerOffset = 0) {t n k : Int} (ht : 0 ≤ t) (hn : 0 ≤ n)
    (hm : n ≤ p.maxCount) (hthin : ¬Thin p t) (hk : 0 ≤ k) {b : Beading} (hb : compute (makeStrategy p) t n = .ok b)
    (hnn : ∀ w ∈ b.widths, 0 ≤ w) (hs : b.widths.sum ≤ t + k) :
    (b.locs.zip b.widths).IsChain (Apart (2 * k + 1)) := by
  obtain ⟨b', h1, _, _, h4⟩ := limit_under hp t hm
  rw [hb] at h1; cases h1
  have hbase := base_not_thin n hthin
  have hins : insetLocs p t (core p t n) = (core p t n).locs := by
    unfold insetLocs
    split
    · rfl
    · cases (core p t n).locs with
      | nil => rfl
      | cons l ls => simp [hi]; omega
  rw [hbase] at h4
  rw [hins] at h4
  rcases h4 with ⟨hw, hl, _⟩ | ⟨A, x, B, C, w, D, hA, hC, hAC, hD, hl, hw, _⟩
  · rw [hw] at hnn hs
    rw [hw, hl]
    exact core_apart hp ht hn hk hnn hs
  · have hnn' : ∀ y ∈ (core p t n).widths, 0 ≤ y := by
      intro y hy
      refine hnn y ?_
      rw [hC] at hy
      rw [hw]
      simp only [List.mem_append, List.mem_cons] at hy ⊢
      tauto
    have hs' : (core p t n).widths.sum ≤ t + k := by
      rw [hw] at hs; rw [hC]; simpa using hs
    have hc := core_apart hp ht hn hk hnn' hs'
    unfold Beading.pairs at hc
    rw [hA, hC, List.zip_append hAC, List.zip_cons_cons, List.isChain_append] at hc
    obtain ⟨c1, c2, c3⟩ := hc
    rw [hl, hw, List.zip_append hAC, List.zip_cons_cons, List.zip_cons_cons, List.isChain_append]
    have hw0 : 0 ≤ w := hnn w (by rw [hw]; simp)
    have hw2 := tdiv_two w hw0
    refine ⟨c1, ?_, by simpa using c3⟩
    rw [List.isChain_cons_cons]
    constructor
    · unfold Apart; dsimp only; omega
    · rw [List.isChain_cons] at c2 ⊢
      refine ⟨?_, c2.2⟩
      intro y hy
      have := c2.1 y hy
      unfold Apart at *
      dsimp only at *
      omega

/-- C28: asked for more lines than allowed, the wall gets the allowed number: half of them from either side, at their full widths, each
touching the previous one; two lines of no width mark where the inner area begins, and the rest of the thickness is left over. -/
theorem C28_limit {p : Params} (hp : Sane p) (t : Int) {n : Int} (hn : p.maxCount < n) :
    ∃ (k : Nat) (x a : Int), p.maxCount = 2 * ((k : Int) + 1) ∧ (limitLocs p k).getLast? = some x ∧
      (limitWidths p k).getLast? = some a ∧
      compute (makeStrategy p) t n = .ok
        { total := t
          widths := limitWidths p k ++ [0, 0] ++ (limitWidths p k).reverse
          locs := limitLocs p k ++ [x + a.tdiv 2, t - x - a.tdiv 2] ++ (limitLocs p k).reverse.map (t - ·)
          leftOver := some (t - (p.innerWidth * (2 * k) + 2 * p.outerWidth)) } :=
  limit_over hp t hn

/-- The computation is undefined when no or one line is allowed. -/
theorem C28_max_zero : compute (makeStrategy { sample with maxCount := 0 }) 1000 2 = .ub ∧
    compute (makeStrategy { sample with maxCount := 1 }) 1000 2 = .ub := by
  constructor <;> decide +kernel

/-- The computation is undefined for a single wall with thin walls allowed, if the inner lines are more than twice as wide as the outer
ones: the left-over of the widened line is not initialised. -/
theorem C28_thin_single_wall :
    compute (makeStrategy { sample with maxCount := 2, innerWidth := 900 }) 2000 3 = .ub := by decide +kernel

/-- The hypotheses are met: four lines, more than allowed, a thin wall. -/
example : compute (makeStrategy sample) 1500 4 = .ok ⟨1500, [400, 350, 0, 350, 400], [200, 575, 750, 925, 1300], some 0⟩ ∧
    ¬Thin sample 1500 ∧ Fits sample 1500 4 := by
  refine ⟨by decide +kernel, ?_, ?_⟩
  · unfold Thin; decide
  · unfold Fits; omega

example : compute (makeStrategy sample) 3000 5 =
    .ok ⟨3000, [400, 400, 0, 0, 400, 400], [200, 600, 800, 2200, 2400, 2800], some 1400⟩ := by decide +kernel

example : compute (makeStrategy sample) 200 1 = .ok ⟨200, [340], [100], none⟩ ∧ Thin sample 200 := by
  refine ⟨by decide +kernel, ?_⟩
  unfold Thin sample; decide

example : compute (makeStrategy sample10) 2000 6 =
      .ok ⟨2000, [400, 350, 250, 250, 350, 400], [200, 575, 875, 1125, 1425, 1800], some 0⟩ ∧
    Fits sample10 2000 6 ∧ ¬Thin sample10 2000 := by
  refine ⟨by decide +kernel, ?_, ?_⟩
  · unfold Fits; decide
  · unfold Thin sample10; simp

/-! ## C50 -/

/-- C50: the optimal number of lines is defined, not negative, and at most one more than allowed. -/
theorem C50_count {p : Params} (hp : Sane p) (t : Int) :
    ∃ c, optCount (makeStrategy p) t = .ok c ∧ 0 ≤ c ∧ c ≤ p.maxCount + 1 := by
  have hm := hp.max
  have h0 := coreCount_nonneg hp t
  refine ⟨_, optCount_make hp t, ?_⟩
  have : 0 ≤ thinCount p t := by
    unfold thinCount
    split
    · split <;> omega
    · exact h0
  unfold limCount
  split
  · omega
  · split
    · split <;> omega
    · omega

theorem limCount_le {p : Params} (t : Int) : limCount p t ≤ thinCount p t := by
  unfold limCount
  split
  · omega
  · split
    · split <;> omega
    · omega

theorem thinCount_mono {p : Params} (hp : Sane p) {t t' : Int} (h : t ≤ t') : thinCount p t ≤ thinCount p t' := by
  have := coreCount_mono hp h
  unfold thinCount
  split
  · split
    · split <;> omega
    · rw [if_neg (by omega)]; omega
  · exact this

/-- C50: a thicker wall never gets fewer lines. -/
theorem C50_monotone {p : Params} (hp : Sane p) {t t' c c' : Int} (h : t ≤ t') (hc : optCount (makeStrategy p) t = .ok c)
    (hc' : optCount (makeStrategy p) t' = .ok c') : c ≤ c' := by
  rw [optCount_make hp] at hc hc'
  cases hc; cases hc'
  have hm := thinCount_mono hp h
  unfold limCount
  by_cases h1 : thinCount p t' ≤ p.maxCount
  · rw [if_pos (by omega), if_pos h1]; exact hm
  · rw [if_neg h1]
    by_cases h2 : thinCount p t ≤ p.maxCount
    · rw [if_pos h2]; split
      · split <;> omega
      · omega
    · rw [if_neg h2]
      by_cases h3 : thinCount p t' = p.maxCount + 1
      · rw [if_pos h3, if_pos (by omega)]
        split
        · split <;> omega
        · rw [if_neg (by omega)]
      · rw [if_neg h3]; split
        · split <;> omega
        · omega

/-- C50: the number of lines becomes more than `n` at the thickness that the strategy reports for the transition from `n` to `n + 1`
lines; whether exactly at that thickness or one unit above it is left open. For the transition at the limit it is required that a line is
added at the latest ten units below its full width (otherwise the two differ by some units), and for thin walls that the minimum feature
size is below the thickness at which a line is split. -/
theorem C50_transition {p : Params} (hp : Sane p) {t n c : Int} (hn : 0 ≤ n) (hm : n ≤ p.maxCount)
    (hadd : n = p.maxCount → trunc (p.innerWidth * p.add) + 10 ≤ p.innerWidth)
    (hthin : p.thinWalls = true → p.minFeatureSize ≤ trunc ((1 + p.split) * p.outerWidth))
    (hc : optCount (makeStrategy p) t = .ok c) (hne : t ≠ transThickness (makeStrategy p) n) :
    n + 1 ≤ c ↔ transThickness (makeStrategy p) n ≤ t := by
  have h2 := hp.max
  have he := hp.even
  have hw := hp.inner
  rw [optCount_make hp] at hc
  cases hc
  have hstack := fun n' hn' => thinCount_iff hp hthin (t := t) (n := n') hn'
  rw [transThickness_make hp] at hne ⊢
  by_cases hlt : n < p.maxCount
  · rw [if_pos hlt] at hne ⊢
    rw [← hstack n hn hne]
    unfold limCount
    split
    · rfl
    · split
      · split <;> omega
      · omega
  · have hnm : n = p.maxCount := by omega
    rw [if_neg hlt, if_pos hnm] at hne ⊢
    subst hnm
    have hthr : thr p (p.maxCount - 2) = trunc (p.innerWidth * p.add) := by
      unfold thr; rw [tmod_two (by omega), if_neg (by omega)]
    have hstk : transThickness (stack p) p.maxCount =
        p.innerWidth * (p.maxCount - 2) + trunc (p.innerWidth * p.add) + 2 * p.outerWidth := by
      rw [transThickness_stack, if_neg (by omega), transThickness_core hp (by omega), if_neg (by omega), if_neg (by omega), hthr]
    have hstk1 : transThickness (stack p) (p.maxCount + 1) =
        p.innerWidth * (p.maxCount - 1) + thr p (p.maxCount - 1) + 2 * p.outerWidth := by
      rw [transThickness_stack, if_neg (by omega), transThickness_core hp (by omega), if_neg (by omega), if_neg (by omega),
        show p.maxCount + 1 - 2 = p.maxCount - 1 by omega]
    have hb := thr_bounds hp (p.maxCount - 1)
    have e2 : p.innerWidth * (p.maxCount - 1) = p.innerWidth * (p.maxCount - 2) + p.innerWidth := by ring
    have ha := hadd rfl
    constructor
    · intro h
      unfold limCount at h
      split at h
      · omega
      · split at h
        · split at h <;> omega
        · rename_i h3 h4
          by_cases hq : t = transThickness (stack p) (p.maxCount + 1)
          · omega
          · have := (hstack (p.maxCount + 1) (by omega) hq).1 (by omega)
            omega
    · intro h
      have := (hstack p.maxCount (by omega) (by omega)).2 (by omega)
      unfold limCount
      rw [if_neg (by omega)]
      split
      · rw [if_neg (by omega)]
      · omega

/-- C50: the optimal number of lines fits, so that no line has a negative width (`C28_widths`). -/
theorem C50_fits {p : Params} (hp : Sane p) {t c : Int} (hc : optCount (makeStrategy p) t = .ok c) : Fits p t c := by
  rw [optCount_make hp] at hc
  cases hc
  have hw := hp.inner
  have h1 := coreCount_fits hp t
  have h2 := limCount_le (p := p) t
  intro h5
  have h3 : limCount p t ≤ coreCount p t := by
    unfold thinCount at h2
    split at h2
    · split at h2 <;> omega
    · exact h2
  have h4 := h1 (by omega)
  nlinarith

/-- C50: at the optimal number of lines no line is narrower than the settings allow (`minWidth`); lines of no width are the markers of
the inner area. -/
theorem C50_min_width {p : Params} (hp : Sane p) {t c : Int} (ht : 0 ≤ t) (hthin : ¬Thin p t) (hc : optCount (makeStrategy p) t = .ok c)
    {b : Beading} (hb : compute (makeStrategy p) t c = .ok b) : ∀ w ∈ b.widths, w = 0 ∨ minWidth p c ≤ w := by
  obtain ⟨c', hc', h0, _⟩ := C50_count hp t
  rw [hc] at hc'; cases hc'
  have hle : c ≤ max 1 (coreCount p t) := by
    rw [optCount_make hp] at hc
    cases hc
    have h2 := limCount_le (p := p) t
    unfold thinCount at h2
    split at h2
    · split at h2 <;> omega
    · omega
  by_cases hm : c ≤ p.maxCount
  · obtain ⟨b', h1, _, _, h4⟩ := limit_under hp t hm
    rw [hb] at h1; cases h1
    have hbase := base_not_thin c hthin
    have hcm := core_min hp ht h0 hle
    rw [← hbase] at hcm
    rcases h4 with ⟨hw, _⟩ | ⟨A, x, B, C, w, D, _, hC, _, _, _, hw, _⟩
    · rw [hw]; exact fun w hx => Or.inr (hcm w hx)
    · rw [hC] at hcm
      rw [hw]
      intro y hy
      simp only [List.mem_append, List.mem_cons] at hy
      rcases hy with hy | rfl | rfl | hy
      · exact Or.inr (hcm y (by simp [hy]))
      · exact Or.inr (hcm y (by simp))
      · exact Or.inl rfl
      · exact Or.inr (hcm y (by simp [hy]))
  · obtain ⟨k, x, a, hk, _, _, h⟩ := limit_over hp t (by omega : p.maxCount < c)
    rw [hb] at h; cases h
    have hmw : minWidth p c ≤ p.outerWidth ∧ minWidth p c ≤ p.innerWidth := by
      have ho := hp.outer
      have hb1 := thr_bounds hp 0
      have hb2 := thr_bounds hp 1
      have e1 : thr p 0 = trunc (p.innerWidth * p.add) := by unfold thr; simp
      have e2 : thr p 1 = trunc (p.innerWidth * p.split) := by unfold thr; simp
      have h2 := hp.max
      unfold minWidth innerMin
      rw [if_neg (by omega), if_neg (by omega)]
      split <;> omega
    have hl : ∀ w ∈ limitWidths p k, minWidth p c ≤ w := by
      intro w hw
      unfold limitWidths at hw
      rw [List.mem_cons, List.mem_replicate] at hw
      rcases hw with rfl | ⟨_, rfl⟩
      · exact hmw.1
      · exact hmw.2
    intro w hw
    simp only [List.mem_append, List.mem_reverse, List.mem_cons, List.not_mem_nil, or_false] at hw
    rcases hw with (hw | rfl | rfl) | hw
    · exact Or.inr (hl w hw)
    · exact Or.inl rfl
    · exact Or.inl rfl
    · exact Or.inr (hl w hw)

/-- The hypotheses are met, and the counts change where they should. -/
example : optCount (makeStrategy sample10) 2094 = .ok 5 ∧ optCount (makeStrategy sample10) 2095 = .ok 6 ∧
    transThickness (makeStrategy sample10) 5 = 2095 ∧ ¬Thin sample10 2095 ∧ minWidth sample10 6 = 297 ∧
    compute (makeStrategy sample10) 2095 6 =
      .ok ⟨2095, [400, 350, 298, 298, 350, 400], [200, 575, 899, 1197, 1521, 1895], some (-1)⟩ := by
  refine ⟨by decide +kernel, by decide +kernel, by decide +kernel, ?_, by decide +kernel, by decide +kernel⟩
  unfold Thin sample10; simp

end Verif.Beading
