import Verif.Beading.LimitLemmas

/-! # Lemmas on the optimal number of beads -/

set_option linter.dupNamespace false

namespace Verif.Beading

theorem trunc_add_int (z : Int) (q : ℚ) (hz : 0 ≤ z) (hq : 0 ≤ q) : trunc ((z : ℚ) + q) = z + trunc q := by
  have : (0 : ℚ) ≤ z := by exact_mod_cast hz
  unfold trunc
  rw [if_pos (by linarith), if_pos hq, Int.floor_intCast_add]

/-- The threshold of the number of beads. -/
def thr (p : Params) (n : Int) : Int := trunc (p.innerWidth * (if n.tmod 2 = 1 then p.split else p.add))

theorem thr_bounds {p : Params} (hp : Sane p) (n : Int) : 0 ≤ thr p n ∧ thr p n ≤ p.innerWidth := by
  have hw : (0 : ℚ) < p.innerWidth := by exact_mod_cast hp.inner
  have hs := hp.split
  have ha := hp.add
  have h : (0 : ℚ) ≤ (if n.tmod 2 = 1 then p.split else p.add) ∧ (if n.tmod 2 = 1 then p.split else p.add) ≤ 1 := by
    split <;> assumption
  unfold thr
  generalize (if n.tmod 2 = 1 then p.split else p.add) = q at *
  refine ⟨trunc_nonneg (by nlinarith), ?_⟩
  have h1 : trunc ((p.innerWidth : ℚ) * q) ≤ trunc ((p.innerWidth : Int) : ℚ) := trunc_mono (by nlinarith)
  rwa [trunc_int] at h1

/-- The optimal number of beads of the distributed strategy. -/
def distCount (p : Params) (t : Int) : Int :=
  t / p.innerWidth + if thr p (t / p.innerWidth) ≤ t % p.innerWidth then 1 else 0

def distStrategy (p : Params) : Strategy := .distributed p.innerWidth p.split p.add p.radius

theorem optCount_dist {p : Params} (hp : Sane p) {t : Int} (ht : 0 ≤ t) : optCount (distStrategy p) t = .ok (distCount p t) := by
  have hw := hp.inner
  unfold distStrategy optCount distCount thr
  rw [if_neg (by omega)]
  have e1 : t.tdiv p.innerWidth = t / p.innerWidth := Int.tdiv_eq_ediv_of_nonneg ht
  have e2 : t - t / p.innerWidth * p.innerWidth = t % p.innerWidth := by rw [Int.emod_def]; ring
  simp only [e1, e2, ge_iff_le]

theorem transThickness_dist {p : Params} (hp : Sane p) {n : Int} (hn : 0 ≤ n) :
    transThickness (distStrategy p) n = p.innerWidth * n + thr p n := by
  have hw := hp.inner
  have hq : (0 : ℚ) < p.innerWidth := by exact_mod_cast hw
  unfold distStrategy transThickness thr
  have h : (0 : ℚ) ≤ (if n.tmod 2 = 1 then p.split else p.add) := by
    have hs := hp.split
    have ha := hp.add
    split
    · exact hs.1
    · exact ha.1
  generalize (if n.tmod 2 = 1 then p.split else p.add) = q at *
  have e : p.innerWidth * (n + 1) - p.innerWidth * n = p.innerWidth := by ring
  rw [e, trunc_add_int _ _ (by positivity) (by positivity), mul_comm q]

theorem distCount_bounds {p : Params} (hp : Sane p) {t : Int} (ht : 0 ≤ t) :
    0 ≤ distCount p t ∧ (distCount p t - 1) * p.innerWidth ≤ t := by
  have hw := hp.inner
  have h1 : 0 ≤ t / p.innerWidth := Int.ediv_nonneg ht (le_of_lt hw)
  have h2 : t / p.innerWidth * p.innerWidth ≤ t := Int.ediv_mul_le t (by omega)
  unfold distCount
  split
  · constructor
    · omega
    · rw [show t / p.innerWidth + 1 - 1 = t / p.innerWidth by omega]; exact h2
  · constructor
    · omega
    · nlinarith

/-- The number of beads passes `n` exactly at the transition thickness. -/
theorem distCount_iff {p : Params} (hp : Sane p) {t n : Int} (ht : 0 ≤ t) :
    n + 1 ≤ distCount p t ↔ p.innerWidth * n + thr p n ≤ t := by
  have hw := hp.inner
  have h1 : 0 ≤ t / p.innerWidth := Int.ediv_nonneg ht (le_of_lt hw)
  have h2 := Int.emod_add_mul_ediv t p.innerWidth
  have h3 := Int.emod_nonneg t (by omega : p.innerWidth ≠ 0)
  have h4 := Int.emod_lt_of_pos t hw
  have hb := thr_bounds hp n
  unfold distCount
  generalize t / p.innerWidth = q at *
  generalize t % p.innerWidth = r at *
  rcases lt_trichotomy n q with h | h | h
  · have : p.innerWidth * (n + 1) ≤ p.innerWidth * q := by nlinarith
    constructor
    · intro _; nlinarith
    · intro _; split <;> omega
  · subst h
    constructor
    · intro h5
      by_cases h6 : thr p n ≤ r
      · omega
      · rw [if_neg h6] at h5; omega
    · intro h5
      rw [if_pos (by omega)]
  · have : p.innerWidth * (q + 1) ≤ p.innerWidth * n := by nlinarith
    constructor
    · intro h5; split at h5 <;> omega
    · intro h5; exfalso; nlinarith

/-- The optimal number of beads with outer walls. -/
def coreCount (p : Params) (t : Int) : Int :=
  if (t : ℚ) < p.ratio * p.outerWidth then 0
  else if t ≤ 2 * p.outerWidth then (if (t : ℚ) > (1 + p.split) * p.outerWidth then 2 else 1)
  else distCount p (t - 2 * p.outerWidth) + 2

def coreStrategy (p : Params) : Strategy := .redistribute p.outerWidth p.ratio (distStrategy p)

theorem optCount_core {p : Params} (hp : Sane p) (t : Int) : optCount (coreStrategy p) t = .ok (coreCount p t) := by
  unfold coreStrategy optCount coreCount
  split
  · rfl
  · split
    · rfl
    · rw [optCount_dist hp (by omega)]; rfl

theorem coreCount_nonneg {p : Params} (hp : Sane p) (t : Int) : 0 ≤ coreCount p t := by
  unfold coreCount
  split
  · omega
  · split
    · split <;> omega
    · rename_i h
      have := distCount_bounds hp (t := t - 2 * p.outerWidth) (by omega)
      omega

theorem coreCount_fits {p : Params} (hp : Sane p) (t : Int) : Fits p t (coreCount p t) := by
  intro h
  unfold coreCount at *
  split at h
  · omega
  · split at h
    · split at h <;> omega
    · rename_i h1 h2
      rw [if_neg h1, if_neg h2]
      have := distCount_bounds hp (t := t - 2 * p.outerWidth) (by omega)
      have e : distCount p (t - 2 * p.outerWidth) + 2 - 3 = distCount p (t - 2 * p.outerWidth) - 1 := by omega
      rw [e]; omega

theorem transThickness_core {p : Params} (hp : Sane p) {n : Int} (hn : 0 ≤ n) :
    transThickness (coreStrategy p) n =
      if n = 0 then trunc (p.ratio * p.outerWidth) else if n = 1 then trunc ((1 + p.split) * p.outerWidth)
      else p.innerWidth * (n - 2) + thr p (n - 2) + 2 * p.outerWidth := by
  unfold coreStrategy transThickness
  split
  · rfl
  · split
    · rfl
    · rw [transThickness_dist hp (by omega)]

/-- The number of beads passes `n` at the transition thickness, up to that thickness itself. -/
theorem coreCount_iff {p : Params} (hp : Sane p) {t n : Int} (hn : 0 ≤ n) (hne : t ≠ transThickness (coreStrategy p) n) :
    n + 1 ≤ coreCount p t ↔ transThickness (coreStrategy p) n ≤ t := by
  have ho := hp.outer
  have hoq : (0 : ℚ) < p.outerWidth := by exact_mod_cast ho
  obtain ⟨hr0, hr1⟩ := hp.ratio
  obtain ⟨hs0, hs1⟩ := hp.split
  have hdb := fun h => (distCount_bounds hp (t := t - 2 * p.outerWidth) h).1
  have hr : 0 ≤ p.ratio * p.outerWidth := by positivity
  have hro : p.ratio * p.outerWidth ≤ p.outerWidth := by nlinarith
  have hs : 0 ≤ (1 + p.split) * p.outerWidth := by positivity
  have hso : (1 + p.split) * p.outerWidth ≤ 2 * p.outerWidth := by nlinarith
  have hso' : (p.outerWidth : ℚ) ≤ (1 + p.split) * p.outerWidth := by nlinarith
  rw [transThickness_core hp hn] at *
  have hcast : ∀ {a b : Int}, a ≤ b → (a : ℚ) ≤ b := fun h => by exact_mod_cast h
  by_cases h0 : n = 0
  · rw [if_pos h0] at *
    have hl := trunc_le hr
    have hu := lt_trunc_add hr
    subst h0
    constructor
    · intro h
      by_contra hc
      have : t + 1 ≤ trunc (p.ratio * p.outerWidth) := by omega
      have hc2 := hcast this
      push_cast at hc2
      unfold coreCount at h
      rw [if_pos (by linarith)] at h
      omega
    · intro h
      have : trunc (p.ratio * p.outerWidth) + 1 ≤ t := by omega
      have h2 := hcast this
      push_cast at h2
      unfold coreCount
      rw [if_neg (by linarith)]
      split
      · split <;> omega
      · have := hdb (by omega); omega
  · rw [if_neg h0] at *
    by_cases h1 : n = 1
    · rw [if_pos h1] at *
      have hl := trunc_le hs
      have hu := lt_trunc_add hs
      subst h1
      constructor
      · intro h
        by_contra hc
        have : t + 1 ≤ trunc ((1 + p.split) * p.outerWidth) := by omega
        have hc2 := hcast this
        push_cast at hc2
        have h2o : t ≤ 2 * p.outerWidth := by
          have : (t : ℚ) ≤ ((2 * p.outerWidth : Int) : ℚ) := by push_cast; linarith
          exact_mod_cast this
        unfold coreCount at h
        split at h
        · omega
        · rw [if_neg (by linarith)] at h; omega
      · intro h
        have : trunc ((1 + p.split) * p.outerWidth) + 1 ≤ t := by omega
        have h2 := hcast this
        push_cast at h2
        unfold coreCount
        rw [if_neg (by linarith)]
        split
        · rw [if_pos (by linarith)]; omega
        · have := hdb (by omega); omega
    · rw [if_neg h1] at *
      have hb := thr_bounds hp (n - 2)
      have hwn : 0 ≤ p.innerWidth * (n - 2) := Int.mul_nonneg (le_of_lt hp.inner) (by omega)
      have hi := fun h => distCount_iff hp (t := t - 2 * p.outerWidth) (n := n - 2) h
      constructor
      · intro h
        unfold coreCount at h
        split at h
        · omega
        · split at h
          · split at h <;> omega
          · have := (hi (by omega)).1 (by omega)
            omega
      · intro h
        have h2 : 2 * p.outerWidth < t := by omega
        have hq : (p.outerWidth : ℚ) ≤ t := hcast (by omega)
        unfold coreCount
        rw [if_neg (by linarith), if_neg (by omega)]
        have := (hi (by omega)).2 (by omega)
        omega

theorem coreCount_mono {p : Params} (hp : Sane p) {t t' : Int} (h : t ≤ t') : coreCount p t ≤ coreCount p t' := by
  have hq : (t : ℚ) ≤ t' := by exact_mod_cast h
  have hoq : (0 : ℚ) < p.outerWidth := by exact_mod_cast hp.outer
  have hs := hp.split
  have hdb := fun h => (distCount_bounds hp (t := t' - 2 * p.outerWidth) h).1
  have h0 := coreCount_nonneg hp t'
  unfold coreCount at *
  by_cases h1 : (t : ℚ) < p.ratio * p.outerWidth
  · rw [if_pos h1]; exact h0
  · rw [if_neg h1, if_neg (by linarith : ¬(t' : ℚ) < p.ratio * p.outerWidth)]
    by_cases h2 : t' ≤ 2 * p.outerWidth
    · rw [if_pos (by omega : t ≤ 2 * p.outerWidth), if_pos h2]
      by_cases h3 : (t : ℚ) > (1 + p.split) * p.outerWidth
      · rw [if_pos h3, if_pos (by linarith)]
      · rw [if_neg h3]; split <;> omega
    · rw [if_neg h2]
      have hd := hdb (by omega)
      split
      · split <;> omega
      · rename_i h3
        by_contra hc
        have hlt : distCount p (t' - 2 * p.outerWidth) + 1 ≤ distCount p (t - 2 * p.outerWidth) := by omega
        have hi1 := (distCount_iff hp (t := t - 2 * p.outerWidth) (by omega)).1 hlt
        have := (distCount_iff hp (t := t' - 2 * p.outerWidth) (n := distCount p (t' - 2 * p.outerWidth)) (by omega)).2 (by omega)
        omega

/-- The optimal number of beads with thin walls. -/
def thinCount (p : Params) (t : Int) : Int :=
  if p.thinWalls then (if t < p.minFeatureSize then 0 else max 1 (coreCount p t)) else coreCount p t

theorem optCount_stack {p : Params} (hp : Sane p) (t : Int) : optCount (stack p) t = .ok (thinCount p t) := by
  have h1 : optCount (thin p) t = .ok (thinCount p t) := by
    unfold thin thinCount
    split
    · unfold optCount
      split
      · rfl
      · have := optCount_core hp t
        unfold coreStrategy distStrategy at this
        rw [this]
        simp only [Outcome.bind, Outcome.ok.injEq]
        split <;> omega
    · exact optCount_core hp t
  have h2 : optCount (outerStack p) t = .ok (thinCount p t) := by
    unfold outerStack
    split
    · unfold optCount; exact h1
    · exact h1
  unfold stack
  split
  · unfold optCount; exact h2
  · exact h2

theorem transThickness_stack (p : Params) (n : Int) :
    transThickness (stack p) n = if p.thinWalls = true ∧ n = 0 then p.minFeatureSize else transThickness (coreStrategy p) n := by
  have h1 : transThickness (thin p) n = if p.thinWalls = true ∧ n = 0 then p.minFeatureSize else transThickness (coreStrategy p) n := by
    unfold thin
    cases h : p.thinWalls
    · simp only [Bool.false_eq_true, if_false, false_and]; rfl
    · simp only [if_true, true_and]
      conv_lhs => unfold transThickness
      rfl
  have h2 : transThickness (outerStack p) n = transThickness (thin p) n := by
    unfold outerStack
    split
    · conv_lhs => unfold transThickness
    · rfl
  have h3 : transThickness (stack p) n = transThickness (outerStack p) n := by
    unfold stack
    split
    · conv_lhs => unfold transThickness
    · rfl
  rw [h3, h2, h1]

/-- The optimal number of beads of the whole strategy. -/
def limCount (p : Params) (t : Int) : Int :=
  if thinCount p t ≤ p.maxCount then thinCount p t
  else if thinCount p t = p.maxCount + 1 then
    (if t < p.innerWidth * (p.maxCount - 1) + 2 * p.outerWidth - 10 then p.maxCount else p.maxCount + 1)
  else p.maxCount + 1

theorem optCount_make {p : Params} (hp : Sane p) (t : Int) : optCount (makeStrategy p) t = .ok (limCount p t) := by
  have := hp.max
  rw [makeStrategy_eq]
  unfold optCount limCount
  rw [optCount_stack hp, optThickness_stack p _ (by omega)]
  simp only [Outcome.bind]
  rw [show p.maxCount + 1 - 2 = p.maxCount - 1 by omega]
  split
  · rfl
  · split <;> rfl

theorem thinCount_iff {p : Params} (hp : Sane p)
    (hthin : p.thinWalls = true → p.minFeatureSize ≤ trunc ((1 + p.split) * p.outerWidth)) {t n : Int} (hn : 0 ≤ n)
    (hne : t ≠ transThickness (stack p) n) : n + 1 ≤ thinCount p t ↔ transThickness (stack p) n ≤ t := by
  have hw := hp.inner
  rw [transThickness_stack] at hne ⊢
  unfold thinCount
  by_cases hth : p.thinWalls = true
  · rw [if_pos hth]
    by_cases h0 : n = 0
    · have hc : p.thinWalls = true ∧ n = 0 := ⟨hth, h0⟩
      rw [if_pos hc] at hne ⊢
      split <;> omega
    · have hc : ¬(p.thinWalls = true ∧ n = 0) := fun h => h0 h.2
      rw [if_neg hc] at hne ⊢
      have hi := coreCount_iff hp hn hne
      have hmin : p.minFeatureSize ≤ transThickness (coreStrategy p) n := by
        rw [transThickness_core hp hn, if_neg h0]
        have h3 := hthin hth
        split
        · exact h3
        · have hb := thr_bounds hp (n - 2)
          have hwn : 0 ≤ p.innerWidth * (n - 2) := Int.mul_nonneg (le_of_lt hw) (by omega)
          have : trunc ((1 + p.split) * p.outerWidth) ≤ 2 * p.outerWidth := by
            have hoq : (0 : ℚ) < p.outerWidth := by exact_mod_cast hp.outer
            have := trunc_mono (q := (1 + p.split) * p.outerWidth) (r := ((2 * p.outerWidth : Int) : ℚ))
              (by push_cast; nlinarith [hp.split.2])
            rwa [trunc_int] at this
          omega
      split
      · omega
      · rw [← hi]; omega
  · have hc : ¬(p.thinWalls = true ∧ n = 0) := fun h => hth h.1
    rw [if_neg hc] at hne ⊢
    rw [if_neg hth]
    exact coreCount_iff hp hn hne

theorem transThickness_make {p : Params} (hp : Sane p) (n : Int) :
    transThickness (makeStrategy p) n =
      if n < p.maxCount then transThickness (stack p) n
      else if n = p.maxCount then p.innerWidth * (p.maxCount - 1) + 2 * p.outerWidth - 10 else 9000000 := by
  have := hp.max
  rw [makeStrategy_eq]
  conv_lhs => unfold transThickness
  split
  · rfl
  · split
    · rename_i h
      rw [optThickness_stack p _ (by omega), h, show p.maxCount + 1 - 2 = p.maxCount - 1 by omega]
    · rfl

/-! ## Widths at the optimal number of beads -/

theorem tmod_two {n : Int} (hn : 0 ≤ n) : n.tmod 2 = n % 2 := Int.tmod_eq_emod_of_nonneg hn

/-- The inner beads at no more than the optimal number. -/
theorem computeDist_min {p : Params} (hp : Sane p) {t n : Int} (ht : 0 ≤ t) (hn : 1 ≤ n) (h : n ≤ distCount p t) :
    ∀ x ∈ (computeDist p.innerWidth p.radius t n).widths, innerMin p n ≤ x := by
  have hw := hp.inner
  have hle := (distCount_iff hp (t := t) (n := n - 1) ht).1 (by omega)
  have hb := thr_bounds hp (n - 1)
  have hthr : innerMin p n = if n % 2 = 1 then thr p (n - 1) else (p.innerWidth + thr p (n - 1)) / 2 := by
    unfold innerMin thr
    rw [tmod_two (by omega : 0 ≤ n - 1)]
    by_cases ho : n % 2 = 1
    · rw [if_pos ho, if_pos ho, if_neg (by omega)]
    · rw [if_neg ho, if_neg ho, if_pos (by omega)]
  rw [hthr]
  unfold computeDist
  split
  · rename_i h2
    intro x hx
    have e : ((n.toNat : Nat) : Int) = n := by omega
    have h3 := distWidths_ge p.innerWidth p.radius t n.toNat x hx
    rw [e] at h3
    have e2 : p.innerWidth * (n - 1) = n * p.innerWidth - p.innerWidth := by ring
    split
    · omega
    · have h4 := distWidths_ge_half p.innerWidth p.radius t n.toNat (by omega) x hx
      rw [e] at h4
      omega
  · split
    · rename_i h2
      subst h2
      intro x hx
      simp at hx
      subst hx
      rw [if_neg (by omega)]
      have := tdiv_two t ht
      rw [this]
      omega
    · split
      · rename_i h1
        subst h1
        intro x hx
        simp at hx
        subst hx
        rw [if_pos (by omega)]
        omega
      · intro x hx; simp at hx

theorem core_min {p : Params} (hp : Sane p) {t n : Int} (ht : 0 ≤ t) (hn0 : 0 ≤ n) (hn : n ≤ max 1 (coreCount p t)) :
    ∀ x ∈ (core p t n).widths, minWidth p n ≤ x := by
  have ho := hp.outer
  have hoq : (0 : ℚ) < p.outerWidth := by exact_mod_cast ho
  obtain ⟨hr0, hr1⟩ := hp.ratio
  obtain ⟨hs0, hs1⟩ := hp.split
  have hro : p.ratio * p.outerWidth ≤ p.outerWidth := by nlinarith
  have hs : 0 ≤ (1 + p.split) * p.outerWidth := by positivity
  have hso : (1 + p.split) * p.outerWidth ≤ 2 * p.outerWidth := by nlinarith
  have htr : trunc ((1 + p.split) * p.outerWidth) ≤ 2 * p.outerWidth := by
    have := trunc_mono hso
    have e : trunc (2 * (p.outerWidth : ℚ)) = 2 * p.outerWidth := by
      rw [← trunc_int (2 * p.outerWidth)]; push_cast; rfl
    omega
  have hdb := fun h => (distCount_bounds hp (t := t - 2 * p.outerWidth) h).1
  intro x hx
  unfold core at hx
  split at hx
  · simp at hx
  rename_i h0
  push Not at h0
  obtain ⟨h0, h1⟩ := h0
  have ht2 := tdiv_two t ht
  unfold coreCount at hn
  rw [if_neg (by linarith)] at hn
  unfold minWidth
  split at hx
  · rename_i h2
    have e1 : ¬t ≤ 2 * p.outerWidth := by omega
    rw [if_neg e1] at hn
    have hd := hdb (by omega)
    rw [if_neg (by omega), if_neg (by omega)]
    unfold wrap at hx
    dsimp only at hx
    rw [if_pos (by omega), if_pos (by omega)] at hx
    have ea : min (t.tdiv 2) p.outerWidth = p.outerWidth := by omega
    rw [ea] at hx
    simp only [List.cons_append, List.mem_cons, List.mem_append, List.not_mem_nil, or_false] at hx
    rcases hx with rfl | hx | rfl
    · omega
    · have := computeDist_min hp (t := t - 2 * p.outerWidth) (n := n - 2) (by omega) (by omega) (by omega) x hx
      have e : innerMin p (n - 2) = innerMin p n := by
        unfold innerMin
        by_cases hq : n % 2 = 1
        · rw [if_pos hq, if_pos (by omega)]
        · rw [if_neg hq, if_neg (by omega)]
      omega
    · omega
  · rename_i h2
    unfold wrap at hx
    dsimp only at hx
    by_cases hn1 : n = 1
    · subst hn1
      rw [if_pos rfl]
      simp at hx
      subst hx
      exact Int.ceil_le.2 h1
    · rw [if_neg hn1]
      by_cases hn2 : n = 2
      · subst hn2
        rw [if_pos rfl]
        simp at hx
        subst hx
        rw [ht2]
        by_cases h3 : t ≤ 2 * p.outerWidth
        · rw [if_pos h3] at hn
          by_cases h4 : (t : ℚ) > (1 + p.split) * p.outerWidth
          · have h5 := trunc_le hs
            have h6 : (trunc ((1 + p.split) * p.outerWidth) : ℚ) ≤ t := by linarith
            have h7 : trunc ((1 + p.split) * p.outerWidth) ≤ t := by exact_mod_cast h6
            omega
          · rw [if_neg h4] at hn; omega
        · omega
      · exfalso
        split at hn
        · split at hn <;> omega
        · omega

theorem core_fill {p : Params} (hp : Sane p) {t n : Int} (ht : 0 ≤ t) (hn : 1 ≤ n) (hr : p.ratio * p.outerWidth ≤ t) :
    t ≤ (core p t n).widths.sum + n := by
  have ho := hp.outer
  have ht2 := tdiv_two t ht
  unfold core
  rw [if_neg (by push Not; exact ⟨by omega, hr⟩)]
  split
  · rename_i h
    have hd : t - 2 * p.outerWidth ≤ (computeDist p.innerWidth p.radius (t - 2 * p.outerWidth) (n - 2)).widths.sum + (n - 2) := by
      unfold computeDist
      split
      · have e : (((n - 2).toNat : Nat) : Int) = n - 2 := by omega
        obtain ⟨q1, q2⟩ := distWidths_sum p.innerWidth p.radius (t - 2 * p.outerWidth) (n := (n - 2).toNat) (by omega)
        rw [e] at q1 q2
        rcases le_total ((n - 2) * p.innerWidth) (t - 2 * p.outerWidth) with h3 | h3
        · exact (q1 h3).2
        · have := (q2 h3).1; dsimp only; omega
      · split
        · have := tdiv_two (t - 2 * p.outerWidth) (by omega)
          simp only [List.sum_cons, List.sum_nil]; omega
        · rw [if_pos (by omega)]; simp only [List.sum_cons, List.sum_nil]; omega
    unfold wrap
    dsimp only
    rw [if_pos (by omega), if_pos (by omega)]
    have ea : min (t.tdiv 2) p.outerWidth = p.outerWidth := by omega
    rw [ea]
    simp only [List.sum_cons, List.sum_append, List.sum_nil]
    omega
  · rename_i h
    unfold wrap
    dsimp only
    by_cases h1 : n = 1
    · subst h1; simp
    · by_cases h2 : n = 2
      · subst h2; simp; omega
      · have ea : min (t.tdiv 2) p.outerWidth = t.tdiv 2 := by omega
        rw [if_pos (by omega), if_pos (by omega), ea]
        simp only [List.sum_cons, List.sum_append, List.sum_nil]
        omega

end Verif.Beading
