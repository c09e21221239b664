import Verif.Seam.Lemmas

/-! # The best of some candidates, and the seam: the properties -/

namespace Verif.Seam

variable {K : Type} [Field K] [LinearOrder K] [IsStrictOrderedRing K]

/-! ## C135: the best candidate -/

/-- **C135.** Of one or more candidates one is chosen, and it may be chosen according to the specification: each pass
keeps all candidates that are within its threshold of the best, and only such within twice the threshold. -/
theorem C135_chosen_partial (eps : K) (passes : List (Pass K)) (hd : ∀ p ∈ passes, 0 ≤ p.threshold + eps) (count : ℕ)
    (hc : 0 < count) : ∃ i, findBest eps passes count = some i ∧
      Spec.Chosen (passes.map fun p => (Spec.total p.criteria, p.threshold + eps)) (fun i => i < count) i := by
  have hids : ids ((List.range count).map fun i => (⟨i, 0⟩ : Cand K)) = fun i => i < count := by
    funext i
    apply propext
    unfold ids
    simp
  obtain ⟨i, h1, h2⟩ := passLoop_chosen eps passes hd ((List.range count).map fun i => (⟨i, 0⟩ : Cand K)) (by
    intro h
    have := congrArg List.length h
    simp at this
    omega)
  rw [hids] at h2
  exact ⟨i, h1, h2⟩

omit [IsStrictOrderedRing K] in
/-- **C135.** Of no candidates none is chosen. -/
theorem C135_none (eps : K) (passes : List (Pass K)) : findBest eps passes 0 = none := by
  cases passes with
  | nil => rfl
  | cons p l => rfl

omit [IsStrictOrderedRing K] in
/-- **C135.** With a single pass the first candidate with the highest score is chosen. -/
theorem C135_single (eps : K) (p : Pass K) (count : ℕ) (hc : 0 < count) :
    ∃ i, findBest eps [p] count = some i ∧ Spec.FirstBest (Spec.total p.criteria) count i := by
  obtain ⟨b, h1, h2, h3, h4⟩ := findBest_one eps p count hc
  exact ⟨b, h1, h2, h3, h4⟩

/-- **C135.** Whatever passes follow, the chosen candidate is within twice the threshold of the best of the first pass. -/
theorem C135_within_twice_partial (eps : K) (p : Pass K) (rest : List (Pass K))
    (hd : ∀ q ∈ p :: rest, 0 ≤ q.threshold + eps) (count : ℕ) (hc : 0 < count) :
    ∃ i, findBest eps (p :: rest) count = some i ∧ i < count ∧
      ∀ j, j < count → Spec.total p.criteria j ≤ Spec.total p.criteria i + 2 * (p.threshold + eps) := by
  obtain ⟨i, h1, h2⟩ := C135_chosen_partial eps (p :: rest) hd count hc
  refine ⟨i, h1, ?_⟩
  cases rest with
  | nil =>
    obtain ⟨h3, h4⟩ := h2
    exact ⟨h3, fun j hj => by linarith [h4 j hj, hd p (by simp)]⟩
  | cons q rest =>
    obtain ⟨T, h3, h4⟩ := h2
    exact h3.1 i (chosen_mem _ _ _ h4)

/-- **C135.** With two passes the second one decides among all candidates that are within the threshold of the best:
none of these is better than the chosen one. -/
theorem C135_second_pass (eps : K) (p q : Pass K) (hp : 0 ≤ p.threshold + eps) (hq : 0 ≤ q.threshold + eps) (count : ℕ)
    (hc : 0 < count) : ∃ i, findBest eps [p, q] count = some i ∧
      ∀ j, j < count → (∀ k, k < count → Spec.total p.criteria k ≤ Spec.total p.criteria j + (p.threshold + eps)) →
        Spec.total q.criteria j ≤ Spec.total q.criteria i := by
  obtain ⟨i, h1, T, h2, h3⟩ := C135_chosen_partial eps [p, q] (by simp [hp, hq]) count hc
  exact ⟨i, h1, fun j hj hn => h3.2 j (h2.2 j hj hn)⟩

/-- **C135.** If all candidates before the first best one are within the threshold of it, then the chosen one is within
the threshold of the best. -/
theorem C135_exact (eps : K) (p : Pass K) (rest : List (Pass K)) (hd : ∀ q ∈ p :: rest, 0 ≤ q.threshold + eps)
    (count best : ℕ) (hbest : Spec.FirstBest (Spec.total p.criteria) count best)
    (hpre : ∀ j, j < best → Spec.total p.criteria best ≤ Spec.total p.criteria j + (p.threshold + eps)) :
    ∃ i, findBest eps (p :: rest) count = some i ∧ i < count ∧
      ∀ j, j < count → Spec.total p.criteria j ≤ Spec.total p.criteria i + (p.threshold + eps) := by
  have hd0 := hd p (by simp)
  cases rest with
  | nil =>
    obtain ⟨i, h1, h2, h3, _⟩ := C135_single eps p count (by have := hbest.1; omega)
    exact ⟨i, h1, h2, fun j hj => by linarith [h3 j hj]⟩
  | cons q rest =>
    obtain ⟨b, v, hbl, hv, hfind⟩ := findBest_cons eps p q rest count (by have := hbest.1; omega)
    obtain ⟨h1, h2, h3⟩ := hbl
    have hb := ((hv b _).1 h1).1
    have hbb : b = best := by
      rcases lt_trichotomy b best with h | h | h
      · have h4 := hbest.2.2 b h
        have h5 := h2 best _ ((hv best _).2 ⟨hbest.1, rfl⟩)
        exact absurd h4 (not_lt.2 h5)
      · exact h
      · have h4 := hbest.2.1 b hb
        have h5 := h3 best _ h ((hv best _).2 ⟨hbest.1, rfl⟩)
        exact absurd h5 (not_lt.2 h4)
    subst hbb
    have hM : ∀ c ∈ v, c.score ≤ Spec.total p.criteria b := by
      intro c hc
      obtain ⟨k, hk⟩ := List.mem_iff_getElem?.1 hc
      exact h2 k c hk
    obtain ⟨k1, k2⟩ := removeIf_kept (p.threshold + eps) b v (Spec.total p.criteria b) (Spec.total p.criteria b) hd0 hM
      ⟨_, h1, rfl⟩ (Or.inr ⟨le_refl _, fun j c hj hjc => by
        obtain ⟨_, rfl⟩ := (hv j c).1 hjc
        have := hpre j hj
        simp only
        linarith⟩)
    obtain ⟨i, hi, c, hc, rfl⟩ := hfind hd (List.ne_nil_of_mem (k2 _ (List.mem_of_getElem? h1) (by simp only; linarith)))
    obtain ⟨hcv, hcs⟩ := k1 c hc
    obtain ⟨k, hk⟩ := List.mem_iff_getElem?.1 hcv
    obtain ⟨hkc, rfl⟩ := (hv k c).1 hk
    refine ⟨_, hi, hkc, fun j hj => ?_⟩
    have := hbest.2.1 j hj
    simp only at hcs ⊢
    linarith

/-- The scores of the counterexample: the second candidate is the best, the last one is not within 0.05 of it. -/
def scoresA : ℕ → ℚ := fun i => [0, 1, 97 / 100, 93 / 100].getD i 0

/-- **C135.** Counterexample to the full property (that only candidates within the threshold of the best stay): while
the candidates are removed the best one is moved, and the others are compared with the one that took its place. -/
theorem C135_threshold_counterexample : ¬ ∀ (eps : ℚ) (p q : Pass ℚ) (count i : ℕ), 0 ≤ eps → 0 ≤ p.threshold →
    0 ≤ q.threshold → findBest eps [p, q] count = some i →
      ∀ j, j < count → Spec.total p.criteria j ≤ Spec.total p.criteria i + (p.threshold + eps) := by
  intro h
  have h1 := h (1 / 2 ^ 52) ⟨[(scoresA, 1)], 1 / 20⟩ ⟨[(fun i => i, 1)], 0⟩ 4 3 (by norm_num) (by norm_num) (by norm_num)
    (by decide +kernel) 1 (by norm_num)
  revert h1
  decide +kernel

/-! ## C136: the start of a path -/

theorem main_bounds (p : Path K) (hp : Sane p) (i : ℕ) : 0 ≤ mainScore p i ∧ mainScore p i ≤ 1 := by
  unfold mainScore mainCriterion
  cases p.forced with
  | some f => exact distanceScore_bounds 1 (by norm_num) _ (hp.between f i)
  | none =>
    cases p.type with
    | random => exact hp.random i
    | shortest => exact distanceScore_bounds 20 (by norm_num) _ (hp.target i)
    | userSpecified => exact distanceScore_bounds 20 (by norm_num) _ (hp.target i)
    | plugin => exact ⟨le_refl _, zero_le_one⟩
    | sharpestCorner =>
      cases p.corner with
      | plugin => exact ⟨le_refl _, zero_le_one⟩
      | inner => exact cornerScore_bounds .inner _ (hp.angle i).1 (hp.angle i).2
      | outer => exact cornerScore_bounds .outer _ (hp.angle i).1 (hp.angle i).2
      | any => exact cornerScore_bounds .any _ (hp.angle i).1 (hp.angle i).2
      | weighted => exact cornerScore_bounds .weighted _ (hp.angle i).1 (hp.angle i).2

/-- **C136.** A vertex of the path is chosen. -/
theorem C136_in_range (eps : K) (he : 0 ≤ eps) (p : Path K) (hs : 0 < p.size) : startClosed eps p < p.size :=
  (start_slack eps he p hs).1

/-- **C136.** The seam is not at an overhanging vertex if a vertex with the same paint does not overhang. -/
theorem C136_overhang_avoided (eps : K) (he : 0 ≤ eps) (he' : eps ≤ 1 / 100) (p : Path K) (hp : Sane p) (j : ℕ)
    (hj : j < p.size) (hpaint : paint p j = paint p (startClosed eps p)) (ho : overhanging p j = false) :
    overhanging p (startClosed eps p) = false := by
  have h := (start_slack eps he p (by omega)).2 j hj
  have h1 := main_bounds p hp j
  have h2 := main_bounds p hp (startClosed eps p)
  by_contra hne
  have hne : overhanging p (startClosed eps p) = true := by simpa using hne
  rw [hpaint, ho, hne] at h
  simp only [overhangScore, if_true, Bool.false_eq_true, if_false] at h
  linarith

/-- **C136.** The paint on the model decides: no vertex that overhangs as much as the chosen one has better paint. -/
theorem C136_painted (eps : K) (he : 0 ≤ eps) (he' : eps ≤ 1 / 100) (p : Path K) (hp : Sane p) (j : ℕ)
    (hj : j < p.size) (ho : overhanging p j = overhanging p (startClosed eps p)) :
    rank (paint p j) ≤ rank (paint p (startClosed eps p)) := by
  have h := (start_slack eps he p (by omega)).2 j hj
  have h1 := main_bounds p hp j
  have h2 := main_bounds p hp (startClosed eps p)
  rw [ho] at h
  generalize paint p j = a at h ⊢
  generalize paint p (startClosed eps p) = b at h ⊢
  rcases a with _ | (_ | _ | _) <;> rcases b with _ | (_ | _ | _) <;> simp only [rank, textureScore] at h ⊢ <;>
    first
      | exact le_refl _
      | omega
      | (exfalso; linarith)

/-- **C136.** With the seam at the shortest distance or at a specified position, the chosen vertex is the nearest to the
target of those that have the same paint and overhang as much. -/
theorem C136_nearest (eps : K) (p : Path K) (hp : Sane p) (hf : p.forced = none)
    (ht : p.type = .shortest ∨ p.type = .userSpecified) (j : ℕ) (hj : j < p.size)
    (hpaint : paint p j = paint p (startClosed eps p)) (ho : overhanging p j = overhanging p (startClosed eps p)) :
    p.toTarget (startClosed eps p) ≤ p.toTarget j := by
  have h := (start_single eps p (by omega) (by rcases ht with ht | ht <;> simp [ht])).2 j hj
  rw [hpaint, ho] at h
  have hm : ∀ i, mainScore p i = distanceScore 20 (p.toTarget i) := by
    intro i
    unfold mainScore mainCriterion
    rcases ht with ht | ht <;> rw [hf, ht]
  rw [hm, hm] at h
  exact distanceScore_le 20 (by norm_num) _ _ (hp.target _) (hp.target _) (by linarith)

/-- **C136.** If the path has a vertex made for the seam, the seam is there or at a vertex in the same place, unless
that vertex has other paint or overhangs otherwise than the chosen one. -/
theorem C136_forced (eps : K) (p : Path K) (hp : Sane p) (f : ℕ) (hf : p.forced = some f) (hfs : f < p.size)
    (h0 : p.between f f = 0) (ht : p.type ≠ .sharpestCorner) (hpaint : paint p f = paint p (startClosed eps p))
    (ho : overhanging p f = overhanging p (startClosed eps p)) : p.between f (startClosed eps p) = 0 := by
  have h := (start_single eps p (by omega) ht).2 f hfs
  rw [hpaint, ho] at h
  have hm : ∀ i, mainScore p i = distanceScore 1 (p.between f i) := by
    intro i
    unfold mainScore mainCriterion
    rw [hf]
  rw [hm, hm] at h
  have := distanceScore_le 1 (by norm_num) _ _ (hp.between f f) (hp.between f _) (by linarith)
  rw [h0] at this
  exact le_antisymm this (hp.between f _)

/-- **C136.** With the seam at the sharpest inner corner, the chosen corner is at most a tenth (twice the threshold)
less sharp than any other one with the same paint that overhangs as much. -/
theorem C136_inner_corner_partial (eps : K) (he : 0 ≤ eps) (p : Path K) (hf : p.forced = none)
    (ht : p.type = .sharpestCorner) (hc : p.corner = .inner) (j : ℕ) (hj : j < p.size)
    (hpaint : paint p j = paint p (startClosed eps p)) (ho : overhanging p j = overhanging p (startClosed eps p)) :
    Spec.innerSharpness (p.angle j) ≤ Spec.innerSharpness (p.angle (startClosed eps p)) + 1 / 10 + 2 * eps := by
  have h := (start_slack eps he p (by omega)).2 j hj
  rw [hpaint, ho] at h
  have hm : ∀ i, mainScore p i = Spec.innerSharpness (p.angle i) := by
    intro i
    unfold mainScore mainCriterion
    rw [hf, ht, hc]
    simp only [cornerScore, Spec.innerSharpness]
    ring
  rw [hm, hm] at h
  linarith

/-- **C136.** The same for outer corners. -/
theorem C136_outer_corner_partial (eps : K) (he : 0 ≤ eps) (p : Path K) (hf : p.forced = none)
    (ht : p.type = .sharpestCorner) (hc : p.corner = .outer) (j : ℕ) (hj : j < p.size)
    (hpaint : paint p j = paint p (startClosed eps p)) (ho : overhanging p j = overhanging p (startClosed eps p)) :
    Spec.outerSharpness (p.angle j) ≤ Spec.outerSharpness (p.angle (startClosed eps p)) + 1 / 10 + 2 * eps := by
  have h := (start_slack eps he p (by omega)).2 j hj
  rw [hpaint, ho] at h
  have hm : ∀ i, mainScore p i = Spec.outerSharpness (p.angle i) := by
    intro i
    unfold mainScore mainCriterion
    rw [hf, ht, hc]
    simp only [cornerScore, Spec.outerSharpness]
    ring
  rw [hm, hm] at h
  linarith

/-- **C136.** The same for both kinds of corners. -/
theorem C136_any_corner_partial (eps : K) (he : 0 ≤ eps) (p : Path K) (hf : p.forced = none)
    (ht : p.type = .sharpestCorner) (hc : p.corner = .any) (j : ℕ) (hj : j < p.size)
    (hpaint : paint p j = paint p (startClosed eps p)) (ho : overhanging p j = overhanging p (startClosed eps p)) :
    |p.angle j| ≤ |p.angle (startClosed eps p)| + 1 / 10 + 2 * eps := by
  have h := (start_slack eps he p (by omega)).2 j hj
  rw [hpaint, ho] at h
  have hm : ∀ i, mainScore p i = |p.angle i| := by
    intro i
    unfold mainScore mainCriterion
    rw [hf, ht, hc]
    rfl
  rw [hm, hm] at h
  linarith

/-- **C136.** For weighted corners: a convex corner counts half. -/
theorem C136_weighted_corner_partial (eps : K) (he : 0 ≤ eps) (p : Path K) (hf : p.forced = none)
    (ht : p.type = .sharpestCorner) (hc : p.corner = .weighted) (j : ℕ) (hj : j < p.size)
    (hpaint : paint p j = paint p (startClosed eps p)) (ho : overhanging p j = overhanging p (startClosed eps p)) :
    max (-p.angle j) (p.angle j / 2) ≤
      max (-p.angle (startClosed eps p)) (p.angle (startClosed eps p) / 2) + 1 / 10 + 2 * eps := by
  have h := (start_slack eps he p (by omega)).2 j hj
  rw [hpaint, ho] at h
  have hm : ∀ i, mainScore p i = max (-p.angle i) (p.angle i / 2) := by
    intro i
    unfold mainScore mainCriterion
    rw [hf, ht, hc]
    simp only [cornerScore]
    split
    · rw [max_eq_left (by linarith)]
    · rw [max_eq_right (by linarith)]
  rw [hm, hm] at h
  linarith

/-- **C136.** If all corners are equally sharp (as on a cylinder), have the same paint and overhang as much, the chosen
vertex is close to the back: with the distances in units of 20 mm, its score is within 0.02 of the best. -/
theorem C136_back_partial (eps : K) (he : 0 ≤ eps) (p : Path K) (hs : 0 < p.size) (hf : p.forced = none)
    (ht : p.type = .sharpestCorner) (hang : ∀ i j, p.angle i = p.angle j) (hpaint : ∀ i j, paint p i = paint p j)
    (ho : ∀ i j, overhanging p i = overhanging p j) (j : ℕ) (hj : j < p.size) :
    1 / (1 + p.toBack j / 20) ≤ 1 / (1 + p.toBack (startClosed eps p) / 20) + 1 / 50 + 2 * eps := by
  obtain ⟨i, h1, h2⟩ := C135_chosen_partial eps (mainPass p :: fallbackPasses p) (passes_ok eps he p) p.size hs
  have hfall : fallbackPasses p = [⟨[(fun i => distanceScore 20 (p.toBack i), 1)], 1 / 100⟩,
      ⟨[(fun i => distanceScore 20 (p.toRight i), 1)], 0⟩] := by unfold fallbackPasses; rw [if_pos ht]
  rw [hfall] at h2
  obtain ⟨T, h2, U, h3, h4⟩ := h2
  have hi : startClosed eps p = i := by unfold startClosed; rw [h1]; rfl
  rw [hi]
  have hT : T j := by
    apply h2.2 j hj
    intro k _
    have hc : Spec.total (mainPass p).criteria k = Spec.total (mainPass p).criteria j := by
      rw [total_main, total_main]
      have e1 : paint p k = paint p j := hpaint k j
      have e2 : overhanging p k = overhanging p j := ho k j
      have e3 : mainScore p k = mainScore p j := by
        unfold mainScore mainCriterion
        rw [hf, ht]
        cases p.corner <;> simp only [hang k j]
      rw [e1, e2, e3]
    simp only
    rw [hc]
    have : (0 : K) ≤ (mainPass p).threshold := by norm_num [mainPass]
    linarith
  have := (h3.1 i h4.1).2 j hT
  simp only [Spec.total, List.map_cons, List.map_nil, List.sum_cons, List.sum_nil, distanceScore, mul_one, add_zero] at this
  linarith

/-- The path of the counterexample: inner corners, the angles such that they are sharp by 0, 1, 0.97 and 0.93. -/
def pathA : Path ℚ where
  size := 4
  forced := none
  type := .sharpestCorner
  corner := .inner
  toTarget := fun _ => 0
  between := fun _ _ => 0
  angle := fun i => 1 - 2 * scoresA i
  toBack := fun i => [90, 60, 30, 0].getD i 0
  toRight := fun _ => 0
  random := fun _ => 0
  texture := none
  overhang := none

/-- **C136.** Counterexample: a corner that is less sharp than the threshold allows is chosen. -/
theorem C136_corner_counterexample : ¬ ∀ p : Path ℚ, Sane p → p.forced = none → p.type = .sharpestCorner →
    p.corner = .inner → p.texture = none → p.overhang = none → ∀ j, j < p.size →
      Spec.innerSharpness (p.angle j) ≤ Spec.innerSharpness (p.angle (startClosed (1 / 2 ^ 52) p)) + 1 / 20 + 1 / 2 ^ 52 := by
  intro h
  have h1 := h pathA ⟨fun _ => le_refl _, fun _ _ => le_refl _, by
      intro i
      rcases i with _ | _ | _ | _ | i <;> norm_num [pathA, scoresA], fun _ => by norm_num [pathA]⟩ rfl rfl rfl rfl rfl 1
    (by decide)
  revert h1
  decide +kernel

/-- **C137.** If seams are allowed at some vertex, the path starts at an allowed vertex: the first one at or after the
vertex it would start at otherwise, going round the path. -/
theorem C137_allowed (eps : K) (he : 0 ≤ eps) (p : Path K) (bad : ℕ → Bool) (j : ℕ) (hj : j < p.size)
    (hok : bad j = false) : ∃ k, k < p.size ∧ startAllowed eps p (some bad) = (startClosed eps p + k) % p.size ∧
      bad (startAllowed eps p (some bad)) = false ∧ ∀ m, m < k → bad ((startClosed eps p + m) % p.size) = true := by
  have hb := C136_in_range eps he p (by omega)
  obtain ⟨k, h1, h2, h3, h4⟩ := skipDisallowed_eq p.size bad p.size (startClosed eps p) hb
  have hk : k < p.size := by
    by_contra hk
    have hw : (startClosed eps p + (j + p.size - startClosed eps p) % p.size) % p.size = j := by
      rw [Nat.add_mod_mod]
      have : startClosed eps p + (j + p.size - startClosed eps p) = j + p.size := by omega
      rw [this, Nat.add_mod_right, Nat.mod_eq_of_lt hj]
    have := h3 ((j + p.size - startClosed eps p) % p.size) (lt_of_lt_of_le (Nat.mod_lt _ (by omega)) (not_lt.1 hk))
    rw [hw, hok] at this
    cases this
  unfold startAllowed
  simp only
  rw [h2]
  exact ⟨k, hk, rfl, h4 hk, h3⟩

/-- **C137.** If seams are allowed nowhere, or everywhere, the path starts where it would start otherwise. -/
theorem C137_unchanged (eps : K) (he : 0 ≤ eps) (p : Path K) (hs : 0 < p.size) (bad : ℕ → Bool)
    (h : (∀ j, j < p.size → bad j = true) ∨ ∀ j, j < p.size → bad j = false) :
    startAllowed eps p (some bad) = startClosed eps p ∧ startAllowed eps p none = startClosed eps p := by
  refine ⟨?_, rfl⟩
  have hb := C136_in_range eps he p hs
  obtain ⟨k, h1, h2, h3, h4⟩ := skipDisallowed_eq p.size bad p.size (startClosed eps p) hb
  unfold startAllowed
  simp only
  rw [h2]
  rcases h with h | h
  · have hk : k = p.size := by
      by_contra hne
      have := h4 (by omega)
      rw [h _ (Nat.mod_lt _ hs)] at this
      cases this
    rw [hk, Nat.add_mod_right, Nat.mod_eq_of_lt hb]
  · have hk : k = 0 := by
      by_contra hne
      have := h3 0 (by omega)
      rw [h _ (Nat.mod_lt _ hs)] at this
      cases this
    rw [hk, Nat.add_zero, Nat.mod_eq_of_lt hb]

omit [Field K] [IsStrictOrderedRing K] in
/-- **C136.** An open path starts at its end that is nearer to the target; at the first vertex if both are equally near. -/
theorem C136_open_nearest (size : ℕ) (front back : K) :
    (startOpen size front back none = 0 ∧ front ≤ back) ∨ (startOpen size front back none = size - 1 ∧ back < front) := by
  unfold startOpen
  by_cases h : back < front
  · exact Or.inr ⟨if_pos h, h⟩
  · exact Or.inl ⟨if_neg h, not_lt.1 h⟩

/-- **C136.** The same with travel around obstacles, which is never shorter than the direct way. -/
theorem C136_open_combing (size : ℕ) (front back combFront combBack : K) (h : front ≤ combFront) :
    (startOpen size front back (some (combFront, combBack)) = 0 ∧ combFront ≤ combBack) ∨
      (startOpen size front back (some (combFront, combBack)) = size - 1 ∧ combBack < combFront) := by
  unfold startOpen
  simp only
  split
  · rename_i hc
    exact Or.inr ⟨rfl, by rcases hc with hc | hc <;> linarith⟩
  · rename_i hc
    exact Or.inl ⟨rfl, not_lt.1 fun h1 => hc (Or.inr h1)⟩

/-! ## The hypotheses are met -/

example : findBest (1 / 2 ^ 52 : ℚ) [⟨[(scoresA, 1)], 1 / 20⟩, ⟨[(fun i => i, 1)], 0⟩] 3 = some 2 := by decide +kernel
example : Spec.FirstBest scoresA 4 1 := by
  unfold Spec.FirstBest
  decide +kernel

/-- A square with an overhanging vertex nearest to the target, and a painted one. -/
def square : Path ℚ where
  size := 4
  forced := none
  type := .shortest
  corner := .any
  toTarget := fun i => [5, 10, 12, 7].getD i 0
  between := fun i j => if i = j then 0 else 10
  angle := fun _ => 1 / 2
  toBack := fun _ => 0
  toRight := fun _ => 0
  random := fun _ => 0
  texture := none
  overhang := some fun i => i == 0

example : Sane square := ⟨fun i => by rcases i with _ | _ | _ | _ | i <;> norm_num [square], fun i j => by
  simp only [square]; split <;> norm_num, fun i => by norm_num [square], fun i => by norm_num [square]⟩
example : startClosed (1 / 2 ^ 52) square = 3 := by decide +kernel
example : startClosed (1 / 2 ^ 52) { square with overhang := none } = 0 := by decide +kernel
example : startClosed (1 / 2 ^ 52) { square with forced := some 2 } = 2 := by decide +kernel
example : startClosed (1 / 2 ^ 52) { square with texture := some fun i => if i = 1 then some .preferred else none } = 1 := by
  decide +kernel
example : startAllowed (1 / 2 ^ 52) square (some fun i => decide (i = 3 ∨ i = 0)) = 1 := by decide +kernel
example : startAllowed (1 / 2 ^ 52) square (some fun _ => true) = 3 := by decide +kernel
example : startClosed (1 / 2 ^ 52) pathA = 3 := by decide +kernel
example : startClosed (1 / 2 ^ 52)
    { square with type := .sharpestCorner, overhang := none, toBack := fun i => [10, 10, 0, 0].getD i 0, toRight := fun i => [10, 0, 0, 10].getD i 0 } = 2 := by
  decide +kernel

end Verif.Seam
