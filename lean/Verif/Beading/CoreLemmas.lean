import Verif.Beading.DistLemmas
import Verif.Beading.Spec

/-! # Lemmas on the strategies below the limit -/

set_option linter.dupNamespace false

namespace Verif.Beading

/-- `RedistributeBeadingStrategy` on top of `DistributedBeadingStrategy`. -/
def core (p : Params) (t n : Int) : Beading :=
  if n = 0 ∨ (t : ℚ) < p.ratio * p.outerWidth then ⟨t, [], [], some t⟩
  else if 0 < n - 2 ∧ 0 < t - 2 * p.outerWidth then
    let b := computeDist p.innerWidth p.radius (t - 2 * p.outerWidth) (n - 2)
    wrap p.outerWidth t n { b with locs := b.locs.map (· + p.outerWidth) }
  else wrap p.outerWidth t n ⟨0, [], [], none⟩

theorem compute_core (p : Params) (t n : Int) :
    compute (.redistribute p.outerWidth p.ratio (.distributed p.innerWidth p.split p.add p.radius)) t n = .ok (core p t n) := by
  unfold compute core
  split
  · rfl
  · split
    · unfold compute; rfl
    · rfl

/-- With thin walls. -/
def base (p : Params) (t n : Int) : Beading :=
  if p.thinWalls = true ∧ t < p.innerWidth then
    if t ≥ p.minFeatureSize then ⟨t, [max t p.minBeadWidth], [t.tdiv 2], none⟩ else ⟨t, [], [], some t⟩
  else core p t n

/-- The strategies below `LimitedBeadingStrategy`. -/
def thin (p : Params) : Strategy :=
  let s := Strategy.redistribute p.outerWidth p.ratio (.distributed p.innerWidth p.split p.add p.radius)
  if p.thinWalls then Strategy.widening p.minFeatureSize p.minBeadWidth s else s

def outerStack (p : Params) : Strategy := if p.outerOffset > 0 then .outerInset p.outerOffset (thin p) else thin p

def stack (p : Params) : Strategy := if p.innerOffset ≠ 0 then .innerInset p.innerOffset (outerStack p) else outerStack p

theorem makeStrategy_eq (p : Params) : makeStrategy p = .limited p.maxCount (stack p) := rfl

theorem compute_thin (p : Params) (t n : Int) : compute (thin p) t n = .ok (base p t n) := by
  unfold thin base
  cases h : p.thinWalls
  · simp only [Bool.false_eq_true, if_false, false_and]; exact compute_core p t n
  · simp only [if_true, true_and]
    unfold compute
    show (if t < p.innerWidth then _ else _) = _
    split
    · split <;> rfl
    · exact compute_core p t n

theorem locsAfter_length (l prev : Int) (ws : List Int) : (locsAfter l prev ws).length = ws.length := by
  induction ws generalizing l prev with
  | nil => rfl
  | cons w ws ih => simp [locsAfter, ih]

theorem locsOf_length (ws : List Int) : (locsOf ws).length = ws.length := by
  cases ws with
  | nil => rfl
  | cons w ws => simp [locsOf, locsAfter_length]

theorem computeDist_length (w r t n : Int) : (computeDist w r t n).locs.length = (computeDist w r t n).widths.length := by
  unfold computeDist
  split
  · exact locsOf_length _
  · split
    · rfl
    · split <;> rfl

theorem wrap_length (o t n : Int) (b : Beading) (h : b.locs.length = b.widths.length) :
    (wrap o t n b).locs.length = (wrap o t n b).widths.length := by
  unfold wrap
  dsimp only
  by_cases hn : 1 < n <;> simp [hn, h]

theorem core_length (p : Params) (t n : Int) : (core p t n).locs.length = (core p t n).widths.length := by
  unfold core
  split
  · rfl
  · split
    · refine wrap_length _ _ _ _ ?_
      simp [computeDist_length]
    · exact wrap_length _ _ _ _ rfl

theorem base_length (p : Params) (t n : Int) : (base p t n).locs.length = (base p t n).widths.length := by
  unfold base
  split
  · split <;> rfl
  · exact core_length p t n

theorem core_total (p : Params) (t n : Int) : (core p t n).total = t := by
  unfold core; split
  · rfl
  · split <;> rfl

theorem base_total (p : Params) (t n : Int) : (base p t n).total = t := by
  unfold base; split
  · split <;> rfl
  · exact core_total p t n

theorem core_leftOver (p : Params) (t n : Int) : (core p t n).leftOver = some (t - (core p t n).widths.sum) := by
  unfold core; split
  · simp
  · split <;> rfl

/-! ## Symmetry -/

theorem computeDist_symm (w r t n : Int) : (computeDist w r t n).widths.reverse = (computeDist w r t n).widths := by
  unfold computeDist
  split
  · exact distWidths_symm _ _ _ _
  · split
    · rfl
    · split <;> rfl

theorem wrap_symm (o t n : Int) (b : Beading) (h : b.widths.reverse = b.widths) (hn : 1 < n ∨ b.widths = []) :
    (wrap o t n b).widths.reverse = (wrap o t n b).widths := by
  unfold wrap
  dsimp only
  generalize (if 2 < n then min (t.tdiv 2) o else t.tdiv n) = a
  by_cases hn1 : 1 < n
  · simp [hn1, h]
  · rcases hn with hn | hn
    · exact absurd hn hn1
    · simp [hn1, hn]

theorem core_symm (p : Params) (t n : Int) : (core p t n).widths.reverse = (core p t n).widths := by
  unfold core
  split
  · rfl
  · split
    · rename_i h
      exact wrap_symm _ _ _ _ (computeDist_symm _ _ _ _) (Or.inl (by omega))
    · exact wrap_symm _ _ _ _ rfl (Or.inr rfl)

theorem base_symm (p : Params) (t n : Int) : (base p t n).widths.reverse = (base p t n).widths := by
  unfold base
  split
  · split <;> rfl
  · exact core_symm p t n

/-! ## Widths -/

theorem tdiv_two (a : Int) (h : 0 ≤ a) : a.tdiv 2 = a / 2 := Int.tdiv_eq_ediv_of_nonneg h

theorem computeDist_sum {w r t n : Int} (ht : 0 < t) :
    (computeDist w r t n).widths.sum ≤ t + max 0 n ∧ (n ≤ 2 ∨ n * w ≤ t → (computeDist w r t n).widths.sum ≤ t) := by
  unfold computeDist
  split
  · rename_i h
    have hn : ((n.toNat : Nat) : Int) = n := by omega
    obtain ⟨h1, h2⟩ := distWidths_sum w r t (n := n.toNat) (by omega)
    rw [hn] at h1 h2
    dsimp only
    constructor
    · rcases le_total (n * w) t with h' | h'
      · have := (h1 h').1; omega
      · have := (h2 h').2; omega
    · rintro (h' | h')
      · omega
      · exact (h1 h').1
  · split
    · have := tdiv_two t (by omega)
      simp only [List.sum_cons, List.sum_nil]; omega
    · split
      · simp only [List.sum_cons, List.sum_nil]; omega
      · simp only [List.sum_nil]; omega

theorem computeDist_nonneg {w r t n : Int} (ht : 0 < t) (hw : 0 < w) (hf : 3 ≤ n → (n - 1) * w ≤ t) :
    ∀ x ∈ (computeDist w r t n).widths, 0 ≤ x := by
  unfold computeDist
  split
  · rename_i h
    intro x hx
    have hn : ((n.toNat : Nat) : Int) = n := by omega
    have := distWidths_ge w r t n.toNat x hx
    rw [hn] at this
    have h3 := hf (by omega)
    have : -w ≤ t - n * w := by nlinarith
    omega
  · split
    · have := tdiv_two t (by omega)
      intro x hx; simp at hx; omega
    · split
      · intro x hx; simp at hx; omega
      · intro x hx; simp at hx

/-- The width of the outer walls. -/
def outerActual (o t n : Int) : Int := if 2 < n then min (t.tdiv 2) o else t.tdiv n

theorem outerActual_bounds {o t n : Int} (ho : 0 < o) (ht : 0 ≤ t) (hn : 1 ≤ n) :
    0 ≤ outerActual o t n ∧ (1 < n → 2 * outerActual o t n ≤ t) ∧ (n = 1 → outerActual o t n = t) ∧
    (2 < n → 2 * o < t → outerActual o t n = o) := by
  unfold outerActual
  have h2 := tdiv_two t ht
  split
  · omega
  · have : n = 1 ∨ n = 2 := by omega
    rcases this with rfl | rfl
    · simp; omega
    · omega

theorem core_nonneg {p : Params} (hp : Sane p) {t n : Int} (ht : 0 ≤ t) (hn : 0 ≤ n)
    (hf : Fits p t n ∨ t ≤ 2 * p.outerWidth) : ∀ x ∈ (core p t n).widths, 0 ≤ x := by
  unfold core
  split
  · intro x hx; simp at hx
  · rename_i h0
    have hn1 : 1 ≤ n := by omega
    obtain ⟨hb, _⟩ := outerActual_bounds hp.outer ht hn1
    split
    · rename_i h
      intro x hx
      unfold wrap at hx
      dsimp only at hx
      rw [List.mem_append, List.mem_cons] at hx
      rcases hx with (hx | hx) | hx
      · rw [hx]; exact hb
      · refine computeDist_nonneg h.2 hp.inner ?_ x hx
        intro h3
        rcases hf with hf | hf
        · have := hf (by omega)
          have e : n - 2 - 1 = n - 3 := by ring
          rw [e]; omega
        · omega
      · split at hx
        · simp at hx; rw [hx]; exact hb
        · simp at hx
    · intro x hx
      unfold wrap at hx
      dsimp only at hx
      rw [List.mem_append, List.mem_cons] at hx
      rcases hx with (hx | hx) | hx
      · rw [hx]; exact hb
      · simp at hx
      · split at hx
        · simp at hx; rw [hx]; exact hb
        · simp at hx

/-- The beads fill at most the thickness, up to one unit per inner bead when they have to be narrower than their optimal width. -/
theorem core_sum {p : Params} (hp : Sane p) {t n : Int} (ht : 0 ≤ t) (hn : 0 ≤ n) :
    (core p t n).widths.sum ≤ t + max 0 (n - 2) ∧
    (n ≤ 4 ∨ 2 * p.outerWidth + (n - 2) * p.innerWidth ≤ t → (core p t n).widths.sum ≤ t) := by
  unfold core
  split
  · simp; omega
  · rename_i h0
    have hn1 : 1 ≤ n := by omega
    obtain ⟨hb, h2, h1, h3⟩ := outerActual_bounds hp.outer ht hn1
    split
    · rename_i h
      obtain ⟨hs1, hs2⟩ := computeDist_sum (w := p.innerWidth) (r := p.radius) (n := n - 2) h.2
      have ho := h3 (by omega) (by omega)
      unfold wrap
      dsimp only
      rw [if_pos (by omega : 1 < n)]
      change (outerActual p.outerWidth t n :: (computeDist p.innerWidth p.radius (t - 2 * p.outerWidth) (n - 2)).widths ++
        [outerActual p.outerWidth t n]).sum ≤ _ ∧ (_ → (outerActual p.outerWidth t n ::
        (computeDist p.innerWidth p.radius (t - 2 * p.outerWidth) (n - 2)).widths ++ [outerActual p.outerWidth t n]).sum ≤ _)
      rw [ho]
      simp only [List.sum_append, List.sum_cons, List.sum_nil]
      refine ⟨by omega, fun h' => ?_⟩
      have := hs2 (by omega)
      omega
    · unfold wrap
      dsimp only
      change (outerActual p.outerWidth t n :: [] ++ if 1 < n then [outerActual p.outerWidth t n] else []).sum ≤ _ ∧
        (_ → (outerActual p.outerWidth t n :: [] ++ if 1 < n then [outerActual p.outerWidth t n] else []).sum ≤ _)
      split
      · have := h2 (by assumption)
        simp; omega
      · have := h1 (by omega)
        simp; omega

end Verif.Beading
