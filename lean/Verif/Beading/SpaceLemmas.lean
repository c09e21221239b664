import Verif.Beading.CoreLemmas
import Mathlib.Data.List.Chain

/-! # Lemmas on the locations -/

set_option linter.dupNamespace false

namespace Verif.Beading

/-- Locations and widths together. -/
def Beading.pairs (b : Beading) : List (Int × Int) := b.locs.zip b.widths

theorem Apart.mono {s s' : Int} (h : s ≤ s') {x y : Int × Int} (hx : Apart s x y) : Apart s' x y := by
  unfold Apart at *; omega

theorem locsAfter_chain (ws : List Int) : ∀ (loc prev : Int), 0 ≤ prev → (∀ x ∈ ws, 0 ≤ x) →
    ((loc, prev) :: (locsAfter loc prev ws).zip ws).IsChain (Apart 1) := by
  induction ws with
  | nil => intro loc prev _ _; exact List.IsChain.singleton _
  | cons w ws ih =>
    intro loc prev hp hw
    have h0 := hw w (by simp)
    have hd := tdiv_two (prev + w) (by omega)
    simp only [locsAfter, List.zip_cons_cons]
    rw [List.isChain_cons_cons]
    refine ⟨?_, ih _ w h0 (fun x hx => hw x (by simp [hx]))⟩
    unfold Apart
    dsimp only
    omega

theorem locsAfter_last (ws : List Int) : ∀ (loc prev S : Int), 0 ≤ prev → (∀ x ∈ ws, 0 ≤ x) → 2 * loc + prev ≤ 2 * S →
    ∀ x ∈ ((loc, prev) :: (locsAfter loc prev ws).zip ws).getLast?, 2 * x.1 + x.2 ≤ 2 * (S + ws.sum) := by
  induction ws with
  | nil => intro loc prev S _ _ h x hx; simp [locsAfter] at hx; subst hx; simpa using h
  | cons w ws ih =>
    intro loc prev S hp hw h x hx
    have h0 := hw w (by simp)
    have hd := tdiv_two (prev + w) (by omega)
    simp only [locsAfter, List.zip_cons_cons, List.getLast?_cons_cons] at hx
    have := ih _ w (S + w) h0 (fun x hx => hw x (by simp [hx])) (by omega) x hx
    rw [List.sum_cons]; omega

/-- The beads of the distributed strategy follow each other, start at the outline and stay within the thickness. -/
theorem computeDist_pairs {w r t n k : Int} (ht : 0 < t) (hk : 0 ≤ k) (hnn : ∀ x ∈ (computeDist w r t n).widths, 0 ≤ x)
    (hs : (computeDist w r t n).widths.sum ≤ t + k) :
    (computeDist w r t n).pairs.IsChain (Apart 1) ∧
    (∀ x ∈ (computeDist w r t n).pairs.head?, 0 ≤ x.2 ∧ x.1 = x.2 / 2) ∧
    (∀ x ∈ (computeDist w r t n).pairs.getLast?, 2 * x.1 + x.2 ≤ 2 * t + 2 * k + 1) := by
  have hd := tdiv_two t (by omega)
  unfold Beading.pairs computeDist at *
  by_cases h2 : 2 < n
  · rw [if_pos h2] at hnn hs ⊢
    dsimp only at *
    cases hw : distWidths w r t n.toNat with
    | nil => simp [locsOf, List.IsChain.nil]
    | cons a ws =>
      rw [hw] at hnn hs
      have h0 := hnn a (by simp)
      have ha := tdiv_two a h0
      simp only [locsOf, List.zip_cons_cons]
      refine ⟨locsAfter_chain ws _ a h0 (fun x hx => hnn x (by simp [hx])), ?_, ?_⟩
      · intro x hx; simp at hx; subst hx; exact ⟨h0, ha⟩
      · intro x hx
        have := locsAfter_last ws (a.tdiv 2) a a h0 (fun x hx => hnn x (by simp [hx])) (by omega) x hx
        rw [List.sum_cons] at hs
        omega
  · rw [if_neg h2] at hnn hs ⊢
    by_cases hn2 : n = 2
    · rw [if_pos hn2] at hnn hs ⊢
      have hd2 := tdiv_two (t.tdiv 2) (by omega)
      simp only [List.zip_cons_cons, List.zip_nil_right]
      refine ⟨?_, ?_, ?_⟩
      · rw [List.isChain_cons_cons]; refine ⟨?_, List.IsChain.singleton _⟩; unfold Apart; dsimp only; omega
      · intro x hx; simp at hx; subst hx; dsimp only; omega
      · intro x hx; simp at hx; subst hx; dsimp only; omega
    · rw [if_neg hn2] at hnn hs ⊢
      by_cases hn1 : n = 1
      · rw [if_pos hn1] at hnn hs ⊢
        simp only [List.zip_cons_cons, List.zip_nil_right]
        refine ⟨List.IsChain.singleton _, ?_, ?_⟩
        · intro x hx; simp at hx; subst hx; dsimp only; omega
        · intro x hx; simp at hx; subst hx; dsimp only; omega
      · rw [if_neg hn1]; simp [List.IsChain.nil]

theorem zip_shift (l : List Int) (ws : List Int) (o : Int) :
    (l.map (· + o)).zip ws = (l.zip ws).map fun x => (x.1 + o, x.2) := by
  rw [List.zip_map_left]; rfl

/-- The beads below the limit are apart, up to rounding and what the beads lack. -/
theorem core_apart {p : Params} (hp : Sane p) {t n k : Int} (ht : 0 ≤ t) (hn : 0 ≤ n) (hk : 0 ≤ k)
    (hnn : ∀ x ∈ (core p t n).widths, 0 ≤ x) (hs : (core p t n).widths.sum ≤ t + k) :
    (core p t n).pairs.IsChain (Apart (2 * k + 1)) := by
  unfold core at *
  by_cases h0 : n = 0 ∨ (t : ℚ) < p.ratio * p.outerWidth
  · rw [if_pos h0]; exact List.IsChain.nil
  · rw [if_neg h0] at hnn hs ⊢
    have hn1 : 1 ≤ n := by omega
    obtain ⟨hb, h2, h1, h3⟩ := outerActual_bounds hp.outer ht hn1
    have hbd := tdiv_two _ hb
    by_cases h : 0 < n - 2 ∧ 0 < t - 2 * p.outerWidth
    · rw [if_pos h] at hnn hs ⊢
      have ho := h3 (by omega) (by omega)
      have hod := tdiv_two p.outerWidth (le_of_lt hp.outer)
      dsimp only at *
      have hnn' : ∀ x ∈ (computeDist p.innerWidth p.radius (t - 2 * p.outerWidth) (n - 2)).widths, 0 ≤ x := by
        intro x hx; refine hnn x ?_; unfold wrap; dsimp only; simp [hx]
      have hs' : (computeDist p.innerWidth p.radius (t - 2 * p.outerWidth) (n - 2)).widths.sum ≤ t - 2 * p.outerWidth + k := by
        unfold wrap at hs
        dsimp only at hs
        rw [if_pos (by omega : 1 < n)] at hs
        change (outerActual p.outerWidth t n :: _ ++ [outerActual p.outerWidth t n]).sum ≤ _ at hs
        rw [ho] at hs
        simp only [List.sum_append, List.sum_cons, List.sum_nil] at hs
        omega
      obtain ⟨q1, q2, q3⟩ := computeDist_pairs h.2 hk hnn' hs'
      have hlen := computeDist_length p.innerWidth p.radius (t - 2 * p.outerWidth) (n - 2)
      unfold Beading.pairs wrap at *
      dsimp only
      rw [if_pos (by omega : 1 < n), if_pos (by omega : 1 < n)]
      change ((outerActual p.outerWidth t n).tdiv 2 :: _ ++ [t - (outerActual p.outerWidth t n).tdiv 2]).zip
        (outerActual p.outerWidth t n :: _ ++ [outerActual p.outerWidth t n]) |>.IsChain _
      rw [ho, List.zip_append (by simp [hlen]), List.zip_cons_cons, zip_shift]
      generalize (computeDist p.innerWidth p.radius (t - 2 * p.outerWidth) (n - 2)).locs.zip
        (computeDist p.innerWidth p.radius (t - 2 * p.outerWidth) (n - 2)).widths = P at *
      rw [List.isChain_append]
      refine ⟨?_, List.IsChain.singleton _, ?_⟩
      · rw [List.isChain_cons]
        constructor
        · intro y hy
          rw [List.head?_map, Option.mem_def, Option.map_eq_some_iff] at hy
          obtain ⟨z, hz, rfl⟩ := hy
          obtain ⟨z1, z2⟩ := q2 z hz
          unfold Apart; dsimp only; omega
        · rw [List.isChain_map]
          refine q1.imp ?_
          intro x y hxy
          unfold Apart at *; dsimp only; omega
      · intro x hx y hy
        simp only [List.zip_cons_cons, List.zip_nil_right, List.head?_cons, Option.mem_def, Option.some.injEq] at hy
        subst hy
        rw [Option.mem_def, List.getLast?_cons, Option.some.injEq, List.getLast?_map] at hx
        cases hP : P.getLast? with
        | none =>
          rw [hP] at hx
          simp at hx
          subst hx
          unfold Apart; dsimp only; omega
        | some z =>
          rw [hP] at hx
          simp at hx
          subst hx
          have := q3 z hP
          unfold Apart; dsimp only; omega
    · rw [if_neg h] at hnn hs ⊢
      unfold Beading.pairs wrap
      dsimp only
      by_cases h12 : 1 < n
      · rw [if_pos h12, if_pos h12]
        change ((outerActual p.outerWidth t n).tdiv 2 :: [] ++ [t - (outerActual p.outerWidth t n).tdiv 2]).zip
          (outerActual p.outerWidth t n :: [] ++ [outerActual p.outerWidth t n]) |>.IsChain _
        have := h2 h12
        simp only [List.cons_append, List.nil_append, List.zip_cons_cons, List.zip_nil_right]
        rw [List.isChain_cons_cons]
        refine ⟨?_, List.IsChain.singleton _⟩
        unfold Apart; dsimp only; omega
      · rw [if_neg h12, if_neg h12]
        exact List.IsChain.singleton _

end Verif.Beading
