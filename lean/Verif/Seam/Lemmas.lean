import Verif.Seam.Model
import Verif.Seam.Spec
import Verif.Seam.StartSpec
import Mathlib.Tactic.Linarith
import Mathlib.Tactic.FieldSimp
import Mathlib.Tactic.Ring
import Mathlib.Tactic.Positivity
import Mathlib.Tactic.NormNum

/-! # Lemmas about the choice of the best candidate -/

namespace Verif.Seam

variable {K : Type} [Field K] [LinearOrder K] [IsStrictOrderedRing K]

omit [LinearOrder K] [IsStrictOrderedRing K] in
theorem score_eq (p : Pass K) (i : ℕ) : p.score i = Spec.total p.criteria i := by
  have h : ∀ (l : List ((ℕ → K) × K)) (s : K),
      l.foldl (fun s c => s + c.1 i * c.2) s = s + (l.map fun c => c.1 i * c.2).sum := by
    intro l
    induction l with
    | nil => intro s; simp
    | cons a l ih => intro s; simp only [List.foldl_cons, List.map_cons, List.sum_cons]; rw [ih]; ring
  unfold Pass.score Spec.total
  rw [h, zero_add]

/-- The best candidate so far. -/
def Valid (v : List (Cand K)) : Option (ℕ × Cand K) → Prop
  | none => v = []
  | some (b, c) => v[b]? = some c ∧ (∀ (k : ℕ) (d : Cand K), v[k]? = some d → d.score ≤ c.score) ∧
      ∀ (k : ℕ) (d : Cand K), k < b → v[k]? = some d → d.score < c.score

omit [Field K] [IsStrictOrderedRing K] in
theorem bestLoop_valid (l pre : List (Cand K)) (acc : Option (ℕ × Cand K)) (h : Valid pre acc) :
    Valid (pre ++ l) (bestLoop l pre.length acc) := by
  induction l generalizing pre acc with
  | nil => simpa [bestLoop] using h
  | cons c rest ih =>
    have e : pre ++ c :: rest = (pre ++ [c]) ++ rest := by simp
    have el : pre.length + 1 = (pre ++ [c]).length := by simp
    have hk : ∀ k d, (pre ++ [c])[k]? = some d → pre[k]? = some d ∨ (k = pre.length ∧ d = c) := by
      intro k d hk
      rcases lt_trichotomy k pre.length with h1 | h1 | h1
      · rw [List.getElem?_append_left h1] at hk; exact Or.inl hk
      · subst h1; simp at hk; exact Or.inr ⟨rfl, hk.symm⟩
      · rw [List.getElem?_eq_none (by simp; omega)] at hk; cases hk
    cases acc with
    | none =>
      unfold bestLoop
      rw [e, el]
      apply ih
      have : pre = [] := h
      subst this
      refine ⟨by simp, ?_, ?_⟩
      · intro k d hd
        rcases hk k d hd with h1 | ⟨_, rfl⟩
        · simp at h1
        · exact le_refl _
      · intro k d h1 hd
        simp at h1
    | some bd =>
      obtain ⟨b, d⟩ := bd
      obtain ⟨h1, h2, h3⟩ := h
      have hb : b < pre.length := (List.getElem?_eq_some_iff.1 h1).1
      unfold bestLoop
      rw [e, el]
      apply ih
      split
      · rename_i hlt
        refine ⟨by simp, ?_, ?_⟩
        · intro k x hx
          rcases hk k x hx with h4 | ⟨_, rfl⟩
          · exact le_of_lt (lt_of_le_of_lt (h2 k x h4) hlt)
          · exact le_refl _
        · intro k x hkl hx
          rcases hk k x hx with h4 | ⟨h5, _⟩
          · exact lt_of_le_of_lt (h2 k x h4) hlt
          · omega
      · rename_i hlt
        refine ⟨by rw [List.getElem?_append_left hb]; exact h1, ?_, ?_⟩
        · intro k x hx
          rcases hk k x hx with h4 | ⟨_, rfl⟩
          · exact h2 k x h4
          · exact not_lt.1 hlt
        · intro k x hkl hx
          rw [List.getElem?_append_left (by omega)] at hx
          exact h3 k x hkl hx

/-- What holds while candidates are removed: `M` is the best score, `L` bounds what the iterator to it reads. -/
structure Inv (delta : K) (b : ℕ) (v0 : List (Cand K)) (M L : K) (i : ℕ) (s : List (Cand K) × ℕ) : Prop where
  le : s.2 ≤ i
  len : s.1.length = v0.length
  rest : ∀ j, i ≤ j → s.1[j]? = v0[j]?
  own : s.2 ≤ b → s.1[b]? = v0[b]?
  bound : ∃ c, s.1[b]? = some c ∧ L ≤ c.score ∧ c.score ≤ M
  kept : ∀ k, k < s.2 → ∃ c ∈ v0, s.1[k]? = some c ∧ L - delta ≤ c.score
  near : ∀ j c, j < i → v0[j]? = some c → M - delta ≤ c.score → ∃ k, k < s.2 ∧ s.1[k]? = some c
  pre : (∀ j c, j < b → v0[j]? = some c → M - delta ≤ c.score) → (i ≤ b → s.2 = i) ∧ (b < i → b < s.2)

theorem Inv.step {delta : K} {b : ℕ} {v0 : List (Cand K)} {M L : K} {i : ℕ} {s : List (Cand K) × ℕ}
    (h : Inv delta b v0 M L i s) (hd : 0 ≤ delta) (hi : i < v0.length) (hM : ∀ c ∈ v0, c.score ≤ M)
    (hb : ∃ c, v0[b]? = some c ∧ c.score = M)
    (hL : L ≤ M - delta ∨ (L ≤ M ∧ ∀ j c, j < b → v0[j]? = some c → M - delta ≤ c.score)) :
    Inv delta b v0 M L (i + 1) (removeStep delta b s i) := by
  obtain ⟨best, hbest, hlo, hhi⟩ := h.bound
  have hbl : b < s.1.length := (List.getElem?_eq_some_iff.1 hbest).1
  obtain ⟨cb, hcb, hcM⟩ := hb
  have hc := h.rest i (le_refl i)
  obtain ⟨c, hc0⟩ : ∃ c, v0[i]? = some c := ⟨v0[i], List.getElem?_eq_getElem hi⟩
  rw [hc0] at hc
  have hcmem : c ∈ v0 := List.mem_of_getElem? hc0
  have hstep : removeStep delta b s i =
      if delta < best.score - c.score then s else (s.1.set s.2 c, s.2 + 1) := by
    unfold removeStep; rw [hc, hbest]
  rw [hstep]
  split
  · rename_i hout
    refine ⟨by have := h.le; omega, h.len, fun j hj => h.rest j (by omega), h.own, h.bound, h.kept, ?_, ?_⟩
    · intro j x hj hx hn
      rcases Nat.lt_succ_iff_lt_or_eq.1 hj with h1 | rfl
      · exact h.near j x h1 hx hn
      · rw [hc0] at hx
        cases hx
        exact absurd hout (not_lt.2 (by linarith))
    · intro hp
      obtain ⟨h1, h2⟩ := h.pre hp
      have hne : b < i := by
        rcases lt_trichotomy i b with h3 | h3 | h3
        · have := hp i c h3 hc0
          exact absurd hout (not_lt.2 (by linarith))
        · subst h3
          rw [hbest] at hc
          cases hc
          exact absurd hout (not_lt.2 (by linarith))
        · exact h3
      exact ⟨fun h3 => by omega, fun _ => h2 hne⟩
  · rename_i hin
    have hin := not_lt.1 hin
    have hr : s.2 < s.1.length := by have := h.le; have := h.len; omega
    refine ⟨by have := h.le; simp only; omega, by simp [h.len], ?_, ?_, ?_, ?_, ?_, ?_⟩
    · intro j hj
      have := h.le
      simp only
      rw [List.getElem?_set_ne (by omega)]
      exact h.rest j (by omega)
    · intro hle
      simp only at hle ⊢
      rw [List.getElem?_set_ne (by omega)]
      exact h.own (by omega)
    · by_cases hsb : s.2 = b
      · refine ⟨c, by simp only; rw [hsb, List.getElem?_set_self hbl], ?_, hM c hcmem⟩
        have h4 := h.own (by omega)
        rw [hbest, hcb] at h4
        cases h4
        rcases hL with hL | ⟨hL, hp⟩
        · linarith
        · obtain ⟨h1, h2⟩ := h.pre hp
          have hib : i = b := by
            have := h.le
            by_contra hne
            have := h2 (by omega)
            omega
          subst hib
          rw [hcb] at hc0
          cases hc0
          linarith
      · exact ⟨best, by simp only; rw [List.getElem?_set_ne hsb]; exact hbest, hlo, hhi⟩
    · intro k hk
      simp only at hk ⊢
      by_cases hks : k = s.2
      · subst hks
        exact ⟨c, hcmem, List.getElem?_set_self hr, by linarith⟩
      · obtain ⟨x, h1, h2, h3⟩ := h.kept k (by omega)
        exact ⟨x, h1, by rw [List.getElem?_set_ne (by omega)]; exact h2, h3⟩
    · intro j x hj hx hn
      simp only
      rcases Nat.lt_succ_iff_lt_or_eq.1 hj with h1 | rfl
      · obtain ⟨k, hk, h2⟩ := h.near j x h1 hx hn
        exact ⟨k, by omega, by rw [List.getElem?_set_ne (by omega)]; exact h2⟩
      · rw [hc0] at hx
        cases hx
        exact ⟨s.2, by omega, List.getElem?_set_self hr⟩
    · intro hp
      obtain ⟨h1, h2⟩ := h.pre hp
      simp only
      refine ⟨fun h3 => by rw [h1 (by omega)], fun h3 => ?_⟩
      rcases Nat.lt_succ_iff_lt_or_eq.1 h3 with h4 | h4
      · have := h2 h4; omega
      · rw [h1 (by omega)]; omega

theorem removeIf_inv (delta : K) (b : ℕ) (v0 : List (Cand K)) (M L : K) (hd : 0 ≤ delta) (hM : ∀ c ∈ v0, c.score ≤ M)
    (hb : ∃ c, v0[b]? = some c ∧ c.score = M)
    (hL : L ≤ M - delta ∨ (L ≤ M ∧ ∀ j c, j < b → v0[j]? = some c → M - delta ≤ c.score)) (i : ℕ)
    (hi : i ≤ v0.length) : Inv delta b v0 M L i ((List.range i).foldl (removeStep delta b) (v0, 0)) := by
  induction i with
  | zero =>
    obtain ⟨c, h1, h2⟩ := hb
    refine ⟨le_refl _, rfl, fun _ _ => rfl, fun _ => rfl, ⟨c, h1, ?_, h2.le⟩, ?_, ?_, ?_⟩
    · rcases hL with hL | hL
      · linarith
      · linarith [hL.1]
    · intro k hk; simp at hk
    · intro j c hj; omega
    · intro _; exact ⟨fun _ => rfl, fun h => by omega⟩
  | succ i ih =>
    rw [List.range_succ, List.foldl_append]
    exact (ih (by omega)).step hd (by omega) hM hb hL

theorem removeIf_kept (delta : K) (b : ℕ) (v0 : List (Cand K)) (M L : K) (hd : 0 ≤ delta) (hM : ∀ c ∈ v0, c.score ≤ M)
    (hb : ∃ c, v0[b]? = some c ∧ c.score = M)
    (hL : L ≤ M - delta ∨ (L ≤ M ∧ ∀ j c, j < b → v0[j]? = some c → M - delta ≤ c.score)) :
    (∀ c ∈ removeIf delta b v0, c ∈ v0 ∧ L - delta ≤ c.score) ∧
      ∀ c ∈ v0, M - delta ≤ c.score → c ∈ removeIf delta b v0 := by
  have h := removeIf_inv delta b v0 M L hd hM hb hL v0.length (le_refl _)
  unfold removeIf
  simp only
  constructor
  · intro c hc
    obtain ⟨k, hk⟩ := List.mem_iff_getElem?.1 hc
    rw [List.getElem?_take] at hk
    split at hk
    · obtain ⟨x, h1, h2, h3⟩ := h.kept k (by assumption)
      rw [h2] at hk
      cases hk
      exact ⟨h1, h3⟩
    · cases hk
  · intro c hc hn
    obtain ⟨j, hj⟩ := List.mem_iff_getElem?.1 hc
    obtain ⟨k, hk, h2⟩ := h.near j c (List.getElem?_eq_some_iff.1 hj).1 hj hn
    exact List.mem_iff_getElem?.2 ⟨k, by rw [List.getElem?_take, if_pos hk]; exact h2⟩

/-- The candidates of a list. -/
def ids (cands : List (Cand K)) (i : ℕ) : Prop := ∃ c ∈ cands, c.idx = i

/-- The passes as the specification sees them. -/
def passView (eps : K) (passes : List (Pass K)) : List ((ℕ → K) × K) :=
  passes.map fun p => (Spec.total p.criteria, p.threshold + eps)

theorem chosen_single (passes : List ((ℕ → K) × K)) (hd : ∀ p ∈ passes, 0 ≤ p.2) (S : ℕ → Prop) (i : ℕ) (hS : S i)
    (h : ∀ j, S j → j = i) : Spec.Chosen passes S i := by
  induction passes with
  | nil => exact hS
  | cons p rest ih =>
    cases rest with
    | nil => exact ⟨hS, fun j hj => by rw [h j hj]⟩
    | cons q rest =>
      refine ⟨S, ⟨fun j hj => ⟨hj, fun k hk => ?_⟩, fun j hj _ => hj⟩, ih (fun p hp => hd p (by simp [hp]))⟩
      rw [h j hj, h k hk]
      have := hd p (by simp)
      linarith

theorem passLoop_chosen (eps : K) (passes : List (Pass K)) (hd : ∀ p ∈ passes, 0 ≤ p.threshold + eps)
    (cands : List (Cand K)) (hne : cands ≠ []) :
    ∃ i, passLoop eps passes cands = some i ∧ Spec.Chosen (passView eps passes) (ids cands) i := by
  induction passes generalizing cands with
  | nil =>
    obtain ⟨c, l, rfl⟩ := List.exists_cons_of_ne_nil hne
    exact ⟨c.idx, rfl, c, by simp, rfl⟩
  | cons p rest ih =>
    unfold passLoop
    simp only
    generalize hsc : (cands.map fun c => ({ c with score := p.score c.idx } : Cand K)) = scored
    have hmem : ∀ c, c ∈ scored → c.score = Spec.total p.criteria c.idx ∧ ids cands c.idx := by
      intro c hc
      rw [← hsc] at hc
      obtain ⟨d, hd, rfl⟩ := List.mem_map.1 hc
      exact ⟨score_eq p d.idx, d, hd, rfl⟩
    have hids : ∀ i, ids cands i → ∃ c ∈ scored, c.idx = i := by
      rintro i ⟨c, hc, rfl⟩
      exact ⟨{ c with score := p.score c.idx }, by rw [← hsc]; exact List.mem_map.2 ⟨c, hc, rfl⟩, rfl⟩
    have hv := bestLoop_valid scored [] none rfl
    simp only [List.nil_append, List.length_nil] at hv
    cases hbl : bestLoop scored 0 none with
    | none =>
      rw [hbl] at hv
      have : scored = [] := hv
      rw [← hsc] at this
      exact absurd (List.map_eq_nil_iff.1 this) hne
    | some bd =>
      obtain ⟨b, best⟩ := bd
      rw [hbl] at hv
      obtain ⟨h1, h2, _⟩ := hv
      have hbm := List.mem_of_getElem? h1
      have hM : ∀ c ∈ scored, c.score ≤ best.score := by
        intro c hc
        obtain ⟨k, hk⟩ := List.mem_iff_getElem?.1 hc
        exact h2 k c hk
      cases hr : rest with
      | nil =>
        refine ⟨best.idx, by simp, (hmem best hbm).2, fun j hj => ?_⟩
        obtain ⟨c, hc, rfl⟩ := hids j hj
        have := hM c hc
        rw [(hmem c hc).1, (hmem best hbm).1] at this
        exact this
      | cons q rest' =>
        rw [← hr]
        have he : rest.isEmpty = false := by rw [hr]; rfl
        simp only [he, Bool.false_eq_true, if_false]
        have hd0 : 0 ≤ p.threshold + eps := hd p (by simp)
        obtain ⟨k1, k2⟩ := removeIf_kept (p.threshold + eps) b scored best.score (best.score - (p.threshold + eps)) hd0 hM
          ⟨best, h1, rfl⟩ (Or.inl (le_refl _))
        have hbk : best ∈ removeIf (p.threshold + eps) b scored := k2 best hbm (by linarith)
        have hkept : Spec.Kept (Spec.total p.criteria) (p.threshold + eps) (ids cands)
            (ids (removeIf (p.threshold + eps) b scored)) := by
          constructor
          · rintro j ⟨c, hc, rfl⟩
            obtain ⟨h3, h4⟩ := k1 c hc
            refine ⟨(hmem c h3).2, fun k hk => ?_⟩
            obtain ⟨x, hx, rfl⟩ := hids k hk
            have := hM x hx
            rw [(hmem x hx).1] at this
            rw [(hmem c h3).1] at h4
            linarith
          · intro j hj hn
            obtain ⟨c, hc, rfl⟩ := hids j hj
            have := hn best.idx (hmem best hbm).2
            rw [← (hmem best hbm).1, ← (hmem c hc).1] at this
            exact ⟨c, k2 c hc (by linarith), rfl⟩
        have hview : passView eps (p :: rest) = (Spec.total p.criteria, p.threshold + eps) :: passView eps rest := rfl
        have hcons : ∃ x l, passView eps rest = x :: l := by rw [hr]; exact ⟨_, _, rfl⟩
        have hlift : ∀ i, Spec.Chosen (passView eps rest) (ids (removeIf (p.threshold + eps) b scored)) i →
            Spec.Chosen (passView eps (p :: rest)) (ids cands) i := by
          intro i hi
          rw [hview]
          obtain ⟨x, l, hx⟩ := hcons
          rw [hx] at hi ⊢
          exact ⟨_, hkept, hi⟩
        split
        · rename_i hone
          obtain ⟨c, hc⟩ := List.length_eq_one_iff.1 hone
          rw [hc] at hlift ⊢
          refine ⟨c.idx, rfl, hlift _ (chosen_single _ ?_ _ _ ⟨c, by simp, rfl⟩ ?_)⟩
          · intro x hx
            obtain ⟨y, hy, rfl⟩ := List.mem_map.1 hx
            exact hd y (by simp [hy])
          · rintro j ⟨d, hd, rfl⟩
            rw [List.mem_singleton.1 hd]
        · obtain ⟨i, hi, hch⟩ := ih (fun q hq => hd q (by simp [hq])) _ (List.ne_nil_of_mem hbk)
          exact ⟨i, hi, hlift i hch⟩

omit [IsStrictOrderedRing K] in
theorem chosen_mem (passes : List ((ℕ → K) × K)) (S : ℕ → Prop) (i : ℕ) (h : Spec.Chosen passes S i) : S i := by
  induction passes generalizing S with
  | nil => exact h
  | cons p rest ih =>
    cases rest with
    | nil => exact h.1
    | cons q rest =>
      obtain ⟨T, h1, h2⟩ := h
      exact (h1.1 i (ih T h2)).1

omit [IsStrictOrderedRing K] in
/-- The only pass. -/
theorem findBest_one (eps : K) (p : Pass K) (count : ℕ) (hc : 0 < count) :
    ∃ b, findBest eps [p] count = some b ∧ b < count ∧
      (∀ j, j < count → Spec.total p.criteria j ≤ Spec.total p.criteria b) ∧
      ∀ j, j < b → Spec.total p.criteria j < Spec.total p.criteria b := by
  unfold findBest
  generalize hsc : (((List.range count).map fun i => (⟨i, 0⟩ : Cand K)).map fun c =>
    ({ c with score := p.score c.idx } : Cand K)) = v
  have hget : ∀ k (d : Cand K), v[k]? = some d ↔ k < count ∧ d = ⟨k, Spec.total p.criteria k⟩ := by
    intro k d
    rw [← hsc, List.map_map, List.getElem?_map]
    by_cases hk : k < count
    · rw [List.getElem?_range hk]
      simp only [Option.map_some, Function.comp, Option.some.injEq, hk, true_and, score_eq]
      exact eq_comm
    · rw [List.getElem?_eq_none (by simp; omega)]
      simp [hk]
  have hv := bestLoop_valid v [] none (by rfl)
  simp only [List.nil_append, List.length_nil] at hv
  cases hbl : bestLoop v 0 none with
  | none =>
    rw [hbl] at hv
    have h : v = [] := hv
    have h2 := (hget 0 ⟨0, Spec.total p.criteria 0⟩).2 ⟨hc, rfl⟩
    rw [h] at h2
    simp at h2
  | some bd =>
    obtain ⟨b, best⟩ := bd
    rw [hbl] at hv
    obtain ⟨h1, h2, h3⟩ := hv
    obtain ⟨hb, rfl⟩ := (hget b best).1 h1
    refine ⟨b, ?_, hb, fun j hj => h2 j _ ((hget j _).2 ⟨hj, rfl⟩),
      fun j hj => h3 j _ hj ((hget j _).2 ⟨by omega, rfl⟩)⟩
    unfold passLoop
    simp only
    rw [hsc, hbl]
    rfl

/-- The first pass, if it is not the only one. -/
theorem findBest_cons (eps : K) (p q : Pass K) (rest : List (Pass K)) (count : ℕ) (hc : 0 < count) :
    ∃ (b : ℕ) (v : List (Cand K)), Valid v (some (b, ⟨b, Spec.total p.criteria b⟩)) ∧
      (∀ k d, v[k]? = some d ↔ k < count ∧ d = ⟨k, Spec.total p.criteria k⟩) ∧
      ((∀ r ∈ p :: q :: rest, 0 ≤ r.threshold + eps) → removeIf (p.threshold + eps) b v ≠ [] →
        ∃ i, findBest eps (p :: q :: rest) count = some i ∧ ids (removeIf (p.threshold + eps) b v) i) := by
  unfold findBest
  generalize hsc : (((List.range count).map fun i => (⟨i, 0⟩ : Cand K)).map fun c =>
    ({ c with score := p.score c.idx } : Cand K)) = v
  have hget : ∀ k (d : Cand K), v[k]? = some d ↔ k < count ∧ d = ⟨k, Spec.total p.criteria k⟩ := by
    intro k d
    rw [← hsc, List.map_map, List.getElem?_map]
    by_cases hk : k < count
    · rw [List.getElem?_range hk]
      simp only [Option.map_some, Function.comp, Option.some.injEq, hk, true_and, score_eq]
      exact eq_comm
    · rw [List.getElem?_eq_none (by simp; omega)]
      simp [hk]
  have hv := bestLoop_valid v [] none (by rfl)
  simp only [List.nil_append, List.length_nil] at hv
  cases hbl : bestLoop v 0 none with
  | none =>
    rw [hbl] at hv
    have h : v = [] := hv
    have h2 := (hget 0 ⟨0, Spec.total p.criteria 0⟩).2 ⟨hc, rfl⟩
    rw [h] at h2
    simp at h2
  | some bd =>
    obtain ⟨b, best⟩ := bd
    rw [hbl] at hv
    obtain ⟨_, rfl⟩ := (hget b best).1 hv.1
    refine ⟨b, v, hv, hget, fun hd hne => ?_⟩
    unfold passLoop
    simp only
    rw [hsc, hbl]
    simp only [List.isEmpty_cons, Bool.false_eq_true, if_false]
    split
    · rename_i hone
      obtain ⟨c, hc⟩ := List.length_eq_one_iff.1 hone
      rw [hc]
      exact ⟨c.idx, rfl, c, by simp, rfl⟩
    · obtain ⟨i, h1, h2⟩ := passLoop_chosen eps (q :: rest) (fun r hr => hd r (by simp at hr ⊢; tauto)) _ hne
      exact ⟨i, h1, chosen_mem _ _ _ h2⟩

/-! ## The seam -/

/-- The score by the main criterion. -/
def mainScore (p : Path K) (i : ℕ) : K :=
  match mainCriterion p with
  | some f => f i
  | none => 0

theorem total_main (p : Path K) (i : ℕ) : Spec.total (mainPass p).criteria i =
    5 * textureScore (paint p i) + mainScore p i + 2 * overhangScore (overhanging p i)
      - (if p.texture.isNone then 5 / 2 else 0) - (if p.overhang.isNone then 2 else 0) := by
  unfold mainPass Spec.total paint overhanging mainScore
  simp only
  have h1 : (textureScore none : K) = 1 / 2 := rfl
  have h2 : (overhangScore false : K) = 1 := by simp [overhangScore]
  cases p.texture <;> cases p.overhang <;> cases mainCriterion p <;>
    simp only [List.nil_append, List.cons_append, List.append_nil, List.map_cons, List.map_nil, List.sum_cons,
      List.sum_nil, Option.bind_none, Option.bind_some, Option.elim_none, Option.elim_some, Option.isNone_none,
      Option.isNone_some, if_true, Bool.false_eq_true, if_false, h1, h2] <;> ring

theorem passes_ok (eps : K) (he : 0 ≤ eps) (p : Path K) :
    ∀ q ∈ mainPass p :: fallbackPasses p, 0 ≤ q.threshold + eps := by
  intro q hq
  have : 0 ≤ q.threshold := by
    unfold fallbackPasses at hq
    split at hq
    · simp only [List.mem_cons, List.not_mem_nil, or_false] at hq
      rcases hq with rfl | rfl | rfl <;> norm_num [mainPass]
    · simp only [List.mem_cons, List.not_mem_nil, or_false] at hq
      subst hq
      norm_num [mainPass]
  linarith

theorem start_single (eps : K) (p : Path K) (hs : 0 < p.size) (ht : p.type ≠ .sharpestCorner) :
    startClosed eps p < p.size ∧
      (∀ j, j < p.size → 5 * textureScore (paint p j) + mainScore p j + 2 * overhangScore (overhanging p j) ≤
        5 * textureScore (paint p (startClosed eps p)) + mainScore p (startClosed eps p)
          + 2 * overhangScore (overhanging p (startClosed eps p))) := by
  have hp : fallbackPasses p = [] := by unfold fallbackPasses; rw [if_neg ht]
  obtain ⟨i, h1, h2⟩ := passLoop_chosen eps [{ mainPass p with threshold := |eps| }] (by
    intro q hq
    simp only [List.mem_singleton] at hq
    subst hq
    simp only
    linarith [neg_abs_le eps]) ((List.range p.size).map fun i => (⟨i, 0⟩ : Cand K)) (by
    intro h
    have := congrArg List.length h
    simp at this
    omega)
  have hst : startClosed eps p = i := by
    unfold startClosed findBest
    rw [hp]
    have : passLoop eps [mainPass p] ((List.range p.size).map fun i => (⟨i, 0⟩ : Cand K)) = some i := h1
    rw [this]
    rfl
  rw [hst]
  obtain ⟨h3, h4⟩ := h2
  have hids : ∀ j, ids ((List.range p.size).map fun i => (⟨i, 0⟩ : Cand K)) j ↔ j < p.size := by
    intro j; unfold ids; simp
  refine ⟨(hids i).1 h3, fun j hj => ?_⟩
  have h := h4 j ((hids j).2 hj)
  simp only at h
  rw [total_main, total_main] at h
  linarith

theorem start_slack (eps : K) (he : 0 ≤ eps) (p : Path K) (hs : 0 < p.size) :
    startClosed eps p < p.size ∧
      ∀ j, j < p.size → 5 * textureScore (paint p j) + mainScore p j + 2 * overhangScore (overhanging p j) ≤
        5 * textureScore (paint p (startClosed eps p)) + mainScore p (startClosed eps p)
          + 2 * overhangScore (overhanging p (startClosed eps p)) + 1 / 10 + 2 * eps := by
  obtain ⟨i, h1, h2⟩ := passLoop_chosen eps (mainPass p :: fallbackPasses p) (passes_ok eps he p)
    ((List.range p.size).map fun i => (⟨i, 0⟩ : Cand K)) (by
    intro h
    have := congrArg List.length h
    simp at this
    omega)
  have hst : startClosed eps p = i := by
    unfold startClosed findBest
    rw [h1]
    rfl
  rw [hst]
  have hids : ∀ j, ids ((List.range p.size).map fun i => (⟨i, 0⟩ : Cand K)) j ↔ j < p.size := by
    intro j; unfold ids; simp
  have hmain : ids ((List.range p.size).map fun i => (⟨i, 0⟩ : Cand K)) i ∧
      ∀ j, j < p.size → Spec.total (mainPass p).criteria j ≤ Spec.total (mainPass p).criteria i + 2 * (1 / 20 + eps) := by
    refine ⟨chosen_mem _ _ _ h2, fun j hj => ?_⟩
    unfold passView at h2
    cases hf : fallbackPasses p with
    | nil =>
      rw [hf] at h2
      have := h2.2 j ((hids j).2 hj)
      simp only at this
      linarith
    | cons q rest =>
      rw [hf] at h2
      obtain ⟨T, h3, h4⟩ := h2
      exact (h3.1 i (chosen_mem _ _ _ h4)).2 j ((hids j).2 hj)
  refine ⟨(hids i).1 hmain.1, fun j hj => ?_⟩
  have h := hmain.2 j hj
  rw [total_main, total_main] at h
  linarith

theorem distanceScore_le (divider : K) (hd : 0 < divider) (a b : K) (ha : 0 ≤ a) (hb : 0 ≤ b)
    (h : distanceScore divider a ≤ distanceScore divider b) : b ≤ a := by
  unfold distanceScore at h
  have h1 : 0 < 1 + a / divider := by positivity
  have h2 : 0 < 1 + b / divider := by positivity
  rw [div_le_div_iff₀ h1 h2] at h
  have h3 : b / divider ≤ a / divider := by linarith
  exact (div_le_div_iff_of_pos_right hd).1 h3

theorem distanceScore_bounds (divider : K) (hd : 0 < divider) (a : K) (ha : 0 ≤ a) :
    0 ≤ distanceScore divider a ∧ distanceScore divider a ≤ 1 := by
  unfold distanceScore
  have h0 : 0 ≤ a / divider := by positivity
  refine ⟨by positivity, ?_⟩
  rw [div_le_one (by positivity)]
  linarith

theorem cornerScore_bounds (pref : CornerPref) (a : K) (h1 : -1 ≤ a) (h2 : a ≤ 1) :
    0 ≤ cornerScore pref a ∧ cornerScore pref a ≤ 1 := by
  cases pref with
  | inner =>
    have : cornerScore .inner a = (1 - a) / 2 := by unfold cornerScore; ring
    rw [this]; constructor <;> linarith
  | outer =>
    have : cornerScore .outer a = (1 + a) / 2 := by unfold cornerScore; ring
    rw [this]; constructor <;> linarith
  | any => exact ⟨abs_nonneg a, abs_le.2 ⟨h1, h2⟩⟩
  | weighted =>
    unfold cornerScore
    simp only
    split <;> constructor <;> linarith
  | plugin => exact ⟨le_refl _, zero_le_one⟩

theorem skipDisallowed_eq (size : ℕ) (bad : ℕ → Bool) (left best : ℕ) (hb : best < size) :
    ∃ k, k ≤ left ∧ skipDisallowed size bad left best = (best + k) % size ∧
      (∀ m, m < k → bad ((best + m) % size) = true) ∧ (k < left → bad ((best + k) % size) = false) := by
  induction left generalizing best with
  | zero => exact ⟨0, le_refl _, by simp [skipDisallowed, Nat.mod_eq_of_lt hb], fun m hm => by omega, fun h => by omega⟩
  | succ left ih =>
    unfold skipDisallowed
    by_cases hbad : bad best = true
    · rw [if_pos hbad]
      have hnext : (if best + 1 < size then best + 1 else 0) = (best + 1) % size := by
        split
        · rename_i h; rw [Nat.mod_eq_of_lt h]
        · have : best + 1 = size := by omega
          rw [this, Nat.mod_self]
      rw [hnext]
      obtain ⟨k, h1, h2, h3, h4⟩ := ih ((best + 1) % size) (Nat.mod_lt _ (by omega))
      have e : ∀ m, ((best + 1) % size + m) % size = (best + (m + 1)) % size := by
        intro m
        rw [Nat.mod_add_mod]
        congr 1
        omega
      refine ⟨k + 1, by omega, by rw [h2, e], ?_, fun h => by rw [← e]; exact h4 (by omega)⟩
      intro m hm
      cases m with
      | zero => rw [Nat.add_zero, Nat.mod_eq_of_lt hb]; exact hbad
      | succ m => rw [← e]; exact h3 m (by omega)
    · rw [if_neg hbad]
      exact ⟨0, by omega, by rw [Nat.add_zero, Nat.mod_eq_of_lt hb], fun m hm => by omega, fun _ => by
        rw [Nat.add_zero, Nat.mod_eq_of_lt hb]; simpa using hbad⟩

end Verif.Seam
