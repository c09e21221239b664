import Verif.Lines.CoverLemmas

/-! # The lines of an outline -/

namespace Verif.Lines

theorem segs_x {d w m x0 : Int} {cuts : List (List Int)} {s : Seg} (h : s ∈ segs d w m x0 cuts) : ∃ i : Nat, s.x = x0 + i * d := by
  induction cuts generalizing x0 with
  | nil => simp [segs] at h
  | cons c rest ih =>
    unfold segs at h
    split at h
    · rw [List.mem_append] at h
      rcases h with h | h
      · rw [List.mem_map] at h
        obtain ⟨ab, -, rfl⟩ := h
        exact ⟨0, by simp⟩
      · obtain ⟨i, hi⟩ := ih h
        exact ⟨i + 1, by rw [hi]; push_cast; ring⟩
    · simp at h

theorem tdiv5_le {w b a : Int} (h : 0 < b - a) (h' : b - a < w.tdiv 5) : ((b : ℚ) - a) < w / 5 := by
  have hw : 0 ≤ w := by
    by_contra hc
    have : w.tdiv 5 ≤ 0 := by
      rw [← Int.neg_neg w, Int.neg_tdiv, Int.tdiv_eq_ediv_of_nonneg (by omega)]
      omega
    omega
  have h1 : 5 * w.tdiv 5 ≤ w := by
    have := Int.mul_tdiv_add_tmod w 5
    have := Int.tmod_nonneg (a := w) 5 hw
    omega
  have h2 : 5 * ((b : ℚ) - a) < w := by
    have : 5 * (b - a) < w := by omega
    exact_mod_cast this
  rw [lt_div_iff₀ (by norm_num)]
  linarith

theorem lines_good {d shift' shift width : Int} (hd : 0 < d) (hshift : d ∣ shift' - shift) (outline : List (List Pt)) :
    ∃ cuts, (crossings d shift' outline).foldlM (pushCut (segIdx (minX outline - shift') d))
        (List.replicate (segIdx (maxX outline - shift') d + 1 - segIdx (minX outline - shift') d).toNat []) = some cuts ∧ (cuts.length = 1 → cuts = [[]]) ∧
      Good d shift width outline (segs d width (maxX outline) (segIdx (minX outline - shift') d * d + shift') cuts) := by
  set mn := segIdx (minX outline - shift') d with hmn
  set mx := segIdx (maxX outline - shift') d with hmx
  have hrange : ∀ (s : Int) (e : Pt × Pt), e ∈ allEdges outline → Meets (s * d + shift') e → mn < s ∧ s ≤ mx := by
    intro s e he hm
    obtain ⟨h1, h2⟩ := meets_bounds he hm
    refine ⟨?_, (le_segIdx hd).mpr (by omega)⟩
    by_contra hc
    have := (le_segIdx hd).mp (not_lt.mp hc)
    omega
  obtain ⟨cuts, h1, h2, h3⟩ := foldlM_cuts mn (crossings d shift' outline) (List.replicate (mx + 1 - mn).toNat []) (by
    intro c hc
    rw [crossings_eq, List.mem_flatMap] at hc
    obtain ⟨e, he, hc⟩ := hc
    rw [List.mem_map] at hc
    obtain ⟨s, hs, rfl⟩ := hc
    have := hrange s e he ((mem_scans hd).mp hs)
    rw [List.length_replicate]
    dsimp only
    omega)
  rw [List.length_replicate] at h2
  refine ⟨cuts, h1, ?_, ?_, ?_⟩
  · intro hl
    have h0 := h3 0 (by rw [List.length_replicate]; omega) (by omega)
    rw [List.getElem_replicate, List.nil_append, List.filter_eq_nil_iff.mpr, List.map_nil] at h0
    · rw [List.length_eq_one_iff] at hl
      obtain ⟨a, rfl⟩ := hl
      rw [List.getElem_cons_zero] at h0
      rw [h0]
    · intro c hc
      rw [crossings_eq, List.mem_flatMap] at hc
      obtain ⟨e, he, hc⟩ := hc
      rw [List.mem_map] at hc
      obtain ⟨s, hs, rfl⟩ := hc
      have := hrange s e he ((mem_scans hd).mp hs)
      simp only [decide_eq_true_eq]
      omega
  · intro s hs
    obtain ⟨i, hi⟩ := segs_x hs
    rw [hi]
    have : mn * d + shift' + i * d - shift = d * (mn + i) + (shift' - shift) := by ring
    rw [this]
    exact (dvd_mul_right _ _).add hshift
  · intro x y hnear
    have hcov := covered_segs hd width (maxX outline) (mn * d + shift') cuts x y
    -- the heights at scanline number `i`
    have hcut : ∀ (i : Nat) (hi : i < cuts.length), x = mn * d + shift' + i * d →
        cuts[i] = ((allEdges outline).filter fun e => decide (Meets x e)).map fun e => crossY e.1 e.2 x := by
      intro i hi hx
      have hx' : (mn + i) * d + shift' = x := by rw [hx]; ring
      rw [h3 i (by rw [List.length_replicate]; omega) hi, List.getElem_replicate, List.nil_append, crossings_eq, scan_heights hd, hx']
    have hpair : ∀ (i : Nat) (hi : i < cuts.length), x = mn * d + shift' + i * d →
        cov (pairUp width (sorted cuts[i])) y ≤ 1 ∧ (cov (pairUp width (sorted cuts[i])) y = 1 → Inside outline x y) ∧
        (Inside outline x y → cov (pairUp width (sorted cuts[i])) y = 1 ∨ Thin outline width x y) := by
      intro i hi hx
      have hc := hcut i hi hx
      have hperm : (sorted cuts[i]).Perm cuts[i] := List.perm_insertionSort _ _
      have hmem : ∀ a ∈ sorted cuts[i], ∃ e ∈ allEdges outline, Meets x e ∧ |height x e - a| < 1 := by
        intro a ha
        rw [hperm.mem_iff, hc, List.mem_map] at ha
        obtain ⟨e, he, rfl⟩ := ha
        rw [List.mem_filter, decide_eq_true_eq] at he
        exact ⟨e, he.1, he.2, crossY_near he.2⟩
      have hside : ∀ e ∈ allEdges outline, Meets x e → ∀ a : Int, |height x e - a| < 1 → ((a : ℚ) < y ↔ height x e < y) ∧ (y < a ↔ y < height x e) ∧ (a : ℚ) ≠ y := by
        intro e he hm a ha
        have hn : ¬ |height x e - y| ≤ 1 := fun h => hnear ⟨e, he, hm, h⟩
        rw [abs_le, not_and_or, not_le, not_le] at hn
        rw [abs_lt] at ha
        rcases hn with hn | hn
        · refine ⟨⟨fun _ => by linarith, fun _ => by linarith⟩, ⟨fun _ => by linarith, fun _ => by linarith⟩, by linarith⟩
        · refine ⟨⟨fun _ => by linarith, fun _ => by linarith⟩, ⟨fun _ => by linarith, fun _ => by linarith⟩, by linarith⟩
      have hbelow : below (sorted cuts[i]) y = (allEdges outline).countP fun e => decide (Meets x e ∧ height x e < y) := by
        unfold below
        rw [hperm.countP_eq, hc, List.countP_map, List.countP_filter]
        apply List.countP_congr
        intro e he
        simp only [Function.comp, Bool.and_eq_true, decide_eq_true_eq]
        constructor
        · rintro ⟨h, hm⟩
          exact ⟨hm, ((hside e he hm _ (crossY_near hm)).1).mp h⟩
        · rintro ⟨hm, h⟩
          exact ⟨((hside e he hm _ (crossY_near hm)).1).mpr h, hm⟩
      have heven : Even (sorted cuts[i]).length := by
        rw [hperm.length_eq, hc, List.length_map, ← List.countP_eq_length_filter]
        exact allEdges_even x outline
      obtain ⟨g1, g2, g3⟩ := pairUp_cov width (sorted cuts[i]) (List.pairwise_insertionSort _ _) heven (y := y) (by
        intro a ha
        obtain ⟨e, he, hm, h⟩ := hmem a ha
        exact (hside e he hm a h).2.2)
      rw [hbelow] at g2 g3
      refine ⟨g1, g2, fun h => ?_⟩
      rcases g3 h with h | ⟨a, ha, b, hb, hay, hyb, hw⟩
      · exact .inl h
      · right
        obtain ⟨e, he, hm, hn⟩ := hmem a ha
        obtain ⟨e', he', hm', hn'⟩ := hmem b hb
        refine ⟨e, he, e', he', hm, hm', ((hside e he hm a hn).1).mp hay, ((hside e' he' hm' b hn').2.1).mp hyb, ?_⟩
        have hab : (a : ℚ) < b := hay.trans hyb
        have hab' : 0 < b - a := by
          have : a < b := by exact_mod_cast hab
          omega
        have := tdiv5_le hab' hw
        rw [abs_lt] at hn hn'
        linarith
    by_cases hex : ∃ i : Nat, i < cuts.length ∧ x = mn * d + shift' + i * d ∧ x < maxX outline
    · obtain ⟨i, hi, hx, hxm⟩ := hex
      rw [hcov.1 i hi hx hxm]
      obtain ⟨g1, g2, g3⟩ := hpair i hi hx
      refine ⟨g1, fun h => ⟨?_, g2 h⟩, fun _ _ h => g3 h⟩
      have : x - shift = d * (mn + i) + (shift' - shift) := by rw [hx]; ring
      rw [this]
      exact (dvd_mul_right _ _).add hshift
    · rw [hcov.2 (fun i hi hx hxm => hex ⟨i, hi, hx, hxm⟩)]
      refine ⟨by simp, by simp, fun hdv hright hin => ?_⟩
      exfalso
      apply hex
      obtain ⟨k, hk⟩ : d ∣ x - shift' := by
        have := hdv.sub hshift
        rwa [show x - shift - (shift' - shift) = x - shift' by ring] at this
      have hxk : x = k * d + shift' := by linarith
      have hpos : 0 < (allEdges outline).countP fun e => decide (Meets x e ∧ height x e < y) := hin.pos
      rw [List.countP_pos_iff] at hpos
      obtain ⟨e, he, hm⟩ := hpos
      rw [decide_eq_true_eq] at hm
      obtain ⟨r1, r2⟩ := hrange k e he (hxk ▸ hm.1)
      obtain ⟨p, hp, hxp⟩ := hright
      refine ⟨(k - mn).toNat, by omega, ?_, hxp.trans_le (le_maxX hp)⟩
      rw [hxk, Int.toNat_of_nonneg (by omega)]
      ring

end Verif.Lines
