import Verif.Lines.Spec
import Mathlib.Tactic.Ring
import Mathlib.Tactic.FieldSimp

/-! # Scanlines and edges -/

namespace Verif.Lines

theorem segIdx_eq (x : Int) {d : Int} (hd : 0 < d) : segIdx x d = x / d := by
  unfold segIdx
  split
  · rename_i h
    have h1 : (x + 1).tdiv d = -((-(x + 1)) / d) := by
      rw [← Int.neg_neg (x + 1), Int.neg_tdiv, Int.tdiv_eq_ediv_of_nonneg (by omega), Int.neg_neg]
    rw [h1]
    have h2 := Int.emod_add_mul_ediv (-(x + 1)) d
    have h3 := Int.emod_nonneg (-(x + 1)) hd.ne'
    have h4 := Int.emod_lt_of_pos (-(x + 1)) hd
    have h5 := Int.emod_add_mul_ediv x d
    have h6 := Int.emod_nonneg x hd.ne'
    have h7 := Int.emod_lt_of_pos x hd
    generalize (-(x + 1)) / d = q at *
    generalize x / d = r at *
    have e1 : d * (q + r + 1) < d := by nlinarith
    have e2 : -d < d * (q + r + 1) := by nlinarith
    have : q + r + 1 < 1 := by
      by_contra hc
      nlinarith
    have : -1 < q + r + 1 := by
      by_contra hc
      nlinarith
    omega
  · rename_i h
    exact Int.tdiv_eq_ediv_of_nonneg (by omega)

theorem le_segIdx {s x d : Int} (hd : 0 < d) : s ≤ segIdx x d ↔ s * d ≤ x := by
  rw [segIdx_eq x hd]
  exact Int.le_ediv_iff_mul_le hd

theorem shiftOf_dvd (s d : Int) : d ∣ shiftOf s d - s := by
  unfold shiftOf
  split
  · have := Int.mul_tdiv_add_tmod (-s) d
    exact ⟨1 + (-s).tdiv d, by linarith⟩
  · have := Int.mul_tdiv_add_tmod s d
    exact ⟨-s.tdiv d, by linarith⟩

theorem mem_scans {d shift : Int} {p0 p1 : Pt} (hd : 0 < d) {s : Int} : s ∈ scans d shift p0 p1 ↔ Meets (s * d + shift) (p0, p1) := by
  have a0 := le_segIdx (s := s) (x := p0.1 - shift) hd
  have a1 := le_segIdx (s := s) (x := p1.1 - shift) hd
  unfold scans Meets
  dsimp only
  generalize segIdx (p0.1 - shift) d = i0 at *
  generalize segIdx (p1.1 - shift) d = i1 at *
  generalize s * d = x at *
  split
  · simp only [List.not_mem_nil, false_iff]
    omega
  · split
    · rw [List.mem_map]
      constructor
      · rintro ⟨k, hk, rfl⟩
        rw [List.mem_range] at hk
        omega
      · intro h
        refine ⟨(s - (i0 + 1)).toNat, ?_, by omega⟩
        rw [List.mem_range]
        omega
    · rw [List.mem_map]
      constructor
      · rintro ⟨k, hk, rfl⟩
        rw [List.mem_range] at hk
        omega
      · intro h
        refine ⟨(i0 - s).toNat, ?_, by omega⟩
        rw [List.mem_range]
        omega

theorem scans_nodup (d shift : Int) (p0 p1 : Pt) : (scans d shift p0 p1).Nodup := by
  unfold scans
  split
  · exact List.nodup_nil
  · split
    · exact List.nodup_range.map (fun a b h => by simpa using h)
    · exact List.nodup_range.map (fun a b h => by simpa using h)

/-- Truncation is off by less than one. -/
theorem tdiv_near (a : Int) {b : Int} (hb : b ≠ 0) : |((a.tdiv b : Int) : ℚ) - a / b| < 1 := by
  have h1 := Int.mul_tdiv_add_tmod a b
  have hm : |a.tmod b| < |b| := by
    rw [Int.abs_eq_natAbs, Int.abs_eq_natAbs, Int.natAbs_tmod]
    exact_mod_cast Nat.mod_lt _ (Int.natAbs_pos.mpr hb)
  have hb' : (b : ℚ) ≠ 0 := by exact_mod_cast hb
  have h2 : ((a.tdiv b : Int) : ℚ) - a / b = -(a.tmod b : ℚ) / b := by
    have : (a : ℚ) = b * (a.tdiv b : Int) + (a.tmod b : Int) := by exact_mod_cast h1.symm
    rw [this]
    field_simp
    ring
  rw [h2, abs_div, abs_neg, div_lt_one (abs_pos.mpr hb')]
  exact_mod_cast hm

theorem crossY_near {p0 p1 : Pt} {x : Int} (h : Meets x (p0, p1)) : |height x (p0, p1) - crossY p0 p1 x| < 1 := by
  have hne : p0.1 - p1.1 ≠ 0 := by
    unfold Meets at h
    dsimp only at h
    omega
  have := tdiv_near ((p0.2 - p1.2) * (x - p1.1)) hne
  have hq : ((p0.1 : ℚ) - p1.1) ≠ 0 := by exact_mod_cast hne
  have hq' : ((p1.1 : ℚ) - p0.1) ≠ 0 := by
    intro h
    apply hq
    linarith
  have he : height x (p0, p1) = p1.2 + ((p0.2 - p1.2) * (x - p1.1) : Int) / ((p0.1 - p1.1 : Int) : ℚ) := by
    unfold height
    push_cast
    field_simp
    ring
  rw [he, abs_sub_comm]
  unfold crossY
  push_cast at this ⊢
  convert this using 2
  ring

/-! ## Crossings by scanline -/

theorem walk_crossings (d shift : Int) (p0 : Pt) (l : List Pt) : (walk d shift p0 l).filterMap Event.crossing? =
    ((p0 :: l).zip l).flatMap fun e => (scans d shift e.1 e.2).map fun s => (s, crossY e.1 e.2 (s * d + shift)) := by
  induction l generalizing p0 with
  | nil => rfl
  | cons p1 l ih =>
    rw [walk, List.filterMap_append, ih p1, List.zip_cons_cons, List.flatMap_cons]
    congr 1
    unfold edgeEvents
    rw [List.filterMap_append, List.filterMap_map]
    simp only [List.filterMap_cons, Event.crossing?, List.filterMap_nil, List.append_nil]
    rw [← List.filterMap_eq_map]
    rfl

theorem crossings_eq (d shift : Int) (outline : List (List Pt)) : crossings d shift outline =
    (allEdges outline).flatMap fun e => (scans d shift e.1 e.2).map fun s => (s, crossY e.1 e.2 (s * d + shift)) := by
  unfold crossings allEdges
  induction outline with
  | nil => rfl
  | cons poly rest ih =>
    rw [List.flatMap_cons, List.filterMap_append, ih, List.flatMap_cons, List.flatMap_append]
    congr 1
    unfold polyEvents
    rw [List.filterMap_cons]
    simp only [Event.crossing?]
    exact walk_crossings ..

/-- The heights at one scanline. -/
theorem scan_heights {d shift : Int} (hd : 0 < d) (s : Int) (es : List (Pt × Pt)) :
    ((es.flatMap fun e => (scans d shift e.1 e.2).map fun s => (s, crossY e.1 e.2 (s * d + shift))).filter (·.1 = s)).map (·.2) =
      (es.filter fun e => decide (Meets (s * d + shift) e)).map fun e => crossY e.1 e.2 (s * d + shift) := by
  induction es with
  | nil => rfl
  | cons e es ih =>
    rw [List.flatMap_cons, List.filter_append, List.map_append, ih, List.filter_map]
    have h1 : ((scans d shift e.1 e.2).filter ((fun x => decide (x.1 = s)) ∘ fun s => (s, crossY e.1 e.2 (s * d + shift)))) =
        if Meets (s * d + shift) e then [s] else [] := by
      have hn := scans_nodup d shift e.1 e.2
      have hm := mem_scans (p0 := e.1) (p1 := e.2) (shift := shift) hd (s := s)
      have : ((fun x : Int × Int => decide (x.1 = s)) ∘ fun s => (s, crossY e.1 e.2 (s * d + shift))) = fun x => decide (x = s) := rfl
      rw [this]
      generalize scans d shift e.1 e.2 = l at *
      rw [show (fun x => decide (x = s)) = (fun x => x == s) from rfl, List.filter_beq]
      split
      · rename_i h
        rw [List.count_eq_one_of_mem hn (hm.mpr h)]
        rfl
      · rename_i h
        rw [List.count_eq_zero_of_not_mem (fun hc => h (hm.mp hc))]
        rfl
    rw [h1, List.filter_cons]
    by_cases h : Meets (s * d + shift) e
    · simp [h]
    · simp [h]

/-! ## The list of cuts -/

theorem foldlM_cuts (min : Int) (l : List (Int × Int)) (cuts : List (List Int)) (h : ∀ c ∈ l, 0 ≤ c.1 - (min + 1) ∧ (c.1 - min).toNat < cuts.length) :
    ∃ cuts', l.foldlM (pushCut min) cuts = some cuts' ∧ cuts'.length = cuts.length ∧
      ∀ (i : Nat) (hi : i < cuts.length) (hi' : i < cuts'.length), cuts'[i] = cuts[i] ++ ((l.filter fun c => decide (c.1 = min + i)).map (·.2)) := by
  induction l generalizing cuts with
  | nil => exact ⟨cuts, rfl, rfl, by simp⟩
  | cons c l ih =>
    have hc := h c (by simp)
    have h1 : pushCut min cuts c = some (cuts.modify (c.1 - min).toNat (· ++ [c.2])) := by
      unfold pushCut
      rw [if_pos hc]
    obtain ⟨cuts', h2, h3, h4⟩ := ih (cuts.modify (c.1 - min).toNat (· ++ [c.2])) (by
      intro x hx
      rw [List.length_modify]
      exact h x (by simp [hx]))
    rw [List.length_modify] at h3
    refine ⟨cuts', ?_, h3, ?_⟩
    · rw [List.foldlM_cons, h1]
      exact h2
    · intro i hi hi'
      rw [h4 i (by rw [List.length_modify]; exact hi) hi', List.getElem_modify, List.filter_cons]
      by_cases he : (c.1 - min).toNat = i
      · have : c.1 = min + i := by omega
        rw [if_pos he, if_pos (by simpa using this)]
        simp
      · have : ¬ c.1 = min + i := by omega
        rw [if_neg he, if_neg (by simpa using this)]

end Verif.Lines
