import Verif.Voxel.Lemmas

/-! # C120: walking through voxels -/

namespace Verif.Voxel

open Spec

/-- Walking along a line ends, and calls the function exactly for cells that the line is in or touches, at every place of it, from the cell of its start to one with its end, each beside the one before and none twice. -/
theorem C120_line (size start end' : P3) (hs : ∀ d, 0 < size d) :
    ∃ N l, (∀ n, N ≤ n → walkLine size start end' n = some l) ∧ l.head? = some (toCell size start) ∧
      (∀ t, 0 ≤ t → t ≤ 1 → ∃ v ∈ l, In size v (along start (fun d => end' d - start d) t)) ∧
      (∀ v ∈ l, ∃ t, 0 ≤ t ∧ t ≤ 1 ∧ In size v (along start (fun d => end' d - start d) t)) ∧
      l.IsChain Beside ∧ l.Nodup ∧ ∃ v, l.getLast? = some v ∧ In size v fun d => end' d := by
  by_cases he : toCell size start = toCell size end'
  · have h1 := toCell_in size start hs
    have h2 : In size (toCell size start) fun d => end' d := by rw [he]; exact toCell_in size end' hs
    rw [← along_zero start fun d => end' d - start d] at h1
    have h3 := h2
    rw [← along_one start] at h3
    refine ⟨0, [toCell size start], fun n _ => by rw [walkLine]; exact if_pos he, rfl, fun t a b => ⟨_, by simp, in_between h1 h3 a b⟩, ?_, List.IsChain.singleton _, List.nodup_singleton _, _, rfl, h2⟩
    intro v hv
    rw [List.mem_singleton] at hv
    subst hv
    exact ⟨0, le_refl _, by norm_num, h1⟩
  · have hd : ∃ d, end' d - start d ≠ 0 := by
      by_contra hc
      simp only [not_exists, not_not] at hc
      exact he (by rw [show start = end' from funext fun d => by have := hc d; omega])
    have h1 := toCell_in size start hs
    rw [← along_zero start fun d => end' d - start d] at h1
    have key := fun n hn => walkLoop_spec (size := size) (start := start) (diff := fun d => end' d - start d) hs hd (n := n) (cell := toCell size start) (t0 := 0) (le_refl _) (by norm_num) h1 hn
    generalize hT : total size (fun d => start d + (end' d - start d)) (fun d => end' d - start d) (toCell size start) = T at key
    obtain ⟨l, l1, l2, l3, l4, l5, ⟨l6, _⟩, l7⟩ := key (T + 1) (by omega)
    refine ⟨T + 1, l, ?_, l2, l3, l4, l5, l6, ?_⟩
    · intro n hn
      rw [walkLine]
      exact (if_neg he).trans (walkLoop_mono l1 hn)
    · obtain ⟨v, v1, v2⟩ := l7
      exact ⟨v, v1, by rw [along_one] at v2; exact v2⟩

/-- A kernel has exactly the cells around the middle, of a prism those within a diamond seen from above, and of a diamond those within an octahedron: no rounding changes them. -/
theorem C120_kernel (size : P3) (kind : Kind) (hs : ∀ d, 0 < size d) (v : P3) :
    v ∈ kernel size kind ↔ (∀ d, InRange (size d) (v d)) ∧ (kind = .prism → far (size 0) (v 0) + far (size 1) (v 1) ≤ 1) ∧
      (kind = .diamond → far (size 0) (v 0) + far (size 1) (v 1) + far (size 2) (v 2) ≤ 1) := by
  have h2 : ∀ d, (size d).tdiv 2 = size d / 2 := fun d => Int.tdiv_eq_ediv_of_nonneg (le_of_lt (hs d))
  have hM : 0 ≤ size 0 * size 1 * size 2 := by have := hs 0; have := hs 1; have := hs 2; positivity
  have hmem : v ∈ kernel size kind ↔ (∀ d, InRange (size d) (v d)) ∧
      ¬ ((kind = .diamond ∧ relDist (size 0 * size 1 * size 2) (-((size 0).tdiv 2)) (size 0 - (size 0).tdiv 2) (v 0) + relDist (size 0 * size 1 * size 2) (-((size 1).tdiv 2)) (size 1 - (size 1).tdiv 2) (v 1)
        + relDist (size 0 * size 1 * size 2) (-((size 2).tdiv 2)) (size 2 - (size 2).tdiv 2) (v 2) > size 0 * size 1 * size 2) ∨
        (kind = .prism ∧ relDist (size 0 * size 1 * size 2) (-((size 0).tdiv 2)) (size 0 - (size 0).tdiv 2) (v 0) + relDist (size 0 * size 1 * size 2) (-((size 1).tdiv 2)) (size 1 - (size 1).tdiv 2) (v 1) > size 0 * size 1 * size 2)) := by
    simp only [kernel, List.mem_flatMap, List.mem_filterMap, mem_upTo]
    constructor
    · rintro ⟨x, hx, y, hy, z, hz, h⟩
      split at h
      · exact absurd h (by simp)
      · rename_i hc
        simp only [Option.some.injEq] at h
        subst h
        refine ⟨?_, hc⟩
        intro d
        rw [InRange, ← h2]
        have h3 : d = 0 ∨ d = 1 ∨ d = 2 := by revert d; decide
        rcases h3 with rfl | rfl | rfl
        · exact hx
        · exact hy
        · exact hz
    · rintro ⟨h, hc⟩
      have hr := fun d => h d
      simp only [InRange, ← h2] at hr
      refine ⟨v 0, hr 0, v 1, hr 1, v 2, hr 2, ?_⟩
      rw [if_neg hc]
      congr 1
      funext d
      have h3 : d = 0 ∨ d = 1 ∨ d = 2 := by revert d; decide
      rcases h3 with rfl | rfl | rfl <;> rfl
  rw [hmem]
  refine and_congr_right fun hr => ?_
  obtain ⟨a, k, a1, a2, a3, a4, a5, a6⟩ := relDist_spec (hs 0) hM (hr 0)
  obtain ⟨b, m, b1, b2, b3, b4, b5, b6⟩ := relDist_spec (hs 1) hM (hr 1)
  obtain ⟨c, n, c1, c2, c3, c4, c5, c6⟩ := relDist_spec (hs 2) hM (hr 2)
  rw [a5, b5, c5, a6, b6, c6]
  have k0 : (0 : Rat) < k := by exact_mod_cast (show (0 : Int) < k by omega)
  have m0 : (0 : Rat) < m := by exact_mod_cast (show (0 : Int) < m by omega)
  have n0 : (0 : Rat) < n := by exact_mod_cast (show (0 : Int) < n by omega)
  have e2 : (a : Rat) / k + b / m ≤ 1 ↔ a * m + b * k ≤ k * m := by
    rw [div_add_div _ _ (ne_of_gt k0) (ne_of_gt m0), div_le_one (by positivity)]
    have : (a : Rat) * m + k * b ≤ k * m ↔ a * m + k * b ≤ k * m := by exact_mod_cast Iff.rfl
    rw [this, Int.mul_comm k b]
  have e3 : (a : Rat) / k + b / m + c / n ≤ 1 ↔ a * (m * n) + b * (k * n) + c * (k * m) ≤ k * m * n := by
    rw [div_add_div _ _ (ne_of_gt k0) (ne_of_gt m0), div_add_div _ _ (by positivity) (ne_of_gt n0), div_le_one (by positivity)]
    have : ((a : Rat) * m + k * b) * n + k * m * c ≤ k * m * n ↔ (a * m + k * b) * n + k * m * c ≤ k * m * n := by exact_mod_cast Iff.rfl
    rw [this]
    constructor <;> intro h <;> linarith
  rw [e2, e3, ← two_parts rfl (hs 2) (hs 0) (hs 1) a1 a2 a3 a4 b1 b2 b3 b4, ← three_parts rfl (hs 0) (hs 1) (hs 2) a1 a2 a3 a4 b1 b2 b3 b4 c1 c2 c3 c4]
  rw [not_or]
  constructor
  · rintro ⟨h1, h2⟩
    exact ⟨fun hk => not_lt.1 fun hlt => h2 ⟨hk, hlt⟩, fun hk => not_lt.1 fun hlt => h1 ⟨hk, hlt⟩⟩
  · rintro ⟨h1, h2⟩
    exact ⟨fun ⟨hk, hlt⟩ => absurd (h2 hk) (not_le.2 hlt), fun ⟨hk, hlt⟩ => absurd (h1 hk) (not_le.2 hlt)⟩

/-- Walking along polygons ends, and calls the function exactly for cells which a side of them is in or touches, at every place of every side. -/
theorem C120_polygons (size : P3) (z : Int) (polys : List (List P2)) (hs : ∀ d, 0 < size d) (hp : ∀ poly ∈ polys, poly ≠ []) :
    ∃ N l, (∀ n, N ≤ n → walkPolygons size z n polys = some l) ∧
      (∀ poly ∈ polys, ∀ a b : P2, Side poly a b → ∀ t, 0 ≤ t → t ≤ 1 → ∃ v ∈ l, In size v (along ![a.1, a.2, z] (fun d => (![b.1, b.2, z] : P3) d - (![a.1, a.2, z] : P3) d) t)) ∧
      (∀ v ∈ l, ∃ poly ∈ polys, ∃ a b : P2, Side poly a b ∧ ∃ t, 0 ≤ t ∧ t ≤ 1 ∧ In size v (along ![a.1, a.2, z] (fun d => (![b.1, b.2, z] : P3) d - (![a.1, a.2, z] : P3) d) t)) := by
  have hl : ∀ ls : List (P2 × P2), ∃ N l, (∀ n, N ≤ n → walkLines size z n ls = some l) ∧
      (∀ x ∈ ls, ∀ t, 0 ≤ t → t ≤ 1 → ∃ v ∈ l, In size v (along ![x.1.1, x.1.2, z] (fun d => (![x.2.1, x.2.2, z] : P3) d - (![x.1.1, x.1.2, z] : P3) d) t)) ∧
      (∀ v ∈ l, ∃ x ∈ ls, ∃ t, 0 ≤ t ∧ t ≤ 1 ∧ In size v (along ![x.1.1, x.1.2, z] (fun d => (![x.2.1, x.2.2, z] : P3) d - (![x.1.1, x.1.2, z] : P3) d) t)) := by
    intro ls
    induction ls with
    | nil => exact ⟨0, [], fun _ _ => rfl, by simp, by simp⟩
    | cons x xs ih =>
      obtain ⟨N1, l1, a1, _, a3, a4, _⟩ := C120_line size ![x.1.1, x.1.2, z] ![x.2.1, x.2.2, z] hs
      obtain ⟨N2, l2, b1, b2, b3⟩ := ih
      refine ⟨max N1 N2, l1 ++ l2, ?_, ?_, ?_⟩
      · intro n hn
        rw [walkLines, a1 n (by omega), b1 n (by omega)]
        rfl
      · intro y hy t h0 h1
        rcases List.mem_cons.1 hy with rfl | hy
        · obtain ⟨v, hv, hv'⟩ := a3 t h0 h1
          exact ⟨v, List.mem_append_left _ hv, hv'⟩
        · obtain ⟨v, hv, hv'⟩ := b2 y hy t h0 h1
          exact ⟨v, List.mem_append_right _ hv, hv'⟩
      · intro v hv
        rcases List.mem_append.1 hv with hv | hv
        · exact ⟨x, List.mem_cons_self, a4 v hv⟩
        · obtain ⟨y, hy, h⟩ := b3 v hv
          exact ⟨y, List.mem_cons_of_mem _ hy, h⟩
  induction polys with
  | nil => exact ⟨0, [], fun _ _ => rfl, by simp, by simp⟩
  | cons poly polys ih =>
    obtain ⟨last, hlast⟩ : ∃ x, poly.getLast? = some x := by
      cases h : poly.getLast? with
      | none => rw [List.getLast?_eq_none_iff] at h; exact absurd h (hp poly (by simp))
      | some x => exact ⟨x, rfl⟩
    obtain ⟨N1, l1, a1, a2, a3⟩ := hl (linesFrom last poly)
    obtain ⟨N2, l2, b1, b2, b3⟩ := ih fun q hq => hp q (List.mem_cons_of_mem _ hq)
    have hside : ∀ a b : P2, Side poly a b ↔ (a, b) ∈ linesFrom last poly := by
      intro a b
      rw [linesFrom_mem, Side, hlast, Option.some.injEq]
      dsimp only
      exact ⟨fun h => h.elim Or.inr fun ⟨x, y⟩ => Or.inl ⟨x.symm, y⟩, fun h => h.elim (fun ⟨x, y⟩ => Or.inr ⟨x.symm, y⟩) Or.inl⟩
    refine ⟨max N1 N2, l1 ++ l2, ?_, ?_, ?_⟩
    · intro n hn
      rw [walkPolygons, hlast]
      show (do let a ← walkLines size z n (linesFrom last poly); let b ← walkPolygons size z n polys; pure (a ++ b)) = _
      rw [a1 n (by omega), b1 n (by omega)]
      rfl
    · intro q hq a b hab t h0 h1
      rcases List.mem_cons.1 hq with rfl | hq
      · obtain ⟨v, hv, hv'⟩ := a2 (a, b) ((hside a b).1 hab) t h0 h1
        exact ⟨v, List.mem_append_left _ hv, hv'⟩
      · obtain ⟨v, hv, hv'⟩ := b2 q hq a b hab t h0 h1
        exact ⟨v, List.mem_append_right _ hv, hv'⟩
    · intro v hv
      rcases List.mem_append.1 hv with hv | hv
      · obtain ⟨⟨a, b⟩, hx, h⟩ := a3 v hv
        exact ⟨poly, List.mem_cons_self, a, b, (hside a b).2 hx, h⟩
      · obtain ⟨q, hq, h⟩ := b3 v hv
        exact ⟨q, List.mem_cons_of_mem _ hq, h⟩

/-- Walking along polygons with a kernel of one length in the plane calls the function exactly for the cells of the kernel around every cell the polygons are in, moved by half a cell if the kernel has no middle. -/
theorem C120_dilated (size ksize : P3) (kind : Kind) (z : Int) (n : Nat) (polys : List (List P2)) (w k : Int) (hw : size 0 = w ∧ size 1 = w) (hw1 : 1 < w)
    (hk : ksize 0 = k ∧ ksize 1 = k) (hk0 : 0 < k) (hz : 0 < size 2) (hkz : 0 < ksize 2) {cells : List P3} (h : walkDilatedPolygons size ksize kind z n polys = some cells) :
    ∃ base, walkPolygons size (z + if ksize 2 % 2 = 0 then size 2 / 2 else 0) n (polys.map fun poly => poly.map fun p => if k % 2 = 0 then (p.1 + w / 2, p.2 + w / 2) else p) = some base ∧
      ∀ v, v ∈ cells ↔ ∃ u ∈ base, ∃ r ∈ kernel ksize kind, ∀ d, v d = u d + r d := by
  have hshift : ∀ d, 0 < ksize d → 0 < size d → shift ksize size d = if ksize d % 2 = 0 then size d / 2 else 0 := by
    intro d h1 h2
    rw [shift, Int.tmod_eq_emod_of_nonneg (by omega)]
    rcases Int.emod_two_eq_zero_or_one (ksize d) with h | h <;> rw [h]
    · rw [if_pos rfl, Int.tdiv_eq_ediv_of_nonneg (by omega)]
      congr 1
      omega
    · simp
  obtain ⟨w0, w1⟩ := hw
  obtain ⟨k0, k1⟩ := hk
  have s0 := hshift 0 (by omega) (by omega)
  have s1 := hshift 1 (by omega) (by omega)
  rw [k0, w0] at s0
  rw [k1, w1] at s1
  simp only [walkDilatedPolygons, s0, s1, hshift 2 hkz hz, Option.map_eq_some_iff] at h
  obtain ⟨base, h1, h2⟩ := h
  refine ⟨base, ?_, ?_⟩
  · rw [← h1]
    congr 1
    by_cases he : k % 2 = 0
    · simp only [he, if_true]
      rw [if_pos (by omega)]
    · simp only [he, if_false]
      simp
  · intro v
    rw [← h2]
    simp only [List.mem_flatMap, dilate, List.mem_map]
    constructor
    · rintro ⟨u, hu, r, hr, rfl⟩
      exact ⟨u, hu, r, hr, fun d => rfl⟩
    · rintro ⟨u, hu, r, hr, h⟩
      exact ⟨u, hu, r, hr, funext fun d => (h d).symm⟩

/-- A kernel of two cells per direction has no middle, but of the four cells around one its prism leaves out only one: it is not the same on all sides. -/
theorem C120_even_counterexample : ![0, 0, 0] ∈ kernel ![2, 2, 1] .prism ∧ ![-1, 0, 0] ∈ kernel ![2, 2, 1] .prism ∧ ![0, -1, 0] ∈ kernel ![2, 2, 1] .prism ∧ ![-1, -1, 0] ∉ kernel ![2, 2, 1] .prism := by
  decide +kernel

end Verif.Voxel
