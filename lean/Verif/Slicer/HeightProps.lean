import Verif.Slicer.InterpLemmas
import Mathlib.Tactic.NormNum
import Mathlib.Data.Rat.Cast.Order

/-! # C31 and C33: heights of the layers, accuracy of cut points -/

namespace Verif.Slicer

/-! ## C31 -/

/-- The span of a layer: the first layer has its own thickness. -/
def layerBottom (init thickness : Int) (n : Nat) : Int := if n = 0 then 0 else init + thickness * ((n : Int) - 1)

def layerThickness (init thickness : Int) (n : Nat) : Int := if n = 0 then init else thickness

/-- **C31**: for positive thicknesses the layers are sliced at strictly increasing heights, at the documented height within
the layer: in the middle (rounded down), or, with the inclusive and exclusive tolerance, at the bottom; with the exclusive
tolerance the first layer is sliced at the bottom as if it had the regular thickness (but not below the bed). -/
theorem C31_heights (count : Nat) (hc : 0 < count) (tol : Tolerance) (init thickness : Int) (hi : 0 < init)
    (ht : 0 < thickness) : ∃ zs : List Int, layerHeights count tol init thickness none = .ok zs ∧ zs.length = count ∧
      zs.Pairwise (· < ·) ∧
      ∀ n (hn : n < zs.length), zs[n] =
        if tol = .MIDDLE then layerBottom init thickness n + layerThickness init thickness n / 2
        else if tol ≠ .INCLUSIVE ∧ n = 0 then max 0 (init - thickness)
        else layerBottom init thickness n := by
  let f : Nat → Int := fun n =>
    if tol = .MIDDLE then layerBottom init thickness n + layerThickness init thickness n / 2
        else if tol ≠ .INCLUSIVE ∧ n = 0 then max 0 (init - thickness)
        else layerBottom init thickness n
  have hz : ∀ n, layerZ tol init thickness none n = .ok (f n) := by
    intro n
    show Outcome.ok _ = Outcome.ok _
    congr 1
    simp only [f, layerBottom, layerThickness]
    have e1 : init.tdiv 2 = init / 2 := Int.tdiv_eq_ediv_of_nonneg (by omega)
    have e2 : thickness.tdiv 2 = thickness / 2 := Int.tdiv_eq_ediv_of_nonneg (by omega)
    rw [e1, e2]
    by_cases hn : n = 0
    · subst hn
      cases tol <;> simp
    · cases tol <;> simp [hn]
      ring
  have hmap : ∀ l : List Nat, l.mapM (layerZ tol init thickness none) = .ok (l.map f) := by
    intro l
    induction l with
    | nil => rfl
    | cons a l ih => rw [List.mapM_cons, hz, ih]; rfl
  refine ⟨(List.range count).map f, ?_, by simp, ?_, fun n hn => by simp [f]⟩
  · unfold layerHeights
    rw [if_neg (by omega), hmap]
  · rw [List.pairwise_map]
    refine List.Pairwise.imp ?_ List.pairwise_lt_range
    intro a b hab
    have hb : b ≠ 0 := by omega
    have hmul : ∀ k l : Int, k + 1 ≤ l → thickness * k + thickness ≤ thickness * l := by
      intro k l h
      calc thickness * k + thickness = thickness * (k + 1) := by ring
        _ ≤ thickness * l := mul_le_mul_of_nonneg_left h (by omega)
    simp only [f, layerBottom, layerThickness, if_neg hb]
    have hb0 : 0 ≤ thickness * ((b : Int) - 1) := mul_nonneg (by omega) (by omega)
    by_cases ha : a = 0
    · subst ha
      cases tol <;> simp [hb] <;> omega
    · have := hmul ((a : Int) - 1) ((b : Int) - 1) (by omega)
      cases tol <;> simp [ha, hb] <;> omega

/-- **C31**: with adaptive layers the heights are the adaptive positions (as long as there are enough of them). -/
theorem C31_adaptive (count : Nat) (hc : 0 < count) (tol : Tolerance) (init thickness : Int) (zs : List Int)
    (hl : count ≤ zs.length) : layerHeights count tol init thickness (some zs) = .ok (zs.take count) := by
  have hmap : ∀ k, k ≤ zs.length → (List.range k).mapM (layerZ tol init thickness (some zs)) = .ok (zs.take k) := by
    intro k
    induction k with
    | zero => intro _; rfl
    | succ k ih =>
      intro hk
      rw [List.range_succ, List.mapM_append, ih (by omega)]
      have : layerZ tol init thickness (some zs) k = .ok zs[k] := by
        show Outcome.index zs k = _
        rw [Outcome.index_eq_ok, List.getElem?_eq_getElem]
      simp only [List.mapM_cons, List.mapM_nil, this, Outcome.bind_ok, Outcome.pure_eq]
      rw [List.take_add_one, List.getElem?_eq_getElem (by omega)]
      rfl
  unfold layerHeights
  rw [if_neg (by omega), hmap count hl]

example : layerHeights 4 .MIDDLE 270 100 none = .ok [135, 320, 420, 520] ∧
    layerHeights 4 .INCLUSIVE 270 100 none = .ok [0, 270, 370, 470] ∧
    layerHeights 4 .EXCLUSIVE 270 100 none = .ok [170, 270, 370, 470] ∧
    layerHeights 2 .EXCLUSIVE 270 100 (some [20, 90, 100]) = .ok [20, 90] := by decide

/-! ## C33 -/

/-- The exact intersection. -/
def exactCut (x x0 x1 y0 y1 : Int) : ℚ := y0 + ((y1 : ℚ) - y0) * ((x : ℚ) - x0) / ((x1 : ℚ) - x0)

theorem exactCut_neg (x x0 x1 y0 y1 : Int) : exactCut x x0 x1 (-y0) (-y1) = -exactCut x x0 x1 y0 y1 := by
  unfold exactCut; push_cast; ring

/-- **C33**: seen from the lower end the cut point is less than one unit off. -/
theorem C33_from_below (x x0 x1 y0 y1 : Int) (h : x0 < x1) (hx : x0 ≤ x) (hx' : x ≤ x1) :
    |(interpolate x x0 x1 y0 y1 : ℚ) - exactCut x x0 x1 y0 y1| < 1 := by
  have key : ∀ y0 y1 : Int, y0 ≤ y1 → |(interpolate x x0 x1 y0 y1 : ℚ) - exactCut x x0 x1 y0 y1| < 1 := by
    intro y0 y1 hy
    obtain ⟨_, _, h3, h4⟩ := up_bounds h hx hx' hy
    generalize interpolate x x0 x1 y0 y1 = r at *
    have hd : (0 : ℚ) < (x1 : ℚ) - x0 := by have : (x0 : ℚ) < x1 := by exact_mod_cast h
                                            linarith
    have e : (r : ℚ) - exactCut x x0 x1 y0 y1 =
        (((r : ℚ) - y0) * ((x1 : ℚ) - x0) - ((y1 : ℚ) - y0) * ((x : ℚ) - x0)) / ((x1 : ℚ) - x0) := by
      unfold exactCut
      field_simp
      ring
    have hq : (x1 - x0) / 4 * 4 ≤ x1 - x0 := by omega
    have g3 : (r - y0) * (x1 - x0) - (y1 - y0) * (x - x0) < x1 - x0 := by omega
    have g4 : -(x1 - x0) < (r - y0) * (x1 - x0) - (y1 - y0) * (x - x0) := by
      have : (r - y0 + 1) * (x1 - x0) = (r - y0) * (x1 - x0) + (x1 - x0) := by ring
      omega
    rw [e, abs_lt, div_lt_iff₀ hd, lt_div_iff₀ hd]
    constructor
    · have : (-(x1 - x0 : ℤ) : ℚ) < ((r - y0) * (x1 - x0) - (y1 - y0) * (x - x0) : ℤ) := by exact_mod_cast g4
      push_cast at this ⊢; linarith
    · have : (((r - y0) * (x1 - x0) - (y1 - y0) * (x - x0) : ℤ) : ℚ) < ((x1 - x0 : ℤ) : ℚ) := by exact_mod_cast g3
      push_cast at this ⊢; linarith
  rcases le_total y0 y1 with hy | hy
  · exact key _ _ hy
  · have := key (-y0) (-y1) (by omega)
    rw [interp_neg, exactCut_neg] at this
    push_cast at this
    rw [← abs_neg]
    have e : -((interpolate x x0 x1 y0 y1 : ℚ) - exactCut x x0 x1 y0 y1) =
        -(interpolate x x0 x1 y0 y1 : ℚ) - -exactCut x x0 x1 y0 y1 := by ring
    rw [e]; exact this

/-- **C33**: in every case the cut point is less than one unit and a quarter off. The full claim (less than one unit) does not
hold from above: `C33_accuracy_counterexample`. -/
theorem C33_accuracy_partial (x x0 x1 y0 y1 : Int) (h : x0 ≠ x1) (hx : min x0 x1 ≤ x) (hx' : x ≤ max x0 x1) :
    |(interpolate x x0 x1 y0 y1 : ℚ) - exactCut x x0 x1 y0 y1| < 5 / 4 := by
  rcases lt_or_gt_of_ne h with h | h
  · have := C33_from_below x x0 x1 y0 y1 h (by omega) (by omega)
    linarith
  · have key : ∀ y0 y1 : Int, y0 ≤ y1 → |(interpolate x x0 x1 y0 y1 : ℚ) - exactCut x x0 x1 y0 y1| < 5 / 4 := by
      intro y0 y1 hy
      obtain ⟨_, _, h3, h4⟩ := down_bounds (x := x) h (by omega) (by omega) hy
      generalize interpolate x x0 x1 y0 y1 = r at *
      have hd : (0 : ℚ) < (x0 : ℚ) - x1 := by have : (x1 : ℚ) < x0 := by exact_mod_cast h
                                              linarith
      have hne : (x1 : ℚ) - x0 ≠ 0 := by intro h'; linarith
      have e : (r : ℚ) - exactCut x x0 x1 y0 y1 =
          (((r : ℚ) - y0) * ((x0 : ℚ) - x1) - ((y1 : ℚ) - y0) * ((x0 : ℚ) - x)) / ((x0 : ℚ) - x1) := by
        unfold exactCut
        have hne' : (x0 : ℚ) - x1 ≠ 0 := ne_of_gt hd
        have e1 : ((y1 : ℚ) - y0) * ((x : ℚ) - x0) / ((x1 : ℚ) - x0) = ((y1 : ℚ) - y0) * ((x0 : ℚ) - x) / ((x0 : ℚ) - x1) := by
          rw [div_eq_div_iff hne hne']; ring
        rw [e1]
        field_simp
        ring
      have hq : (x0 - x1) / 4 * 4 ≤ x0 - x1 := by omega
      have g3 : (r - y0) * (x0 - x1) - (y1 - y0) * (x0 - x) ≤ 0 := by
        rcases h3 with h3 | h3
        · rw [h3]
          have : 0 ≤ (y1 - y0) * (x0 - x) := mul_nonneg (by omega) (by omega)
          have e0 : (y0 - y0) * (x0 - x1) = 0 := by ring
          omega
        · omega
      have g4 : -(5 * (x0 - x1)) < 4 * ((r - y0) * (x0 - x1) - (y1 - y0) * (x0 - x)) := by
        have : (r - y0 + 1) * (x0 - x1) = (r - y0) * (x0 - x1) + (x0 - x1) := by ring
        omega
      rw [e, abs_lt, div_lt_iff₀ hd, lt_div_iff₀ hd]
      constructor
      · have : (-(5 * (x0 - x1) : ℤ) : ℚ) < (4 * ((r - y0) * (x0 - x1) - (y1 - y0) * (x0 - x)) : ℤ) := by exact_mod_cast g4
        push_cast at this ⊢; linarith
      · have : (((r - y0) * (x0 - x1) - (y1 - y0) * (x0 - x) : ℤ) : ℚ) ≤ 0 := by exact_mod_cast g3
        push_cast at this ⊢; linarith
    rcases le_total y0 y1 with hy | hy
    · exact key _ _ hy
    · have := key (-y0) (-y1) (by omega)
      rw [interp_neg, exactCut_neg] at this
      push_cast at this
      rw [← abs_neg]
      have e : -((interpolate x x0 x1 y0 y1 : ℚ) - exactCut x x0 x1 y0 y1) =
          -(interpolate x x0 x1 y0 y1 : ℚ) - -exactCut x x0 x1 y0 y1 := by ring
      rw [e]; exact this

/-- **C33**: the cut point stays within the coordinate range of the edge. -/
theorem C33_in_range (x x0 x1 y0 y1 : Int) (h : x0 ≠ x1) (hx : min x0 x1 ≤ x) (hx' : x ≤ max x0 x1) :
    min y0 y1 ≤ interpolate x x0 x1 y0 y1 ∧ interpolate x x0 x1 y0 y1 ≤ max y0 y1 := by
  have key : ∀ y0 y1 : Int, y0 ≤ y1 → y0 ≤ interpolate x x0 x1 y0 y1 ∧ interpolate x x0 x1 y0 y1 ≤ y1 := by
    intro y0 y1 hy
    rcases lt_or_gt_of_ne h with h | h
    · obtain ⟨h1, h2, _⟩ := up_bounds (x := x) h (by omega) (by omega) hy
      exact ⟨h1, h2⟩
    · obtain ⟨h1, h2, _⟩ := down_bounds (x := x) h (by omega) (by omega) hy
      exact ⟨h1, h2⟩
  rcases le_total y0 y1 with hy | hy
  · have := key _ _ hy; omega
  · have := key (-y0) (-y1) (by omega)
    rw [interp_neg] at this; omega

/-- **C33**: traversing the edge in the other direction changes the result by at most one unit. -/
theorem C33_directions (x x0 x1 y0 y1 : Int) (h : x0 ≠ x1) (hx : min x0 x1 ≤ x) (hx' : x ≤ max x0 x1) :
    |interpolate x x0 x1 y0 y1 - interpolate x x1 x0 y1 y0| ≤ 1 := by
  rcases lt_or_gt_of_ne h with h | h
  · exact interp_abs_dir h (by omega) (by omega)
  · rw [abs_sub_comm]; exact interp_abs_dir h (by omega) (by omega)

/-- **C33**: at the end point from which the edge is traversed the result is exact; at the other end point it is exact from
below and at most one unit off from above. -/
theorem C33_end_points_partial (x0 x1 y0 y1 : Int) (h : x0 ≠ x1) :
    interpolate x0 x0 x1 y0 y1 = y0 ∧ (x0 < x1 → interpolate x1 x0 x1 y0 y1 = y1) ∧
    |interpolate x1 x0 x1 y0 y1 - y1| ≤ 1 := by
  refine ⟨interp_near h, interp_far_up, ?_⟩
  rcases lt_or_gt_of_ne h with h | h
  · rw [interp_far_up h]; simp
  · exact interp_far_down h

/-- From above the result can be more than one unit off: an edge from (height 10, 0) to (height 0, −11), cut at height 9, gives 0
instead of −1.1. -/
theorem C33_accuracy_counterexample : interpolate 9 10 0 0 (-11) = 0 ∧ exactCut 9 10 0 0 (-11) = -11 / 10 := by
  refine ⟨by decide, by unfold exactCut; norm_num⟩

/-- From above the result is not exact at the far end point: an edge from (height 10, 0) to (height 0, −5), cut at height 0,
gives −4. -/
theorem C33_end_point_counterexample : interpolate 0 10 0 0 (-5) = -4 := by decide

example : interpolate 3 0 7 (-20) 15 = -5 ∧ interpolate 3 7 0 15 (-20) = -4 ∧ exactCut 3 0 7 (-20) 15 = -5 := by
  refine ⟨by decide, by decide, by unfold exactCut; norm_num⟩

end Verif.Slicer
