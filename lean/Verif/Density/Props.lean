import Verif.Density.Lemmas

/-! # Densities given by an image: C140 -/

namespace Verif.Density

open Spec

/-- **C140.** The density of a query box is one minus the mean lightness of the pixels from its first to its last column
and row, as far as the image has them. Nothing outside of the image is read. -/
theorem C140_rectangle (im : Image) (hv : im.Valid) (print query : Box) (hW : print.minX < print.maxX)
    (hH : print.minY < print.maxY) (C R : Finset ℤ)
    (hC : C = Finset.Icc
      (max 0 (((query.minX - print.minX - 1) * im.width).tdiv (print.maxX - print.minX)))
      (min ((im.width : ℤ) - 1) (((query.maxX - print.minX + 1) * im.height).tdiv (print.maxY - print.minY))))
    (hR : R = Finset.Icc
      (max 0 (((query.minY - print.minY - 1) * im.width).tdiv (print.maxX - print.minX)))
      (min ((im.height : ℤ) - 1) (((query.maxY - print.minY + 1) * im.height).tdiv (print.maxY - print.minY))))
    (hC0 : C.Nonempty) (hR0 : R.Nonempty) :
    density im print query =
      some (1 - mean C R im.channels (bright im.data im.width im.height im.channels) / 255) := by
  have hn : 0 < im.channels := hv.2.2.1
  have hp : C.card * R.card * im.channels ≠ 0 := by
    have := hC0.card_pos
    have := hR0.card_pos
    positivity
  unfold density
  rw [if_neg (by omega)]
  simp only [imgMin, imgMax]
  rw [pixels_ok im hv _ _ _ _ (by omega) (by omega) (by omega) (by omega), ← hC, ← hR, Option.bind_some]
  simp only
  rw [if_neg hp, Option.bind_some, if_neg hp]
  rfl

/-- **C140.** If no pixel is in the query box, the density is that of the pixel that is nearest to its middle. -/
theorem C140_nearest (im : Image) (hv : im.Valid) (print query : Box) (hW : print.minX < print.maxX)
    (hH : print.minY < print.maxY) (C R : Finset ℤ)
    (hC : C = Finset.Icc
      (max 0 (((query.minX - print.minX - 1) * im.width).tdiv (print.maxX - print.minX)))
      (min ((im.width : ℤ) - 1) (((query.maxX - print.minX + 1) * im.height).tdiv (print.maxY - print.minY))))
    (hR : R = Finset.Icc
      (max 0 (((query.minY - print.minY - 1) * im.width).tdiv (print.maxX - print.minX)))
      (min ((im.height : ℤ) - 1) (((query.maxY - print.minY + 1) * im.height).tdiv (print.maxY - print.minY))))
    (h0 : C = ∅ ∨ R = ∅) (x y : ℤ)
    (hx : nearest im.width ((((query.minX - print.minX - 1) * im.width).tdiv (print.maxX - print.minX) +
      ((query.maxX - print.minX + 1) * im.height).tdiv (print.maxY - print.minY)).tdiv 2) x)
    (hy : nearest im.height ((((query.minY - print.minY - 1) * im.width).tdiv (print.maxX - print.minX) +
      ((query.maxY - print.minY + 1) * im.height).tdiv (print.maxY - print.minY)).tdiv 2) y) :
    density im print query =
      some (1 - mean {x} {y} im.channels (bright im.data im.width im.height im.channels) / 255) := by
  have near : ∀ (size : ℕ) (i j : ℤ), nearest size i j → max 0 (min ((size : ℤ) - 1) i) = j := by
    intro size i j ⟨⟨h1, h2⟩, h3⟩
    have := h3 (max 0 (min ((size : ℤ) - 1) i)) (by omega) (by omega)
    rcases abs_cases (j - i) with h | h <;> rcases abs_cases (max 0 (min ((size : ℤ) - 1) i) - i) with h' | h' <;> omega
  have hn : 0 < im.channels := hv.2.2.1
  have hp : C.card * R.card * im.channels = 0 := by rcases h0 with h | h <;> simp [h]
  have hs : ∑ x ∈ C, ∑ y ∈ R, ∑ z ∈ Finset.range im.channels, bright im.data im.width im.height im.channels x y z = 0 := by
    rcases h0 with h | h <;> simp [h]
  have cx := near _ _ _ hx
  have cy := near _ _ _ hy
  unfold density
  rw [if_neg (by omega)]
  simp only [imgMin, imgMax, closest]
  rw [pixels_ok im hv _ _ _ _ (by omega) (by omega) (by omega) (by omega), ← hC, ← hR, Option.bind_some, cx, cy]
  simp only
  rw [if_pos hp, hs, hp, addPixel_ok im hv x y hx.1 hy.1, Option.bind_some]
  simp only
  rw [if_neg (by omega)]
  simp [mean]

/-- The pixels that are used depend on the boxes and on the size of the image only. -/
theorem density_form (w h : ℕ) (hw : 0 < w) (hh : 0 < h) (print query : Box) (hW : print.minX < print.maxX)
    (hH : print.minY < print.maxY) : ∃ C R : Finset ℤ, C.Nonempty ∧ R.Nonempty ∧
      (∀ x ∈ C, 0 ≤ x ∧ x < w) ∧ (∀ y ∈ R, 0 ≤ y ∧ y < h) ∧
      ∀ im : Image, im.Valid → im.width = w → im.height = h → density im print query =
        some (1 - mean C R im.channels (bright im.data im.width im.height im.channels) / 255) := by
  have near : ∀ (size : ℕ) (i : ℤ), 0 < size → nearest size i (max 0 (min ((size : ℤ) - 1) i)) := by
    intro size i hs
    refine ⟨by omega, fun k h1 h2 => ?_⟩
    rcases abs_cases (k - i) with h | h <;> rcases abs_cases (max 0 (min ((size : ℤ) - 1) i) - i) with h' | h' <;> omega
  by_cases h0 : (Finset.Icc
      (max 0 (((query.minX - print.minX - 1) * w).tdiv (print.maxX - print.minX)))
      (min ((w : ℤ) - 1) (((query.maxX - print.minX + 1) * h).tdiv (print.maxY - print.minY)))).Nonempty ∧ (Finset.Icc
      (max 0 (((query.minY - print.minY - 1) * w).tdiv (print.maxX - print.minX)))
      (min ((h : ℤ) - 1) (((query.maxY - print.minY + 1) * h).tdiv (print.maxY - print.minY)))).Nonempty
  · refine ⟨_, _, h0.1, h0.2, ?_, ?_, ?_⟩
    · intro x hx; have := Finset.mem_Icc.1 hx; omega
    · intro x hx; have := Finset.mem_Icc.1 hx; omega
    · rintro im hv rfl rfl
      exact C140_rectangle im hv print query hW hH _ _ rfl rfl h0.1 h0.2
  · have nx := near w ((((query.minX - print.minX - 1) * w).tdiv (print.maxX - print.minX) +
      ((query.maxX - print.minX + 1) * h).tdiv (print.maxY - print.minY)).tdiv 2) hw
    have ny := near h ((((query.minY - print.minY - 1) * w).tdiv (print.maxX - print.minX) +
      ((query.maxY - print.minY + 1) * h).tdiv (print.maxY - print.minY)).tdiv 2) hh
    refine ⟨{max 0 (min ((w : ℤ) - 1) ((((query.minX - print.minX - 1) * w).tdiv (print.maxX - print.minX) +
      ((query.maxX - print.minX + 1) * h).tdiv (print.maxY - print.minY)).tdiv 2))},
      {max 0 (min ((h : ℤ) - 1) ((((query.minY - print.minY - 1) * w).tdiv (print.maxX - print.minX) +
      ((query.maxY - print.minY + 1) * h).tdiv (print.maxY - print.minY)).tdiv 2))},
      Finset.singleton_nonempty _, Finset.singleton_nonempty _, ?_, ?_, ?_⟩
    · intro x hx; rw [Finset.mem_singleton] at hx; rw [hx]; exact nx.1
    · intro x hx; rw [Finset.mem_singleton] at hx; rw [hx]; exact ny.1
    · rintro im hv rfl rfl
      refine C140_nearest im hv print query hW hH _ _ rfl rfl ?_ _ _ nx ny
      rw [not_and_or] at h0
      simpa only [Finset.not_nonempty_iff_eq_empty] using h0

/-- **C140.** Each query has a density, from 0 to 1. -/
theorem C140_range (im : Image) (hv : im.Valid) (print query : Box) (hW : print.minX < print.maxX)
    (hH : print.minY < print.maxY) : ∃ d, density im print query = some d ∧ 0 ≤ d ∧ d ≤ 1 := by
  obtain ⟨C, R, _, _, _, _, h⟩ := density_form im.width im.height hv.1 hv.2.1 print query hW hH
  have := mean_range C R im.channels (bright im.data im.width im.height im.channels)
    (fun x y z => by unfold bright; omega)
  refine ⟨_, h im hv rfl rfl, ?_, ?_⟩ <;> linarith

/-- **C140.** An image of one shade gives the same density everywhere: 1 if it is black, 0 if it is white. -/
theorem C140_uniform (im : Image) (hv : im.Valid) (print query : Box) (hW : print.minX < print.maxX)
    (hH : print.minY < print.maxY) (b : BitVec 8) (hb : ∀ c ∈ im.data, c = b) :
    density im print query = some (1 - (b.toNat : ℚ) / 255) := by
  obtain ⟨C, R, hC, hR, h1, h2, h⟩ := density_form im.width im.height hv.1 hv.2.1 print query hW hH
  rw [h im hv rfl rfl, mean_const C R im.channels b.toNat _ hC hR hv.2.2.1]
  intro x hx y hy z hz
  have hr := read_ok im hv x y z (h1 x hx) (h2 y hy) hz
  unfold Image.read at hr
  simp only at hr
  split at hr
  · cases hr
  · obtain ⟨c, hc, hc'⟩ := Option.map_eq_some_iff.1 hr
    rw [← hc', hb c (List.mem_of_getElem? hc)]

/-- **C140.** A darker image never gives a lower density. -/
theorem C140_darker (im im' : Image) (hv : im.Valid) (hv' : im'.Valid) (hw : im'.width = im.width)
    (hh : im'.height = im.height) (hc : im'.channels = im.channels)
    (hd : ∀ i, (im'.data.getD i 0).toNat ≤ (im.data.getD i 0).toNat) (print query : Box)
    (hW : print.minX < print.maxX) (hH : print.minY < print.maxY) (d d' : ℚ)
    (h : density im print query = some d) (h' : density im' print query = some d') : d ≤ d' := by
  obtain ⟨C, R, _, _, _, _, hf⟩ := density_form im.width im.height hv.1 hv.2.1 print query hW hH
  rw [hf im hv rfl rfl] at h
  rw [hf im' hv' hw hh, hw, hh, hc] at h'
  cases h
  cases h'
  have := mean_mono C R im.channels (bright im'.data im.width im.height im.channels)
    (bright im.data im.width im.height im.channels) (fun x _ y _ z _ => hd _)
  linarith

/-- **C140.** With an image that is not distorted, the pixel under each point of the query box is among those of which
`C140_rectangle` takes the mean. -/
theorem C140_own_pixel (w h : ℕ) (hw : 0 < w) (hh : 0 < h) (print query : Box) (hW : print.minX < print.maxX)
    (hH : print.minY < print.maxY) (hscale : w * (print.maxY - print.minY) = h * (print.maxX - print.minX)) (px py : ℤ)
    (qx : query.minX ≤ px ∧ px ≤ query.maxX) (qy : query.minY ≤ py ∧ py ≤ query.maxY)
    (hx : print.minX ≤ px ∧ px < print.maxX) (hy : print.minY ≤ py ∧ py < print.maxY) :
    cell w print.minX (print.maxX - print.minX) px ∈ Finset.Icc
      (max 0 (((query.minX - print.minX - 1) * w).tdiv (print.maxX - print.minX)))
      (min ((w : ℤ) - 1) (((query.maxX - print.minX + 1) * h).tdiv (print.maxY - print.minY))) ∧
    cell h print.minY (print.maxY - print.minY) py ∈ Finset.Icc
      (max 0 (((query.minY - print.minY - 1) * w).tdiv (print.maxX - print.minX)))
      (min ((h : ℤ) - 1) (((query.maxY - print.minY + 1) * h).tdiv (print.maxY - print.minY))) := by
  rw [Finset.mem_Icc, Finset.mem_Icc]
  exact ⟨cell_between w w h _ _ _ (by omega) (by omega) (by omega) rfl hscale _ _ _ _ qx.1 qx.2 hx.1 (by omega) hw hw,
    cell_between h w h _ _ _ (by omega) (by omega) (by omega) hscale.symm rfl _ _ _ _ qy.1 qy.2 hy.1 (by omega) hh hw⟩

/-- **C140.** The image is printed over the whole model, up to one unit at each side. -/
theorem C140_covers (w h : ℕ) (hw : 0 < w) (hh : 0 < h) (model : Box) (hX : model.minX < model.maxX)
    (hY : model.minY < model.maxY) : ∃ b, printBox w h model = some b ∧
      b.minX ≤ model.minX + 1 ∧ model.maxX - 1 ≤ b.maxX ∧ b.minY ≤ model.minY + 1 ∧ model.maxY - 1 ≤ b.maxY := by
  have hw' : (0 : ℤ) < w := by exact_mod_cast hw
  have hh' : (0 : ℤ) < h := by exact_mod_cast hh
  have half : ∀ lo hi s : ℤ, lo < hi → hi - lo ≤ s →
      (lo + hi).tdiv 2 - s.tdiv 2 ≤ lo + 1 ∧ hi - 1 ≤ (lo + hi).tdiv 2 + s.tdiv 2 := by
    intro lo hi s h1 h2
    have a1 := Int.mul_tdiv_add_tmod (lo + hi) 2
    have a2 := Int.lt_tmod_of_pos (lo + hi) (by norm_num : (0 : ℤ) < 2)
    have a3 := Int.tmod_lt_of_pos (lo + hi) (by norm_num : (0 : ℤ) < 2)
    have b1 := Int.mul_tdiv_add_tmod s 2
    have b2 := Int.lt_tmod_of_pos s (by norm_num : (0 : ℤ) < 2)
    have b3 := Int.tmod_lt_of_pos s (by norm_num : (0 : ℤ) < 2)
    omega
  unfold printBox
  simp only
  rw [if_neg (by omega)]
  refine ⟨_, rfl, ?_⟩
  have key : model.maxX - model.minX ≤ (if (w : ℚ) / h < ((model.maxX - model.minX : ℤ) : ℚ) / ((model.maxY - model.minY : ℤ) : ℚ)
      then ((w * (model.maxX - model.minX)).tdiv w, (h * (model.maxX - model.minX)).tdiv w)
      else ((w * (model.maxY - model.minY)).tdiv h, (h * (model.maxY - model.minY)).tdiv h)).1 ∧
      model.maxY - model.minY ≤ (if (w : ℚ) / h < ((model.maxX - model.minX : ℤ) : ℚ) / ((model.maxY - model.minY : ℤ) : ℚ)
      then ((w * (model.maxX - model.minX)).tdiv w, (h * (model.maxX - model.minX)).tdiv w)
      else ((w * (model.maxY - model.minY)).tdiv h, (h * (model.maxY - model.minY)).tdiv h)).2 := by
    have hx : 0 < model.maxX - model.minX := by omega
    have hy : 0 < model.maxY - model.minY := by omega
    generalize model.maxX - model.minX = mx at hx ⊢
    generalize model.maxY - model.minY = my at hy ⊢
    have hq : (w : ℚ) / h < (mx : ℚ) / my ↔ (w : ℤ) * my < mx * h := by
      rw [div_lt_div_iff₀ (by exact_mod_cast hh) (by exact_mod_cast hy)]
      exact_mod_cast Iff.rfl
    split
    · rename_i hlt
      rw [hq] at hlt
      simp only
      rw [Int.mul_tdiv_cancel_left _ hw'.ne', Int.tdiv_eq_ediv_of_nonneg (by positivity)]
      exact ⟨le_refl _, (Int.le_ediv_iff_mul_le hw').2 (by nlinarith)⟩
    · rename_i hlt
      rw [hq] at hlt
      simp only
      rw [Int.mul_tdiv_cancel_left _ hh'.ne', Int.tdiv_eq_ediv_of_nonneg (by positivity)]
      exact ⟨(Int.le_ediv_iff_mul_le hh').2 (by nlinarith), le_refl _⟩
  obtain ⟨k1, k2⟩ := key
  have hx := half _ _ _ hX k1
  have hy := half _ _ _ hY k2
  exact ⟨hx.1, hx.2, hy.1, hy.2⟩

/-- A picture of two by two grey pixels, black above white. -/
def sample : Image := ⟨2, 2, 1, [0, 0, 255, 255]⟩

/-- A case of the hypotheses: the upper half is dense, the lower half is not. -/
example : sample.Valid ∧ printBox 2 2 ⟨0, 0, 1000, 1000⟩ = some ⟨0, 0, 1000, 1000⟩ ∧
    density sample ⟨0, 0, 1000, 1000⟩ ⟨100, 600, 200, 700⟩ = some 1 ∧
    density sample ⟨0, 0, 1000, 1000⟩ ⟨100, 100, 200, 200⟩ = some 0 ∧
    density sample ⟨0, 0, 1000, 1000⟩ ⟨100, 400, 200, 600⟩ = some (1 / 2) ∧
    density sample ⟨0, 0, 1000, 1000⟩ ⟨2000, 600, 2100, 700⟩ = some 1 := by
  refine ⟨⟨by decide, by decide, by decide, by decide⟩, ?_⟩
  decide +kernel

end Verif.Density
