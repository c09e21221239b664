import Verif.Spiral.SliceLemmas

/-! # Lemmas on the layers of a spiral -/

namespace Verif.Spiral

variable {len : Pt → Pt → ℚ}

theorem map_step_dst (l : List Move) : (l.map Move.step).map Step.dst = l.map Move.dst := by
  rw [List.map_map]; rfl

/-- Heights on the way up. -/
theorem up_heights {z t : Int} {A : ℚ} {o : Pt} {up : List Move} {r : Run} {out : List Out} (hz : ∀ m ∈ up, m.z = 0)
    (h : spiralFlat len z t A false ⟨o, 0, z⟩ (up.map Move.step) = some (r, out)) :
    out.map Out.dst = up.map Move.dst ∧ (up ≠ [] → A ≠ 0) ∧ r.pos = (up.map Move.dst).getLast?.getD o ∧ r.z = (out.map Out.z).getLast?.getD z ∧
      r.length = along len o (up.map Move.dst) ∧
      ∀ i m, out[i]? = some m → m.z = z + roundAway ((t : ℚ) * along len o ((out.map Out.dst).take (i + 1)) / A) := by
  obtain ⟨h1, h2, h3, h4, h5, h6⟩ := spiralFlat_up h
  rw [map_step_dst] at h1 h2 h3
  refine ⟨h1, fun hn => h5 (by simpa using hn), h3, h4, by simpa using h2, ?_⟩
  intro i m hm
  have hi : i < up.length := by
    have := (List.getElem?_eq_some_iff.mp hm).1
    have e := congrArg List.length h1
    simp only [List.length_map] at e
    omega
  have hs : (up.map Move.step)[i]? = some (up[i].step) := by simp [hi]
  have := h6 i _ hs
  rw [hm, map_step_dst] at this
  simp only [Option.map_some, Option.some.injEq, zero_add] at this
  rw [this, h1]
  have : (up[i].step).z = 0 := hz _ (List.getElem_mem hi)
  omega

/-- They rise. -/
theorem up_rises (hlen : ∀ p q, 0 ≤ len p q) {z t : Int} (ht : 0 ≤ t) {A : ℚ} (hA : 0 ≤ A) {o : Pt} {out : List Out}
    (h : ∀ i m, out[i]? = some m → m.z = z + roundAway ((t : ℚ) * along len o ((out.map Out.dst).take (i + 1)) / A)) :
    (z :: out.map Out.z).Pairwise (· ≤ ·) := by
  have hn : ∀ i, 0 ≤ (t : ℚ) * along len o ((out.map Out.dst).take (i + 1)) / A := fun i =>
    div_nonneg (mul_nonneg (by exact_mod_cast ht) (along_nonneg hlen _ _)) hA
  rw [List.pairwise_cons]
  constructor
  · intro y hy
    obtain ⟨m, hm, rfl⟩ := List.mem_map.mp hy
    obtain ⟨i, hi⟩ := List.getElem?_of_mem hm
    rw [h i m hi]
    have := roundAway_nonneg (hn i)
    omega
  · rw [List.pairwise_iff_getElem]
    intro i j hi hj hij
    simp only [List.length_map] at hi hj
    simp only [List.getElem_map]
    rw [h i out[i] (by simp [hi]), h j out[j] (by simp [hj])]
    have : roundAway ((t : ℚ) * along len o ((out.map Out.dst).take (i + 1)) / A) ≤
        roundAway ((t : ℚ) * along len o ((out.map Out.dst).take (j + 1)) / A) :=
      roundAway_mono (hn i) (div_le_div_of_nonneg_right
        (mul_le_mul_of_nonneg_left (along_take_mono hlen o _ (by omega)) (by exact_mod_cast ht)) hA)
    omega

/-- A layer that is not the last. -/
theorem climbs_of (hl : Lengths len) {z t : Int} (ht : 0 ≤ t) {o e : Pt} {up : List Move} {r : Run} {out : List Out}
    (hz : ∀ m ∈ up, m.z = 0) (he : (up.map Move.dst).getLast? = some e)
    (h : spiralFlat len z t (along len o (up.map Move.dst)) false ⟨o, 0, z⟩ (up.map Move.step) = some (r, out)) :
    Climbs len z t o e out ∧ out.map Out.flow = up.map (fun m => some m.flow) ∧ out.map Out.dst = up.map Move.dst ∧ r.pos = e ∧ r.z = z + t := by
  obtain ⟨h1, h2, h3, h4, h5, h6⟩ := up_heights hz h
  have hn := along_nonneg hl.nonneg o (up.map Move.dst)
  have hne : up ≠ [] := by rintro rfl; simp at he
  have hA := h2 hne
  obtain ⟨hf, -⟩ := spiralFlat_flow hl.nonneg ht hn (by exact le_refl _) (by exact le_refl _)
    (by intro s hs; obtain ⟨m, hm, rfl⟩ := List.mem_map.mp hs; exact (hz m hm).ge) h
  have hf' : out.map Out.flow = up.map (fun m => some m.flow) := by rw [hf, List.map_map]; rfl
  have hlast : ∃ m, out.getLast? = some m ∧ m.dst = e ∧ m.z = z + t := by
    have hne' : out ≠ [] := by
      rintro rfl
      exact hne (by simpa using h1.symm)
    refine ⟨out.getLast hne', List.getLast?_eq_getLast_of_ne_nil hne', ?_, ?_⟩
    · have : (out.map Out.dst).getLast? = some e := by rw [h1, he]
      rw [List.getLast?_map, List.getLast?_eq_getLast_of_ne_nil hne'] at this
      simpa using this
    · have hlt : out.length - 1 < out.length := by have := List.length_pos_iff.mpr hne'; omega
      rw [List.getLast_eq_getElem, h6 (out.length - 1) _ (by simp [hlt])]
      rw [show out.length - 1 + 1 = (out.map Out.dst).length by simp; omega, List.take_length, h1, mul_div_assoc, div_self hA, mul_one,
        roundAway_int t ht]
  refine ⟨⟨?_, up_rises hl.nonneg ht hn (fun i m hm => by rw [h6 i m hm]), ?_, hlast⟩, hf', h1, ?_, ?_⟩
  · intro m hm
    have : m.flow ∈ out.map Out.flow := List.mem_map_of_mem hm
    rw [hf'] at this
    obtain ⟨u, -, hu⟩ := List.mem_map.mp this
    rw [← hu]; rfl
  · intro i m hm
    rw [h6 i m hm, ← h1]
    have := roundAway_near (q := (t : ℚ) * along len o ((out.map Out.dst).take (i + 1)) / along len o (out.map Out.dst))
      (div_nonneg (mul_nonneg (by exact_mod_cast ht) (along_nonneg hl.nonneg _ _)) (along_nonneg hl.nonneg _ _))
    rw [show z + roundAway ((t : ℚ) * along len o ((out.map Out.dst).take (i + 1)) / along len o (out.map Out.dst)) - z =
      roundAway ((t : ℚ) * along len o ((out.map Out.dst).take (i + 1)) / along len o (out.map Out.dst)) by omega]
    exact this
  · rw [h3, he]; rfl
  · obtain ⟨m, hm, -, hz⟩ := hlast
    rw [h4, List.getLast?_map, hm]
    exact hz

/-- A wall that is not just its starting point has a length. -/
theorem along_once_ne (hl : Lengths len) {wall : List Pt} {seam : Nat} {o : Pt} (hseam : seam < wall.length) (hw : ∃ p ∈ wall, p ≠ o) :
    along len o (wall.rotate (seam + 1)) ≠ 0 := by
  intro h
  obtain ⟨p, hp, hne⟩ := hw
  rw [once_rotate hseam] at h
  exact hne (along_zero hl.nonneg hl.zero o _ h p (once_mem.mpr hp))

/-- The plan for a wall that has a length: the way up and, on the last layer, the taper. -/
theorem slice_up (hl : Lengths len) {c : Cfg} {t : Int} {wall lw : List Pt} {seam : Nat} {ls : Option Nat} {top bottom : Bool} {o : Pt}
    {moves : List Move} (hseam : seam < wall.length) (hw : ∃ p ∈ wall, p ≠ o)
    (h : slice len c t wall lw seam ls top bottom = some (o, moves)) :
    ∃ up, moves = up ++ (if top then taperMoves len t (speedFactor c top (along len o (once wall seam))) (along len o (once wall seam)) 0 0 wall[seam]
        (once wall seam) else []) ∧ (∀ m ∈ up, m.spiral = true ∧ m.z = 0) ∧
      (∃ u, up.getLast? = some u ∧ u.dst = wall[seam] ∧ u.flow = 1) ∧
      ∃ first, join c o wall seam ls = some first ∧ up = first ++ spiralMoves len c lw bottom (speedFactor c top (along len o (once wall seam)))
        (along len o (once wall seam)) 0 o (once wall seam) := by
  obtain ⟨h1, first, h2, h3⟩ := slice_eq h
  have hne := along_once_ne hl hseam hw
  rcases h3 with ⟨h3, -⟩ | ⟨-, h3⟩
  · exact absurd h3 hne
  · rw [once_rotate hseam] at h3 hne
    rw [once_last hseam, Option.getD_some] at h3
    refine ⟨_, h3, ?_, ?_, first, h2, rfl⟩
    · intro m hm
      rcases List.mem_append.mp hm with hm | hm
      · exact ⟨(join_kind h2 m hm).1, (join_kind h2 m hm).2.1⟩
      · have := spiralMoves_kind _ _ _ _ _ _ _ _ m hm
        exact ⟨this.1, this.2.1⟩
    · obtain ⟨m, hm, h4, h5⟩ := spiralMoves_last (len := len) c lw bottom (speedFactor c top (along len o (once wall seam))) (along len o (once wall seam)) 0 o
        (once wall seam) wall[seam] (once_last hseam)
      refine ⟨m, by rw [List.getLast?_append, hm]; rfl, h4, ?_⟩
      rw [h5, zero_add]
      split
      · field_simp; norm_num
      · rfl

end Verif.Spiral
