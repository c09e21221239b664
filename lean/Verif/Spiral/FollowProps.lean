import Verif.Spiral.TopLemmas

/-! # C104: a spiralized wall is followed once round -/

namespace Verif.Spiral

variable {len : Pt → Pt → ℚ}

theorem join_joins {c : Cfg} {o : Pt} {wall : List Pt} {seam : Nat} {lastSeam : Option Nat} {first : List Move} (hseam : seam < wall.length)
    (h : join c o wall seam lastSeam = some first) {out : List Out} (hd : out.map Out.dst = first.map Move.dst)
    (hf : out.map Out.flow = first.map (fun m => some m.flow)) :
    (c.smooth = true ∨ lastSeam = none → out = []) ∧
      (c.smooth = false → lastSeam ≠ none → Joins wall[seam] (wall[(seam + 1) % wall.length]'(Nat.mod_lt _ (by omega))) o out) := by
  unfold join at h
  split at h
  · rename_i hc
    simp only [Bool.and_eq_true, Bool.not_eq_true', Option.isSome_iff_ne_none] at hc
    refine ⟨?_, ?_⟩
    · rintro (h' | h')
      · rw [hc.1] at h'; simp at h'
      · exact absurd h' hc.2
    · intro _ _
      simp only [Option.bind_eq_some_iff, Option.map_eq_some_iff, Nat.mod_eq_of_lt hseam] at h
      obtain ⟨a, ha, b, hb, rfl⟩ := h
      have ha' := (List.getElem?_eq_some_iff.mp ha).2
      have hb' := (List.getElem?_eq_some_iff.mp hb).2
      rw [ha', hb']
      refine ⟨onSegment o a b, onSegment_foot o a b, ?_⟩
      have hsize := @size_lt (onSegment o a b) o 11 (by norm_num)
      split at hd
      · rename_i hgt
        rw [if_pos hgt] at hf
        left
        constructor
        · by_contra hc'
          have := hsize.mpr (by linarith)
          omega
        · cases out with
          | nil => simp at hd
          | cons x xs =>
            cases xs with
            | nil =>
              simp only [List.map_cons, List.map_nil, List.cons.injEq, and_true] at hd hf ⊢
              rw [hd, hf]
            | cons y ys => simp at hd
      · rename_i hgt
        right
        exact ⟨by have := hsize.mp (by omega); linarith, by simpa using hd⟩
  · rename_i hc
    simp only [Option.some.injEq] at h
    subst h
    have hout : out = [] := by simpa using hd
    refine ⟨fun _ => hout, ?_⟩
    intro h1 h2
    exact absurd (by simp [h1, Option.isSome_iff_ne_none, h2]) hc

theorem rounds_of {c : Cfg} {lastWall : List Pt} {bottom : Bool} {speed : ℚ} {o : Pt} {round : List Pt} {out : List Out}
    (hd : out.map Out.dst = (spiralMoves len c lastWall bottom speed (along len o round) 0 o round).map Move.dst)
    (hf : out.map Out.flow = (spiralMoves len c lastWall bottom speed (along len o round) 0 o round).map (fun m => some m.flow)) :
    Rounds len c.smooth c.width lastWall bottom o round out := by
  refine ⟨?_, ?_⟩
  · have := congrArg List.length hd
    rw [List.length_map, List.length_map, spiralMoves_length] at this
    exact this
  · intro i p m hp hm
    have e1 := congrArg (fun x => x[i]?) hd
    have e2 := congrArg (fun x => x[i]?) hf
    simp only [List.getElem?_map, hm, Option.map_some] at e1 e2
    cases hq : (spiralMoves len c lastWall bottom speed (along len o round) 0 o round)[i]? with
    | none => rw [hq] at e1; simp at e1
    | some q =>
      rw [hq] at e1 e2
      simp only [Option.map_some, Option.some.injEq] at e1 e2
      obtain ⟨g1, g2⟩ := spiralMoves_get _ _ _ _ _ _ _ _ _ _ _ hp hq
      rw [zero_add] at g1 g2
      rw [e1, e2]
      refine ⟨?_, g2⟩
      rw [g1]
      congr 1
      split
      · ring
      · rfl

theorem start_eq {wall lastWall : List Pt} {seam : Nat} {lastSeam : Option Nat} {bottom : Bool} {o : Pt}
    (h : start wall lastWall seam lastSeam bottom = some o) :
    (bottom = true ∨ lastSeam = none → wall[seam]? = some o) ∧ ∀ i, bottom = false → lastSeam = some i → lastWall[i]? = some o := by
  unfold start at h
  split at h
  · refine ⟨by simp, ?_⟩
    intro i _ hi
    simp only [Option.some.injEq] at hi
    rw [← hi]; exact h
  · rename_i h1
    refine ⟨fun _ => h, ?_⟩
    intro i hb hi
    exact (h1 i hi hb).elim

/-- **C104, a layer** that is not the last: the spiral begins where that of the last layer ended, joins the wall (unless contours are smoothed)
and goes round through every vertex behind the seam, once and in order. -/
theorem C104_layer (hl : Lengths len) {c : Cfg} {z t : Int} {wall lastWall : List Pt} {seam : Nat} {lastSeam : Option Nat} {bottom : Bool}
    {o : Pt} {moves : List Move} {n m : Nozzle} {out : List Out} (ht : 0 ≤ t) (hseam : seam < wall.length) (hw : ∃ p ∈ wall, p ≠ o)
    (hs : slice len c t wall lastWall seam lastSeam false bottom = some (o, moves)) (hz : n.z = z)
    (h : write len z t n ((moves.foldl add (addTravel [] o)).reverse) = some (m, out)) :
    ((bottom = true ∨ lastSeam = none → wall[seam]? = some o) ∧ ∀ i, bottom = false → lastSeam = some i → lastWall[i]? = some o) ∧
      ∃ first rest, out = ⟨o, z, none⟩ :: (first ++ rest) ∧
        (c.smooth = true ∨ lastSeam = none → first = []) ∧
        (c.smooth = false → lastSeam ≠ none → Joins wall[seam] (wall[(seam + 1) % wall.length]'(Nat.mod_lt _ (by omega))) o first) ∧
        Rounds len c.smooth c.width lastWall bottom o (once wall seam) rest := by
  obtain ⟨h0, -⟩ := slice_eq hs
  obtain ⟨up, h1, -, -, first, hj, h4⟩ := slice_up hl hseam hw hs
  obtain ⟨rest, e1, -, e2, e3, -⟩ := write_layer hl ht hseam hw hs hz h
  simp only [Bool.false_eq_true, if_false, List.append_nil] at h1
  rw [h1, h4, List.map_append] at e2 e3
  refine ⟨start_eq h0, rest.take first.length, rest.drop first.length, by rw [List.take_append_drop]; exact e1, ?_⟩
  have t1 := congrArg (List.take first.length) e3
  have t2 := congrArg (List.take first.length) e2
  have d1 := congrArg (List.drop first.length) e3
  have d2 := congrArg (List.drop first.length) e2
  rw [List.take_left' (by simp), ← List.map_take] at t1 t2
  rw [List.drop_left' (by simp), ← List.map_drop] at d1 d2
  obtain ⟨j1, j2⟩ := join_joins hseam hj t1 t2
  exact ⟨j1, j2, rounds_of d1 d2⟩

/-- **C104, the last layer**: the same, and then the wall is followed once more with a falling flow. -/
theorem C104_top (hl : Lengths len) {c : Cfg} {z t : Int} {wall lastWall : List Pt} {seam : Nat} {lastSeam : Option Nat} {bottom : Bool}
    {o : Pt} {moves : List Move} {n m : Nozzle} {out : List Out} (ht : 0 ≤ t) (hseam : seam < wall.length) (hw : ∃ p ∈ wall, p ≠ o)
    (hd : ∀ p, (once wall seam).head? = some p → p ≠ wall[seam])
    (hs : slice len c t wall lastWall seam lastSeam true bottom = some (o, moves)) (hz : n.z = z)
    (h : write len z t n ((moves.foldl add (addTravel [] o)).reverse) = some (m, out)) :
    ((bottom = true ∨ lastSeam = none → wall[seam]? = some o) ∧ ∀ i, bottom = false → lastSeam = some i → lastWall[i]? = some o) ∧
      ∃ first rest taper, out = ⟨o, z, none⟩ :: (first ++ rest ++ taper) ∧
        (c.smooth = true ∨ lastSeam = none → first = []) ∧
        (c.smooth = false → lastSeam ≠ none → Joins wall[seam] (wall[(seam + 1) % wall.length]'(Nat.mod_lt _ (by omega))) o first) ∧
        Rounds len c.smooth c.width lastWall bottom o (once wall seam) rest ∧
        Tapers len (along len o (once wall seam)) wall[seam] (once wall seam) taper := by
  obtain ⟨h0, -⟩ := slice_eq hs
  obtain ⟨ms, up, down, e1, ⟨first, hj, h4⟩, e3, e2, e4, e5, -⟩ := write_top hl ht hseam hw hd hs hz h
  rw [h4, List.map_append] at e2 e3
  refine ⟨start_eq h0, up.take first.length, up.drop first.length, down, by rw [List.take_append_drop]; exact e1, ?_⟩
  have t1 := congrArg (List.take first.length) e3
  have t2 := congrArg (List.take first.length) e2
  have d1 := congrArg (List.drop first.length) e3
  have d2 := congrArg (List.drop first.length) e2
  rw [List.take_left' (by simp), ← List.map_take] at t1 t2
  rw [List.drop_left' (by simp), ← List.map_drop] at d1 d2
  obtain ⟨j1, j2⟩ := join_joins hseam hj t1 t2
  have hall0 := along_once_ne hl hseam hw
  rw [once_rotate hseam] at hall0
  have hall : 0 < along len o (once wall seam) := lt_of_le_of_ne (along_nonneg hl.nonneg _ _) (Ne.symm hall0)
  exact ⟨j1, j2, rounds_of d1 d2, tapers_of hl.nonneg hall e4 e5⟩

/-- **C104, the speed.** All moves round the wall, but the one that joins it, have one factor for the speed: it is 1 but for the last layer,
where it makes the wall take as long as a layer at least has to, if that is not more than 7/4 of the time it takes at full speed. -/
theorem C104_speed {c : Cfg} {t : Int} {wall lastWall : List Pt} {seam : Nat} {lastSeam : Option Nat} {top bottom : Bool} {o : Pt}
    {moves : List Move} (hv : 0 < c.speed) (hseam : seam < wall.length) (hpos : 0 < along len o (once wall seam))
    (hs : slice len c t wall lastWall seam lastSeam top bottom = some (o, moves)) :
    ∃ first rest f, moves = first ++ rest ∧ first.length ≤ 1 ∧ (∀ m ∈ first, m.speed = 1) ∧ (∀ m ∈ rest, m.speed = f) ∧ (top = false → f = 1) ∧
      (top = true → along len o (once wall seam) / (c.speed * f) = max (along len o (once wall seam) / c.speed)
        (min c.minTime (7 / 4 * (along len o (once wall seam) / c.speed)))) := by
  obtain ⟨-, first, h2, h3⟩ := slice_eq hs
  rw [once_rotate hseam] at h3
  rcases h3 with ⟨h3, -⟩ | ⟨h3, h4⟩
  · exact absurd h3 hpos.ne'
  · have hfirst : first.length ≤ 1 ∧ ∀ m ∈ first, m.speed = 1 := by
      unfold join at h2
      split at h2
      · simp only [Option.bind_eq_some_iff, Option.map_eq_some_iff] at h2
        obtain ⟨a, -, b, -, rfl⟩ := h2
        split <;> simp
      · cases h2; simp
    refine ⟨first, _, speedFactor c top (along len o (once wall seam)), by rw [h4, List.append_assoc], hfirst.1, hfirst.2, ?_, ?_, ?_⟩
    · intro m hm
      rcases List.mem_append.mp hm with hm | hm
      · exact (spiralMoves_kind _ _ _ _ _ _ _ _ m hm).2.2
      · split at hm
        · exact (taperMoves_kind _ _ _ _ _ _ _ m hm).2.2
        · simp at hm
    · rintro rfl; rfl
    · rintro rfl
      unfold speedFactor
      generalize along len o (once wall seam) = L at *
      simp only [if_true]
      have hT : 0 < L / c.speed := div_pos hpos hv
      split
      · rename_i hlt
        rw [show L * (2 - 1 / 4) / c.speed = 7 / 4 * (L / c.speed) by ring, min_comm]
        have hm : L / c.speed ≤ min c.minTime (7 / 4 * (L / c.speed)) := le_min hlt.le (by linarith)
        rw [max_eq_right hm]
        have hmp : 0 < min c.minTime (7 / 4 * (L / c.speed)) := lt_of_lt_of_le hT hm
        generalize min c.minTime (7 / 4 * (L / c.speed)) = M at *
        field_simp
      · rename_i hlt
        rw [max_eq_left (le_trans (min_le_left _ _) (not_lt.mp hlt)), mul_one]

/-- **C104, the seams.** The seam of a layer is the vertex closest to the last layer's seam, or the next one, if that vertex is not within the
maximal resolution (rounded) and the vertex that follows it is not to the left. -/
theorem C104_seam_partial {S : Seams} {layers : List Layer} {outlines : List (Option (List Pt × Nat))} (hr : 0 < S.maxRes)
    (h : findSeams S none layers = some outlines) {k : Nat} {l m : Layer} {w v : List Pt} {ws vs : List (List Pt)} (hl : layers[k]? = some l)
    (hm : layers[k + 1]? = some m) (hw : l.walls = w :: ws) (hv : m.walls = v :: vs) :
    ∃ i j p q i' next, outlines[k]? = some (some (w, i)) ∧ outlines[k + 1]? = some (some (v, j)) ∧ w[i]? = some p ∧ v[i']? = some q ∧
      v[(i' + 1) % v.length]? = some next ∧ (∀ u ∈ v, square q p ≤ square u p) ∧
      (j = i' ∧ (square p q ≤ S.maxRes * S.maxRes - S.maxRes ∨ S.left w i next = true) ∨
       j = (i' + 1) % v.length ∧ S.maxRes * S.maxRes - S.maxRes < square p q ∧ S.left w i next = false) := by
  obtain ⟨-, hget⟩ := findSeams_get h
  obtain ⟨i, hi, -⟩ := hget k l w ws hl hw
  obtain ⟨j, hj, -⟩ := hget (k + 1) m v vs hm hv
  have hseam := findSeams_next h k w v i j hi hj
  simp only [findSeam, Option.bind_eq_some_iff, Option.map_eq_some_iff] at hseam
  obtain ⟨p, hp, i', hn, q, hq, next, hnext, e⟩ := hseam
  obtain ⟨q', hq', hbest⟩ := nearest_spec hn
  rw [hq] at hq'
  cases hq'
  refine ⟨i, j, p, q, i', next, hi, hj, hp, hq, hnext, hbest, ?_⟩
  have hsize := @size_lt p q S.maxRes hr
  split at e
  · rename_i hge
    have hgt : S.maxRes * S.maxRes - S.maxRes < square p q := by
      by_contra hc
      have := hsize.mpr (by linarith)
      omega
    split at e
    · rename_i hleft
      exact Or.inl ⟨e.symm, Or.inr hleft⟩
    · rename_i hleft
      exact Or.inr ⟨e.symm, hgt, by simpa using hleft⟩
  · rename_i hge
    exact Or.inl ⟨e.symm, Or.inl (hsize.mp (by omega))⟩

end Verif.Spiral
