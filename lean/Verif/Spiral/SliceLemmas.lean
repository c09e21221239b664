import Verif.Spiral.Lemmas

/-! # Lemmas on the plan of a spiral -/

namespace Verif.Spiral

variable {len : Pt → Pt → ℚ}

theorem once_rotate {wall : List Pt} {seam : Nat} (h : seam < wall.length) : wall.rotate (seam + 1) = once wall seam := by
  rw [once, List.rotate_eq_drop_append_take (by omega)]

theorem once_last {wall : List Pt} {seam : Nat} (h : seam < wall.length) : (once wall seam).getLast? = some wall[seam] := by
  rw [once, List.take_succ_eq_append_getElem h, ← List.append_assoc, List.getLast?_append]
  simp

theorem once_mem {wall : List Pt} {seam : Nat} {p : Pt} : p ∈ once wall seam ↔ p ∈ wall := by
  rw [once, List.mem_append, or_comm, ← List.mem_append, List.take_append_drop]

theorem spiralMoves_kind (c : Cfg) (lw : List Pt) (b : Bool) (speed all acc : ℚ) (p0 : Pt) (l : List Pt) :
    ∀ m ∈ spiralMoves len c lw b speed all acc p0 l, m.spiral = true ∧ m.z = 0 ∧ m.speed = speed := by
  induction l generalizing acc p0 with
  | nil => simp [spiralMoves]
  | cons p ps ih =>
    intro m hm
    rcases List.mem_cons.mp hm with rfl | hm
    · exact ⟨rfl, rfl, rfl⟩
    · exact ih _ _ m hm

theorem spiralMoves_length (c : Cfg) (lw : List Pt) (b : Bool) (speed all acc : ℚ) (p0 : Pt) (l : List Pt) :
    (spiralMoves len c lw b speed all acc p0 l).length = l.length := by
  induction l generalizing acc p0 with
  | nil => rfl
  | cons p ps ih => simp [spiralMoves, ih]

theorem spiralMoves_last (c : Cfg) (lw : List Pt) (b : Bool) (speed all acc : ℚ) (p0 : Pt) (l : List Pt) (e : Pt) (h : l.getLast? = some e) :
    ∃ m, (spiralMoves len c lw b speed all acc p0 l).getLast? = some m ∧ m.dst = e ∧
      m.flow = if b then 1 / 4 + (1 - 1 / 4) * (acc + along len p0 l) / all else 1 := by
  induction l generalizing acc p0 with
  | nil => simp at h
  | cons p ps ih =>
    cases ps with
    | nil =>
      simp only [List.getLast?_singleton, Option.some.injEq] at h
      subst h
      exact ⟨_, by rw [spiralMoves, spiralMoves]; rfl, by simp, by simp [along]⟩
    | cons q qs =>
      rw [List.getLast?_cons_cons] at h
      obtain ⟨m, h1, h2, h3⟩ := ih (acc + len p0 p) p h
      refine ⟨m, ?_, h2, ?_⟩
      · rw [spiralMoves, List.getLast?_cons, h1]; rfl
      · rw [h3]; simp only [along, add_assoc]

theorem spiralMoves_plain (c : Cfg) (lw : List Pt) (b : Bool) (speed all acc : ℚ) (p0 : Pt) (l : List Pt) (h : c.smooth = false ∨ b = true) :
    (spiralMoves len c lw b speed all acc p0 l).map Move.dst = l := by
  induction l generalizing acc p0 with
  | nil => rfl
  | cons p ps ih =>
    simp only [spiralMoves, List.map_cons, ih]
    rcases h with h | h <;> simp [h]

theorem taperMoves_kind (t : Int) (speed all acc coasted : ℚ) (p0 : Pt) (l : List Pt) :
    ∀ m ∈ taperMoves len t speed all acc coasted p0 l, m.spiral = false ∧ m.z = t.tdiv 2 ∧ m.speed = speed := by
  induction l generalizing acc coasted p0 with
  | nil => simp [taperMoves]
  | cons p ps ih =>
    intro m hm
    rw [taperMoves] at hm
    split at hm
    · rcases List.mem_cons.mp hm with rfl | hm
      · exact ⟨rfl, rfl, rfl⟩
      · exact ih _ _ _ m hm
    · simp at hm

theorem join_kind {c : Cfg} {o : Pt} {wall : List Pt} {seam : Nat} {ls : Option Nat} {first : List Move} (h : join c o wall seam ls = some first) :
    ∀ m ∈ first, m.spiral = true ∧ m.z = 0 ∧ m.flow = 1 := by
  unfold join at h
  split at h
  · simp only [Option.bind_eq_some_iff, Option.map_eq_some_iff] at h
    obtain ⟨a, -, b, -, rfl⟩ := h
    intro m hm
    split at hm
    · rw [List.mem_singleton.mp hm]; exact ⟨rfl, rfl, rfl⟩
    · simp at hm
  · cases h; simp

/-- The parts of the plan. -/
theorem slice_eq {c : Cfg} {t : Int} {wall lw : List Pt} {seam : Nat} {ls : Option Nat} {top bottom : Bool} {o : Pt} {moves : List Move}
    (h : slice len c t wall lw seam ls top bottom = some (o, moves)) :
    start wall lw seam ls bottom = some o ∧
    ∃ first, join c o wall seam ls = some first ∧
      (along len o (wall.rotate (seam + 1)) = 0 ∧ moves = first ∨
       along len o (wall.rotate (seam + 1)) ≠ 0 ∧
        moves = first ++ spiralMoves len c lw bottom (speedFactor c top (along len o (wall.rotate (seam + 1)))) (along len o (wall.rotate (seam + 1))) 0 o
            (wall.rotate (seam + 1)) ++
          if top then taperMoves len t (speedFactor c top (along len o (wall.rotate (seam + 1)))) (along len o (wall.rotate (seam + 1))) 0 0
            ((wall.rotate (seam + 1)).getLast?.getD o) (wall.rotate (seam + 1)) else []) := by
  unfold slice at h
  simp only [Option.bind_eq_some_iff, Option.map_eq_some_iff] at h
  obtain ⟨origin, h1, first, h2, h3⟩ := h
  rw [total_eq, zero_add] at h3
  split at h3
  · rename_i h4
    obtain ⟨rfl, rfl⟩ := Prod.mk.inj h3
    exact ⟨h1, first, h2, Or.inl ⟨h4, rfl⟩⟩
  · rename_i h4
    obtain ⟨rfl, rfl⟩ := Prod.mk.inj h3
    exact ⟨h1, first, h2, Or.inr ⟨h4, rfl⟩⟩

theorem takeWhile_all {α : Type} {f : α → Bool} {l : List α} (h : ∀ a ∈ l, f a = true) : l.takeWhile f = l := by
  have := List.takeWhile_append_of_pos (l₂ := []) h
  simpa using this

/-- How the plan of a layer is written. -/
theorem write_plan {z t : Int} {n : Nozzle} {o : Pt} {up taper : List Move} (hup : ∀ m ∈ up, m.spiral = true) (htaper : ∀ m ∈ taper, m.spiral = false)
    (hne : up ≠ []) (hsep : ∀ m, taper.head? = some m → ∀ u, up.getLast? = some u → u.flow ≠ m.flow) :
    write len z t n (((up ++ taper).foldl add (addTravel [] o)).reverse) =
      (spiralFlat len z t (along len o ((up ++ taper).map Move.dst)) false ⟨o, 0, z⟩ (up.map Move.step)).bind fun q =>
        (spiralFlat len z t (along len o ((up ++ taper).map Move.dst)) true q.1 (taper.map Move.step)).map fun s =>
          (⟨s.1.pos, s.1.z⟩, (if z ≠ n.z then [⟨n.pos, z, none⟩] else []) ++ [⟨o, z, none⟩] ++ (q.2 ++ s.2)) := by
  obtain ⟨ps, h1, h2⟩ := Holds.foldl (base := addTravel [] o) hup (by
    intro m _ p hp
    simp only [addTravel, List.head?_cons, Option.some.injEq] at hp
    subst hp
    exact Or.inl rfl)
  have hps : ps ≠ [] := by
    rintro rfl
    have := h2.steps
    simp only [List.reverse_nil, List.flatMap_nil] at this
    exact hne (List.map_eq_nil_iff.mp this.symm)
  obtain ⟨p, ps', rfl⟩ := List.exists_cons_of_ne_nil hps
  obtain ⟨tp, h3, h4⟩ := Holds.foldl (base := (p :: ps') ++ addTravel [] o) htaper (by
    intro m hm q hq
    simp only [List.cons_append, List.head?_cons, Option.some.injEq] at hq
    subst hq
    obtain ⟨u, hu, e⟩ := h2.flow p rfl
    exact Or.inr (e ▸ hsep m hm u hu))
  rw [List.foldl_append, h1, h3]
  have e : (tp ++ (p :: ps' ++ addTravel [] o)).reverse = ⟨true, false, 0, 1, [(o, 0)]⟩ :: ((p :: ps').reverse ++ tp.reverse) := by
    simp [addTravel]
  rw [e, write, if_neg (by simp)]
  have hk1 : ∀ q ∈ (p :: ps').reverse, q.travel = false ∧ q.spiral = true ∧ q.points ≠ [] := fun q hq => h2.kind q (List.mem_reverse.mp hq)
  have hk2 : ∀ q ∈ tp.reverse, q.travel = false ∧ q.spiral = false ∧ q.points ≠ [] := fun q hq => h4.kind q (List.mem_reverse.mp hq)
  have hs1 := h2.steps
  have hs2 := h4.steps
  generalize hA : (p :: ps').reverse = A at hk1 hs1
  generalize tp.reverse = B at hk2 hs2
  have hAne : A ≠ [] := by rw [← hA]; simp
  obtain ⟨a, A', rfl⟩ := List.exists_cons_of_ne_nil hAne
  have ha := hk1 a (by simp)
  have htake : ((a :: A') ++ B).takeWhile (fun q => q.spiral) = a :: A' := by
    rw [List.takeWhile_append_of_pos (fun q hq => (hk1 q hq).2.1)]
    cases B with
    | nil => simp
    | cons b B => rw [List.takeWhile_cons, if_neg (by simp [(hk2 b (by simp)).2.1])]; simp
  have hdrop : ((a :: A') ++ B).dropWhile (fun q => q.spiral) = B := by
    rw [List.dropWhile_append_of_pos (fun q hq => (hk1 q hq).2.1)]
    cases B with
    | nil => rfl
    | cons b B => rw [List.dropWhile_cons, if_neg (by simp [(hk2 b (by simp)).2.1])]
  have hall : ((a :: A') ++ B).takeWhile (fun q => !q.travel) = (a :: A') ++ B := by
    apply takeWhile_all
    intro q hq
    rcases List.mem_append.mp hq with hq | hq
    · simp [(hk1 q hq).1]
    · simp [(hk2 q hq).1]
  have hdst : ∀ L : List Path, (L.flatMap fun p => p.points).map (fun q => q.1) = (L.flatMap Path.steps).map Step.dst := by
    intro L
    rw [List.map_flatMap, List.map_flatMap]
    congr 1
    funext q
    simp [Path.steps]
  have htot : pathsTotal len o ((a :: A') ++ B) = along len o ((up ++ taper).map Move.dst) := by
    rw [pathsTotal, hall, total_eq, zero_add, hdst, List.flatMap_append, hs1, hs2, ← List.map_append, List.map_map]
    rfl
  have hw : write len z t ⟨o, z⟩ ((a :: A') ++ B) =
      (spiralFlat len z t (along len o ((up ++ taper).map Move.dst)) false ⟨o, 0, z⟩ (up.map Move.step)).bind fun q =>
        (spiralFlat len z t (along len o ((up ++ taper).map Move.dst)) true q.1 (taper.map Move.step)).map fun s =>
          (⟨s.1.pos, s.1.z⟩, q.2 ++ s.2) := by
    rw [List.cons_append, write, if_pos (by simp [ha.1, ha.2.1]), ← List.cons_append, htake, hdrop]
    simp only [spiralPaths_eq, hs1, hs2, htot]
  simp only [plainPoints, lift, add_zero, hw, if_true]
  cases spiralFlat len z t (along len o ((up ++ taper).map Move.dst)) false ⟨o, 0, z⟩ (up.map Move.step) with
  | none => rfl
  | some q =>
    simp only [Option.bind_some]
    cases spiralFlat len z t (along len o ((up ++ taper).map Move.dst)) true q.1 (taper.map Move.step) with
    | none => rfl
    | some s => rfl

end Verif.Spiral
