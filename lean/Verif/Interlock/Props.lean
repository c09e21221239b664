import Verif.Interlock.Lemmas

/-! # C121: interlocking -/

namespace Verif.Interlock

open Verif.Voxel Spec

theorem mem_chosen (shellA shellB air : List P3) (filter : Bool) (v : P3) : v ∈ toSet (chosen shellA shellB air filter) ↔ Chosen shellA shellB air filter v := by
  rw [toSet, List.mem_dedup, chosen, Chosen]
  cases filter <;> simp <;> tauto

/-- What a place of a layer is afterwards. -/
theorem change_spec {s : Setup} (ha : 0 ≤ s.wa) (hb : 0 ≤ s.wb) (hw : 0 < s.wa + s.wb) (hc : 0 < s.count) {max : Nat} {cells : List P3} {st : Structure}
    (h : cellsLoop s max cells (fun _ _ => []) = some st) (regions : Nat → Area) (mesh : Fin 2) {n : Nat} (hn : n < max) (old : Area) (p : P2) :
    (change s st regions mesh n old p = true ↔
      (cellOf s.wa s.wb s.count n p ∈ cells ∧ beamOf s.wa s.wb s.count n p = mesh ∧ (old p = true ∨ regions n p = true)) ∨ (cellOf s.wa s.wb s.count n p ∉ cells ∧ old p = true)) := by
  have hi : (((n : Int) / s.count).toNat : Int) = (n : Int) / s.count := Int.toNat_of_nonneg (Int.ediv_nonneg (by omega) (by omega))
  have hhas : ∀ m, hasAny (st m ((n : Int) / s.count).toNat) p = true ↔ cellOf s.wa s.wb s.count n p ∈ cells ∧ beamOf s.wa s.wb s.count n p = m := by
    intro m
    simp only [hasAny, List.any_eq_true]
    constructor
    · rintro ⟨r, hr, hp⟩
      rw [(cellsLoop_spec s hc max cells _).1 st h] at hr
      rcases hr with hr | ⟨c, hcm, h1, h2, rfl⟩
      · simp at hr
      · rw [beam_has s ha hb hw] at hp
        obtain ⟨p1, p2, p3⟩ := hp
        rw [hi] at h1 p3
        have hcell : cellOf s.wa s.wb s.count n p = c := by
          funext d
          have h3 : d = 0 ∨ d = 1 ∨ d = 2 := by revert d; decide
          rcases h3 with rfl | rfl | rfl
          · simp only [cellOf, if_true]; exact p1
          · simp only [cellOf, show ¬ (1 : Fin 3) = 0 by decide, if_false, if_true]; exact p2
          · simp only [cellOf, show ¬ (2 : Fin 3) = 0 by decide, show ¬ (2 : Fin 3) = 1 by decide, if_false]
            rw [← h1, Int.ediv_ediv_of_nonneg (by omega), Int.mul_comm]
        rw [hcell]
        exact ⟨hcm, by rw [beamOf]; exact p3⟩
    · rintro ⟨h1, h2⟩
      refine ⟨beam s (cellOf s.wa s.wb s.count n p) m ((n : Int) / s.count).toNat, ?_, ?_⟩
      · rw [(cellsLoop_spec s hc max cells _).1 st h]
        refine Or.inr ⟨_, h1, ?_, ?_, rfl⟩
        · rw [hi]
          simp only [cellOf, show ¬ (2 : Fin 3) = 0 by decide, show ¬ (2 : Fin 3) = 1 by decide, if_false]
          rw [Int.ediv_ediv_of_nonneg (by omega), Int.mul_comm]
        · rw [hi]
          have := Int.ediv_mul_le (n : Int) (show s.count ≠ 0 by omega)
          omega
      · rw [beam_has s ha hb hw, hi]
        exact ⟨rfl, rfl, h2⟩
  have hne : ∀ m : Fin 2, ∀ x : Fin 2, x = 1 - m ↔ x ≠ m := by decide
  simp only [change, Bool.or_eq_true, Bool.and_eq_true, Bool.not_eq_true', ← Bool.not_eq_true]
  rw [hhas, hhas, hne]
  tauto

/-- In a cell with a structure a place belongs to the mesh its beam is of, if it was part of the mesh or is within both meshes together, and to no other one. Elsewhere all is as it was. -/
theorem C121_beams (s : Setup) (close : Area → Area) (shellA shellB air : List P3) (filter : Bool) (a b a' b' : List Area)
    (ha : 0 ≤ s.wa) (hb : 0 ≤ s.wb) (hw : 0 < s.wa + s.wb) (hc : 0 < s.count) (h : generate s close shellA shellB air filter a b = some (a', b')) :
    a'.length = a.length ∧ b'.length = b.length ∧
    (∀ n x p, a[n]? = some x → ∃ x', a'[n]? = some x' ∧
      (x' p = true ↔ (Chosen shellA shellB air filter (cellOf s.wa s.wb s.count n p) ∧ beamOf s.wa s.wb s.count n p = 0 ∧ (x p = true ∨ region close a b n p = true)) ∨
        (¬ Chosen shellA shellB air filter (cellOf s.wa s.wb s.count n p) ∧ x p = true))) ∧
    (∀ n x p, b[n]? = some x → ∃ x', b'[n]? = some x' ∧
      (x' p = true ↔ (Chosen shellA shellB air filter (cellOf s.wa s.wb s.count n p) ∧ beamOf s.wa s.wb s.count n p = 1 ∧ (x p = true ∨ region close a b n p = true)) ∨
        (¬ Chosen shellA shellB air filter (cellOf s.wa s.wb s.count n p) ∧ x p = true))) := by
  rw [generate, apply] at h
  cases hst : cellsLoop s (max a.length b.length) (toSet (chosen shellA shellB air filter)) (fun _ _ => []) with
  | none => rw [hst] at h; exact absurd h (by simp)
  | some st =>
    rw [hst] at h
    simp only [Option.bind_eq_bind, Option.bind_some, Option.pure_def, Option.some.injEq, Prod.mk.injEq] at h
    obtain ⟨rfl, rfl⟩ := h
    refine ⟨by simp, by simp, ?_, ?_⟩
    · intro n x p hx
      refine ⟨_, by rw [List.getElem?_mapIdx, hx]; rfl, ?_⟩
      have hlt := (List.getElem?_eq_some_iff.1 hx).1
      rw [change_spec ha hb hw hc hst _ _ (by omega)]
      simp only [mem_chosen]
    · intro n x p hx
      refine ⟨_, by rw [List.getElem?_mapIdx, hx]; rfl, ?_⟩
      have hlt := (List.getElem?_eq_some_iff.1 hx).1
      rw [change_spec ha hb hw hc hst _ _ (by omega)]
      simp only [mem_chosen]

/-- On a layer both meshes have nothing is lost, nothing is added outside of what both cover together with gaps closed, and meshes that did not overlap still do not. -/
theorem C121_whole (s : Setup) (close : Area → Area) (hclose : ∀ x p, x p = true → close x p = true) (shellA shellB air : List P3) (filter : Bool) (a b a' b' : List Area)
    (ha : 0 ≤ s.wa) (hb : 0 ≤ s.wb) (hw : 0 < s.wa + s.wb) (hc : 0 < s.count) (h : generate s close shellA shellB air filter a b = some (a', b'))
    {n : Nat} {x y : Area} (hx : a[n]? = some x) (hy : b[n]? = some y) :
    ∃ x' y', a'[n]? = some x' ∧ b'[n]? = some y' ∧ ∀ p,
      (x p = true ∨ y p = true → x' p = true ∨ y' p = true) ∧
      (x' p = true ∨ y' p = true → close (fun q => x q || y q) p = true) ∧
      (¬ (x p = true ∧ y p = true) → ¬ (x' p = true ∧ y' p = true)) := by
  obtain ⟨_, _, h1, h2⟩ := C121_beams s close shellA shellB air filter a b a' b' ha hb hw hc h
  obtain ⟨x', hx', _⟩ := h1 n x (0, 0) hx
  obtain ⟨y', hy', _⟩ := h2 n y (0, 0) hy
  refine ⟨x', y', hx', hy', ?_⟩
  intro p
  obtain ⟨x'', e1, e2⟩ := h1 n x p hx
  obtain ⟨y'', f1, f2⟩ := h2 n y p hy
  rw [hx', Option.some.injEq] at e1
  rw [hy', Option.some.injEq] at f1
  subst e1 f1
  have hr : region close a b n = close fun q => x q || y q := by rw [region, hx, hy]
  have hin : x p = true ∨ y p = true → close (fun q => x q || y q) p = true := fun hxy => hclose _ p (by simpa using hxy)
  rw [e2, f2, hr]
  have hm : ∀ m : Fin 2, m = 0 ∨ m = 1 := by decide
  generalize (close (fun q => x q || y q) p = true) = R at *
  generalize (x p = true) = X at *
  generalize (y p = true) = Y at *
  have hm := hm (beamOf s.wa s.wb s.count n p)
  generalize beamOf s.wa s.wb s.count n p = m at *
  clear e2 f2 hr h1 h2 h hx' hy' hx hy
  by_cases hC : Chosen shellA shellB air filter (cellOf s.wa s.wb s.count n p)
  · simp only [hC, true_and, not_true_eq_false, false_and, or_false]
    rcases hm with rfl | rfl
    · simp only [show ¬ (0 : Fin 2) = 1 by decide, true_and, false_and, or_false, and_false, not_false_eq_true, implies_true, and_true]
      exact ⟨fun h => h.elim Or.inl fun h => Or.inr (hin (Or.inr h)), fun h => h.elim (fun h => hin (Or.inl h)) id⟩
    · simp only [show ¬ (1 : Fin 2) = 0 by decide, true_and, false_and, false_or, not_false_eq_true, implies_true, and_true]
      exact ⟨fun h => h.elim (fun h => Or.inr (hin (Or.inl h))) Or.inl, fun h => h.elim (fun h => hin (Or.inr h)) id⟩
  · simp only [hC, false_and, not_false_eq_true, true_and, false_or]
    exact ⟨id, hin, id⟩

/-- On a layer only the first mesh has, its beams stay, with gaps closed, and the beams of the second mesh are lost. -/
theorem C121_upper (s : Setup) (close : Area → Area) (shellA shellB air : List P3) (filter : Bool) (a b a' b' : List Area)
    (ha : 0 ≤ s.wa) (hb : 0 ≤ s.wb) (hw : 0 < s.wa + s.wb) (hc : 0 < s.count) (h : generate s close shellA shellB air filter a b = some (a', b'))
    {n : Nat} {x : Area} (hx : a[n]? = some x) (hy : b[n]? = none) :
    ∃ x', a'[n]? = some x' ∧ b'[n]? = none ∧ ∀ p, x' p = true ↔
      (Chosen shellA shellB air filter (cellOf s.wa s.wb s.count n p) ∧ beamOf s.wa s.wb s.count n p = 0 ∧ (x p = true ∨ close x p = true)) ∨
        (¬ Chosen shellA shellB air filter (cellOf s.wa s.wb s.count n p) ∧ x p = true) := by
  obtain ⟨_, hl, h1, _⟩ := C121_beams s close shellA shellB air filter a b a' b' ha hb hw hc h
  obtain ⟨x', hx', _⟩ := h1 n x (0, 0) hx
  refine ⟨x', hx', ?_, ?_⟩
  · rw [List.getElem?_eq_none_iff] at hy ⊢
    omega
  · intro p
    obtain ⟨x'', e1, e2⟩ := h1 n x p hx
    rw [hx', Option.some.injEq] at e1
    subst e1
    have hr : region close a b n = close x := by rw [region, hx, hy]
    rw [e2, hr]

/-- It ends, unless a cell below the first layer was chosen: then memory outside of a vector is read. -/
theorem C121_ends (s : Setup) (hc : 0 < s.count) (close : Area → Area) (shellA shellB air : List P3) (filter : Bool) (a b : List Area) :
    generate s close shellA shellB air filter a b = none ↔ ∃ v, Chosen shellA shellB air filter v ∧ v 2 < 0 := by
  rw [generate, apply]
  have := (cellsLoop_spec s hc (max a.length b.length) (toSet (chosen shellA shellB air filter)) fun _ _ => []).2
  simp only [mem_chosen] at this
  rw [← this]
  cases cellsLoop s (max a.length b.length) (toSet (chosen shellA shellB air filter)) fun _ _ => [] <;> simp

/-- The cells near the surface of a mesh are those along the outlines of all its layers, and those of its skins. -/
theorem C121_shell (s : Setup) (depth : Int) (n : Nat) (skins : Nat → List P3) (z : Nat) (layers : List (List (List P2))) {cells : List P3} (h : boundary s depth n skins z layers = some cells) (v : P3) :
    v ∈ cells ↔ ∃ i layer, layers[i]? = some layer ∧
      ((∃ walls, walkDilatedPolygons s.cell ![depth, depth, depth] .prism (z + i : Nat) n layer = some walls ∧ v ∈ walls) ∨ v ∈ skins (z + i)) := by
  induction layers generalizing z cells with
  | nil =>
    simp only [boundary, Option.some.injEq] at h
    subst h
    simp
  | cons l ls ih =>
    rw [boundary] at h
    cases hw : walkDilatedPolygons s.cell ![depth, depth, depth] .prism z n l with
    | none => rw [hw] at h; exact absurd h (by simp)
    | some walls =>
      cases hr : boundary s depth n skins (z + 1) ls with
      | none => rw [hw, hr] at h; exact absurd h (by simp)
      | some rest =>
        rw [hw, hr] at h
        simp only [Option.bind_eq_bind, Option.bind_some, Option.pure_def, Option.some.injEq] at h
        subst h
        rw [List.mem_append, List.mem_append, ih (z + 1) hr]
        constructor
        · rintro ((h | h) | ⟨i, layer, h1, h2⟩)
          · exact ⟨0, l, rfl, Or.inl ⟨walls, hw, h⟩⟩
          · exact ⟨0, l, rfl, Or.inr h⟩
          · refine ⟨i + 1, layer, h1, ?_⟩
            rw [show z + (i + 1) = z + 1 + i by omega]
            exact h2
        · rintro ⟨i, layer, h1, h2⟩
          cases i with
          | zero =>
            simp only [List.getElem?_cons_zero, Option.some.injEq] at h1
            subst h1
            rcases h2 with ⟨w, hw', hv⟩ | h2
            · rw [show ((z + 0 : Nat) : Int) = z from rfl, hw, Option.some.injEq] at hw'
              subst hw'
              exact Or.inl (Or.inl hv)
            · exact Or.inl (Or.inr h2)
          | succ i =>
            refine Or.inr ⟨i, layer, h1, ?_⟩
            rw [show z + 1 + i = z + (i + 1) by omega]
            exact h2

/-- Where the first mesh ends, the second one loses the beams of the first, and nothing takes their place. -/
theorem C121_short_counterexample :
    ∃ (s : Setup) (shell : List P3) (a b a' b' : List Area) (y y' : Area) (p : P2), 0 < s.wa ∧ 0 < s.wb ∧ 0 < s.count ∧ generate s id shell shell [] false a b = some (a', b') ∧
      a[1]? = none ∧ a'[1]? = none ∧ b[1]? = some y ∧ b'[1]? = some y' ∧ y p = true ∧ y' p = false := by
  refine ⟨⟨2, 2, 1⟩, [![0, 0, 0]], [fun _ => true], [fun _ => true, fun _ => true], _, _, fun _ => true, _, (0, 0), by decide, by decide, by decide, rfl, rfl, rfl, rfl, rfl, rfl, ?_⟩
  decide +kernel

/-- Two blocks beside each other on the build plate: with a depth of two cells a cell below the first layer is chosen, and unless the air around them takes it away memory outside of a vector is read. -/
theorem C121_below_counterexample :
    ∃ (s : Setup) (outlineA outlineB : List P2) (shellA shellB : List P3), 0 < s.wa ∧ 0 < s.wb ∧ 0 < s.count ∧
      boundary s 2 20 (fun _ => []) 0 [[outlineA]] = some shellA ∧ boundary s 2 20 (fun _ => []) 0 [[outlineB]] = some shellB ∧
      ∀ (close : Area → Area) (air : List P3) (filter : Bool) (a b : List Area), (∀ v ∈ air, 0 ≤ v 2) → generate s close shellA shellB air filter a b = none := by
  obtain ⟨l1, h1⟩ : ∃ l, boundary ⟨5, 5, 2⟩ 2 20 (fun _ => []) 0 [[[(0, 0), (15, 0), (15, 15), (0, 15)]]] = some l := Option.isSome_iff_exists.1 (by decide +kernel)
  obtain ⟨l2, h2⟩ : ∃ l, boundary ⟨5, 5, 2⟩ 2 20 (fun _ => []) 0 [[[(15, 0), (30, 0), (30, 15), (15, 15)]]] = some l := Option.isSome_iff_exists.1 (by decide +kernel)
  refine ⟨⟨5, 5, 2⟩, _, _, l1, l2, by decide, by decide, by decide, h1, h2, ?_⟩
  intro close air filter a b hair
  rw [C121_ends _ (by decide)]
  have m1 : (boundary ⟨5, 5, 2⟩ 2 20 (fun _ => []) 0 [[[(0, 0), (15, 0), (15, 15), (0, 15)]]]).map (fun l => decide (![2, 1, -1] ∈ l)) = some true := by decide +kernel
  have m2 : (boundary ⟨5, 5, 2⟩ 2 20 (fun _ => []) 0 [[[(15, 0), (30, 0), (30, 15), (15, 15)]]]).map (fun l => decide (![2, 1, -1] ∈ l)) = some true := by decide +kernel
  rw [h1] at m1
  rw [h2] at m2
  simp only [Option.map_some, Option.some.injEq, decide_eq_true_eq] at m1 m2
  refine ⟨![2, 1, -1], ⟨m1, m2, ?_⟩, by decide⟩
  rintro ⟨_, h⟩
  exact absurd (hair _ h) (by decide)

end Verif.Interlock
