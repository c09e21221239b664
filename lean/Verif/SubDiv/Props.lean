import Verif.SubDiv.Lemmas

/-! # C118: cubic subdivision -/

namespace Verif.SubDiv

open Spec

/-- The cubes have the sides they should have: the smallest is twice the line distance, each is twice as large as the one before, and all that are below twice
what is needed are there. -/
theorem C118_sides (max dist : Int) (h : 0 < dist) (i : Nat) (s : Int) :
    (sides max dist)[i]? = some s ↔ s = 2 ^ (i + 1) * dist ∧ s < max * 2 := by
  rw [sides, if_pos h, sidesLoop_get _ _ _ (by omega) (by omega), pow_succ]
  have : (2 : Int) ^ i * (dist * 2) = 2 ^ i * 2 * dist := by ring
  rw [this]

theorem mem_corners (r : P3) : r ∈ corners ↔ (r.x = 1 ∨ r.x = -1) ∧ (r.y = 1 ∨ r.y = -1) ∧ (r.z = 1 ∨ r.z = -1) := by
  obtain ⟨x, y, z⟩ := r
  simp only [corners, List.mem_cons, P3.mk.injEq, List.not_mem_nil, or_false]
  omega

theorem needed_trans {steps : List Step} {rot : P3 → P3} {valid : P3 → Int → Bool} {add : Int} {root c1 c2 : P3} {D d1 d2 : Nat}
    (h1 : Needed steps rot valid add root D d1 c1) (h2 : Needed steps rot valid add c1 d1 d2 c2) : Needed steps rot valid add root D d2 c2 := by
  induction h2 with
  | root => exact h1
  | part st r _ hs hx hy hz hv ih => exact Needed.part st r ih hs hx hy hz hv

/-- The tree holds exactly the cubes that have to be there. -/
theorem C118_tree (steps : List Step) (rot : P3 → P3) (valid : P3 → Int → Bool) (add : Int) (root : P3) (D d : Nat) (c : P3) :
    (∃ k ∈ cubes (build steps rot valid add root D), k.depth = d ∧ k.center = c) ↔ Needed steps rot valid add root D d c := by
  constructor
  · induction D generalizing root with
    | zero =>
      rintro ⟨k, k1, rfl, rfl⟩
      simp only [build, cubes, cubesList, List.mem_cons, List.not_mem_nil, or_false] at k1
      subst k1
      exact Needed.root
    | succ D ih =>
      rintro ⟨k, k1, k2, k3⟩
      rw [build] at k1
      cases hs : steps[D + 1]? with
      | none =>
        simp only [hs, cubes, cubesList, List.mem_cons, List.not_mem_nil, or_false] at k1
        subst k1 k2 k3
        exact Needed.root
      | some st =>
        simp only [hs, cubes, List.mem_cons] at k1
        rcases k1 with k1 | k1
        · subst k1 k2 k3
          exact Needed.root
        · obtain ⟨x, x1, x2⟩ := mem_cubesList.1 k1
          rw [List.mem_filterMap] at x1
          obtain ⟨p, p1, p2⟩ := x1
          obtain ⟨r, r1, r2⟩ := List.mem_map.1 p1
          split at p2
          · rename_i hv
            cases p2
            subst r2
            obtain ⟨q1, q2, q3⟩ := (mem_corners r).1 r1
            exact needed_trans (Needed.part st r Needed.root hs q1 q2 q3 hv) (ih _ ⟨k, x2, k2, k3⟩)
          · cases p2
  · intro h
    have key : ∃ k ∈ cubes (build steps rot valid add root D), k = build steps rot valid add c d := by
      induction h with
      | root =>
        refine ⟨_, ?_, rfl⟩
        cases h : build steps rot valid add root D
        simp [cubes]
      | @part d c st r hn hs hx hy hz hv ih =>
        obtain ⟨k, k1, k2⟩ := ih
        refine ⟨_, ?_, rfl⟩
        have htr : ∀ (t : Cube) (a b : Cube), a ∈ cubes t → b ∈ cubes a → b ∈ cubes t := by
          have key : ∀ n : Nat, ∀ t : Cube, sizeOf t < n → ∀ a b : Cube, a ∈ cubes t → b ∈ cubes a → b ∈ cubes t := by
            intro n
            induction n with
            | zero => intro t h; omega
            | succ n ih =>
              intro t ht a b ha hb
              cases t with
              | node e p cs =>
                rw [cubes, List.mem_cons] at ha
                rcases ha with ha | ha
                · subst ha; exact hb
                · obtain ⟨x, x1, x2⟩ := mem_cubesList.1 ha
                  rw [cubes, List.mem_cons]
                  right
                  refine mem_cubesList.2 ⟨x, x1, ih x ?_ a b x2 hb⟩
                  have := List.sizeOf_lt_of_mem x1
                  simp only [Cube.node.sizeOf_spec] at ht
                  omega
          exact fun t => key _ t (Nat.lt_succ_self _)
        refine htr _ k _ k1 ?_
        rw [k2, build, hs]
        simp only [cubes, List.mem_cons]
        right
        refine mem_cubesList.2 ⟨build steps rot valid add (c.add (rot (r.scale (st.side.tdiv 4)))) d, ?_, ?_⟩
        · rw [List.mem_filterMap]
          exact ⟨_, List.mem_map.2 ⟨r, (mem_corners r).2 ⟨hx, hy, hz⟩, rfl⟩, by rw [if_pos hv]⟩
        · cases h : build steps rot valid add (c.add (rot (r.scale (st.side.tdiv 4)))) d
          simp [cubes]
    obtain ⟨k, k1, k2⟩ := key
    exact ⟨k, k1, by rw [k2]; exact (build_depth ..).1, by rw [k2]; exact (build_depth ..).2⟩

/-- A cube is worth it exactly if among the layers that are tested, each third one of those the sphere touches, the middle is inside on one and not inside on
another one, or the outline of one is within the sphere. -/
theorem C118_valid (probe : P3 → Probe) (layerHeight : Int) (c : P3) (radius : Int) :
    isValid probe layerHeight c radius = true ↔
      (∃ l ∈ tested layerHeight c.z radius, ∃ d, probe c l = some (true, d)) ∧ (∃ l ∈ tested layerHeight c.z radius, ∀ d, probe c l ≠ some (true, d)) ∨
      ∃ l ∈ tested layerHeight c.z radius, ∃ i d, probe c l = some (i, d) ∧ d + (l * layerHeight - c.z) ^ 2 < radius ^ 2 := by
  have key : ∀ (ls : List Int) (i o : Bool), ¬ (i = true ∧ o = true) →
      (validLoop (probe c) layerHeight c.z radius ls i o = true ↔
        (i = true ∨ ∃ l ∈ ls, ∃ d, probe c l = some (true, d)) ∧ (o = true ∨ ∃ l ∈ ls, ∀ d, probe c l ≠ some (true, d)) ∨
        ∃ l ∈ ls, ∃ i d, probe c l = some (i, d) ∧ d + (l * layerHeight - c.z) ^ 2 < radius ^ 2) := by
    intro ls
    induction ls with
    | nil =>
      intro i o h
      simp only [validLoop, List.not_mem_nil, false_and, exists_false, or_false]
      simpa using h
    | cons l ls ih =>
      intro i o h
      have hin : ((probe c l).any (·.1)) = true ↔ ∃ d, probe c l = some (true, d) := by
        cases probe c l with
        | none => simp
        | some q => obtain ⟨a, d⟩ := q; simp
      have hcl : ((probe c l).any fun q => decide (q.2 < radius * radius - (l * layerHeight - c.z) * (l * layerHeight - c.z))) = true ↔
          ∃ i d, probe c l = some (i, d) ∧ d + (l * layerHeight - c.z) ^ 2 < radius ^ 2 := by
        cases probe c l with
        | none => simp
        | some q =>
          obtain ⟨a, d⟩ := q
          simp only [Option.any_some, decide_eq_true_eq, Option.some.injEq, Prod.mk.injEq]
          constructor
          · intro hd
            exact ⟨a, d, ⟨rfl, rfl⟩, by rw [pow_two, pow_two]; omega⟩
          · rintro ⟨i', d', ⟨rfl, rfl⟩, hd⟩
            rw [pow_two, pow_two] at hd
            omega
      rw [validLoop]
      simp only [List.mem_cons, exists_eq_or_imp]
      generalize hp : ((probe c l).any (·.1)) = inside at *
      have hout : inside = false ↔ ∀ d, probe c l ≠ some (true, d) := by
        rw [← Bool.not_eq_true, hin]
        simp
      by_cases h1 : ((i || inside) && (o || !inside)) = true
      · rw [if_pos h1]
        simp only [Bool.and_eq_true, Bool.or_eq_true, Bool.not_eq_true'] at h1
        refine ⟨fun _ => Or.inl ⟨?_, ?_⟩, fun _ => rfl⟩
        · rcases h1.1 with h2 | h2
          · exact Or.inl h2
          · exact Or.inr (Or.inl (hin.1 h2))
        · rcases h1.2 with h2 | h2
          · exact Or.inl h2
          · exact Or.inr (Or.inl (hout.1 h2))
      · rw [if_neg h1]
        simp only [Bool.and_eq_true, Bool.or_eq_true, Bool.not_eq_true'] at h1
        split
        · rename_i h2
          exact ⟨fun _ => Or.inr (Or.inl (hcl.1 h2)), fun _ => rfl⟩
        · rename_i h2
          rw [ih (i || inside) (o || !inside) (by simpa using h1)]
          simp only [Bool.or_eq_true, Bool.not_eq_true', hin, hout]
          have h2' : ¬ ∃ i d, probe c l = some (i, d) ∧ d + (l * layerHeight - c.z) ^ 2 < radius ^ 2 := fun e => h2 (hcl.2 e)
          constructor
          · rintro (⟨a, b⟩ | a)
            · exact Or.inl ⟨or_assoc.1 a, or_assoc.1 b⟩
            · exact Or.inr (Or.inr a)
          · rintro (⟨a, b⟩ | a | a)
            · exact Or.inl ⟨or_assoc.2 a, or_assoc.2 b⟩
            · exact absurd a h2'
            · exact Or.inr a
  rw [isValid, key _ _ _ (by simp)]
  simp

/-- The layers that are tested. -/
theorem C118_tested (layerHeight z radius l : Int) :
    l ∈ tested layerHeight z radius ↔
      ∃ i : Nat, l = (z - radius).tdiv layerHeight + 3 * i ∧ l ≤ (z + radius).tdiv layerHeight := by
  simp only [tested, List.mem_map, List.mem_range]
  constructor
  · rintro ⟨i, h1, h2⟩
    refine ⟨i, h2.symm, ?_⟩
    split at h1 <;> omega
  · rintro ⟨i, h1, h2⟩
    refine ⟨i, ?_, h1.symm⟩
    have : (z - radius).tdiv layerHeight ≤ (z + radius).tdiv layerHeight := by omega
    rw [if_pos this]
    omega

/-- The lines of one direction: nothing is lost by leaving cubes out that are too far above or below, or by joining lines. Each line is a chain of lines of
cubes, and each cube that has a line at this height is in exactly one of them. -/
theorem C118_lines (steps : List Step) (ends : Step → P3 → Int → Line) (rot : P3 → P3) (valid : P3 → Int → Bool) (add : Int) (root : P3) (D : Nat)
    (hf : Fits steps D)
    (hrot : ∀ (i : Nat) (st : Step), steps[i]? = some st → ∀ r : P3, (r.x = 1 ∨ r.x = -1) → (r.y = 1 ∨ r.y = -1) → (r.z = 1 ∨ r.z = -1) →
      ((rot (r.scale (st.side.tdiv 4))).z.natAbs : Int) ≤ st.height / 4 + 1) (z : Int) :
    ∃ g, lines steps ends z (build steps rot valid add root D) = some g ∧
      MadeOf ((cubes (build steps rot valid add root D)).filterMap fun c =>
        match steps[c.depth]? with
        | none => none
        | some st => if ((z - c.center.z).natAbs : Int) < st.drawZ then some (ends st c.center z) else none) g := by
  have hs := build_shaped valid add (fun i st h r hr => by
    obtain ⟨h1, h2, h3⟩ := (mem_corners r).1 hr
    exact hrot i st h r h1 h2 h3) root D
  have hd := drawn_spec (ends := ends) (z := z) hf hs (by rw [(build_depth ..).1])
  have hne : steps.isEmpty = false := by
    have := hf.len
    cases steps with
    | nil => simp at this
    | cons => rfl
  refine ⟨_, by rw [lines, hne, hd]; rfl, ?_⟩
  exact madeOf_fold _

/-- Lines are only joined where they meet, in the direction they have. -/
theorem C118_combine (ls : List Line) : MadeOf ls (ls.foldl combine []) := madeOf_fold ls

end Verif.SubDiv
