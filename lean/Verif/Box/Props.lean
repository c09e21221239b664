import Verif.Box.Lemmas

/-! # C39: bounding boxes are exact -/

namespace Verif.Box

/-- **C39.** The box calculated for a set of points contains exactly the points within the
coordinate-wise extremes of the set, and so nothing for the empty set. -/
theorem C39_points (old : AABB) (ps : List Pt) (hps : ∀ a ∈ ps, a.Fits) (p : Pt) :
    (old.calculate ps).contains p = true ↔ WithinExtremes ps p := by
  rw [contains_iff]
  unfold AABB.calculate
  rw [includeAll_bounds]
  unfold WithinExtremes
  simp only [AABB.empty]
  constructor
  · rintro ⟨⟨h1, h2⟩, h3, h4⟩
    rcases h1 with h1 | ⟨a, ha, h1⟩
    · rcases h2 with h2 | ⟨a, ha, h2⟩
      · simp only [POINT_MAX, POINT_MIN] at *; omega
      · have hx : a.x ≤ p.x := le_trans (hps a ha).1.2 h1
        have : ∀ c ∈ ps, (c.y ≤ p.y ∨ ¬ c.y ≤ p.y) := fun c _ => em _
        refine ⟨⟨a, ha, hx⟩, ⟨a, ha, h2⟩, ?_, ?_⟩
        · rcases h3 with h3 | h3
          · exact ⟨a, ha, le_trans (hps a ha).2.2 h3⟩
          · exact h3
        · rcases h4 with h4 | h4
          · exact ⟨a, ha, le_trans h4 (hps a ha).2.1⟩
          · exact h4
    · refine ⟨⟨a, ha, h1⟩, ?_, ?_, ?_⟩
      · rcases h2 with h2 | h2
        · exact ⟨a, ha, le_trans h2 (hps a ha).1.1⟩
        · exact h2
      · rcases h3 with h3 | h3
        · exact ⟨a, ha, le_trans (hps a ha).2.2 h3⟩
        · exact h3
      · rcases h4 with h4 | h4
        · exact ⟨a, ha, le_trans h4 (hps a ha).2.1⟩
        · exact h4
  · rintro ⟨h1, h2, h3, h4⟩
    exact ⟨⟨Or.inr h1, Or.inr h2⟩, Or.inr h3, Or.inr h4⟩

example : let ps : List Pt := [⟨3, -4⟩, ⟨-7, 2⟩, ⟨0, 0⟩]
    (∀ a ∈ ps, a.Fits) ∧ AABB.empty.calculate ps = ⟨⟨-7, -4⟩, ⟨3, 2⟩⟩ ∧
    WithinExtremes ps ⟨-7, -4⟩ ∧ ¬ WithinExtremes ps ⟨-8, 0⟩ := by
  refine ⟨?_, by decide, ?_, ?_⟩
  · simp only [List.mem_cons, List.not_mem_nil, or_false, forall_eq_or_imp, forall_eq]
    simp only [Pt.Fits, POINT_MIN, POINT_MAX]
    omega
  · unfold WithinExtremes; decide
  · unfold WithinExtremes; decide

/-- **C39.** Every box that contains all the points contains the calculated one. -/
theorem C39_smallest (old : AABB) (ps : List Pt) (hps : ∀ a ∈ ps, a.Fits) (o : AABB)
    (ho : ∀ a ∈ ps, o.contains a = true) (p : Pt) (hp : (old.calculate ps).contains p = true) :
    o.contains p = true := by
  obtain ⟨⟨a, ha, h1⟩, ⟨b, hb, h2⟩, ⟨c, hc, h3⟩, ⟨d, hd, h4⟩⟩ := (C39_points old ps hps p).1 hp
  rw [contains_iff]
  have ha' := (contains_iff o a).1 (ho a ha)
  have hb' := (contains_iff o b).1 (ho b hb)
  have hc' := (contains_iff o c).1 (ho c hc)
  have hd' := (contains_iff o d).1 (ho d hd)
  unfold AABB.Has at *
  omega

/-- **C39.** The order in which points are added, and how they are grouped into polygons, makes no
difference; nor does what the box held before. -/
theorem C39_order (old old' : AABB) (ps : List Pt) (shape : List (List Pt))
    (h : ps.Perm shape.flatten) : old.calculate ps = old'.calculateShape shape := by
  rw [calculateShape_eq]
  unfold AABB.calculate AABB.includeAll
  exact h.foldl_eq' (fun x _ y _ z => include_comm z x y) _

example : ([⟨3, -4⟩, ⟨-7, 2⟩, ⟨0, 0⟩] : List Pt).Perm [[⟨0, 0⟩], [], [⟨3, -4⟩, ⟨-7, 2⟩]].flatten := by
  decide

/-- **C39.** Two boxes that are not empty are reported as hitting exactly when they have a point in
common, where touching borders count (the documentation says they do not). -/
theorem C39_hit (b o : AABB) (hb : b.NonEmpty) (ho : o.NonEmpty) :
    b.hit o = true ↔ ∃ p, b.contains p = true ∧ o.contains p = true := by
  rw [nonEmpty_iff] at hb ho
  have key : b.hit o = true ↔ b.max.x ≥ o.min.x ∧ b.min.x ≤ o.max.x ∧ b.max.y ≥ o.min.y ∧ b.min.y ≤ o.max.y := by
    unfold AABB.hit
    split_ifs <;> simp <;> omega
  rw [key]
  constructor
  · intro h
    refine ⟨⟨max b.min.x o.min.x, max b.min.y o.min.y⟩, ?_, ?_⟩
    all_goals
      rw [contains_iff]
      unfold AABB.Has
      dsimp only
      omega
  · rintro ⟨p, h1, h2⟩
    rw [contains_iff] at h1 h2
    unfold AABB.Has at h1 h2
    omega

/-- Boxes that share a corner only. -/
example : (⟨⟨0, 0⟩, ⟨2, 3⟩⟩ : AABB).NonEmpty ∧ (⟨⟨0, 0⟩, ⟨2, 3⟩⟩ : AABB).hit ⟨⟨2, 3⟩, ⟨4, 4⟩⟩ = true ∧
    (⟨⟨0, 0⟩, ⟨2, 3⟩⟩ : AABB).hit ⟨⟨3, 3⟩, ⟨4, 4⟩⟩ = false :=
  ⟨(nonEmpty_iff _).2 (by decide), by decide, by decide⟩

/-- With an inverted box (such as `expand` with a negative distance leaves behind) a hit is reported
although the box contains no point. -/
theorem C39_hit_inverted : ∃ b o : AABB, o.NonEmpty ∧ b.hit o = true ∧ ¬ ∃ p, b.contains p = true := by
  refine ⟨(⟨⟨4, 0⟩, ⟨6, 10⟩⟩ : AABB).expand (-2), ⟨⟨0, 0⟩, ⟨10, 10⟩⟩, (nonEmpty_iff _).2 (by decide), by decide, ?_⟩
  rintro ⟨p, hp⟩
  have e : (⟨⟨4, 0⟩, ⟨6, 10⟩⟩ : AABB).expand (-2) = ⟨⟨6, 2⟩, ⟨4, 8⟩⟩ := by decide
  rw [e, contains_iff] at hp
  unfold AABB.Has at hp
  simp only at hp
  omega

/-- **C39.** A box that is not empty is reported to contain another exactly when it contains all its
points. -/
theorem C39_contains (b o : AABB) (hb : b.NonEmpty) :
    b.containsBox o = true ↔ ∀ p, o.contains p = true → b.contains p = true := by
  have h1 : ¬ b.area < 0 := by rw [area_neg_iff]; exact not_not.2 hb
  unfold AABB.containsBox
  rw [if_neg h1]
  by_cases ho : o.NonEmpty
  · have h2 : ¬ o.area < 0 := by rw [area_neg_iff]; exact not_not.2 ho
    rw [if_neg h2]
    simp only [Bool.and_eq_true, decide_eq_true_eq]
    rw [nonEmpty_iff] at ho
    constructor
    · intro h p hp
      rw [contains_iff] at hp ⊢
      unfold AABB.Has at *
      omega
    · intro h
      have e1 := (contains_iff b o.min).1 (h o.min ((contains_iff _ _).2 ⟨⟨le_rfl, ho.1⟩, le_rfl, ho.2⟩))
      have e2 := (contains_iff b o.max).1 (h o.max ((contains_iff _ _).2 ⟨⟨ho.1, le_rfl⟩, ho.2, le_rfl⟩))
      unfold AABB.Has at e1 e2
      omega
  · rw [if_pos ((area_neg_iff o).2 ho)]
    constructor
    · intro _ p hp
      exact absurd ⟨p, (contains_iff _ _).1 hp⟩ ho
    · intro _; rfl

example : (⟨⟨0, 0⟩, ⟨9, 9⟩⟩ : AABB).containsBox ⟨⟨0, 3⟩, ⟨4, 9⟩⟩ = true ∧
    (⟨⟨0, 0⟩, ⟨9, 9⟩⟩ : AABB).containsBox ⟨⟨0, 3⟩, ⟨4, 10⟩⟩ = false ∧
    (⟨⟨0, 0⟩, ⟨9, 9⟩⟩ : AABB).containsBox AABB.empty = true := by decide

/-- An empty box is said to contain no box, not even an empty one, all of whose points it contains. -/
theorem C39_contains_empty : AABB.empty.containsBox AABB.empty = false ∧
    ∀ p, AABB.empty.contains p = true → AABB.empty.contains p = true :=
  ⟨by decide, fun _ h => h⟩

/-- **C39.** Including a box in another gives the smallest box that contains both, for boxes that are
not empty; including a box that has seen no points changes nothing. -/
theorem C39_include (b o : AABB) (hb : b.NonEmpty) (ho : o.NonEmpty) :
    (∀ p, b.contains p = true ∨ o.contains p = true → (b.includeBox o).contains p = true) ∧
    ∀ c : AABB, (∀ p, b.contains p = true ∨ o.contains p = true → c.contains p = true) →
      ∀ p, (b.includeBox o).contains p = true → c.contains p = true := by
  rw [nonEmpty_iff] at hb ho
  constructor
  · rintro p (h | h)
    all_goals
      rw [contains_iff] at h ⊢
      unfold AABB.Has AABB.includeBox at *
      dsimp only
      omega
  · intro c hc p hp
    have e1 := (contains_iff c b.min).1 (hc _ (Or.inl ((contains_iff _ _).2 ⟨⟨le_rfl, hb.1⟩, le_rfl, hb.2⟩)))
    have e2 := (contains_iff c b.max).1 (hc _ (Or.inl ((contains_iff _ _).2 ⟨⟨hb.1, le_rfl⟩, hb.2, le_rfl⟩)))
    have e3 := (contains_iff c o.min).1 (hc _ (Or.inr ((contains_iff _ _).2 ⟨⟨le_rfl, ho.1⟩, le_rfl, ho.2⟩)))
    have e4 := (contains_iff c o.max).1 (hc _ (Or.inr ((contains_iff _ _).2 ⟨⟨ho.1, le_rfl⟩, ho.2, le_rfl⟩)))
    rw [contains_iff] at hp ⊢
    unfold AABB.Has AABB.includeBox at *
    dsimp only at hp
    omega

theorem C39_include_empty (b : AABB) (h1 : b.min.Fits) (h2 : b.max.Fits) :
    b.includeBox AABB.empty = b ∧ AABB.empty.includeBox b = b := by
  unfold Pt.Fits at h1 h2
  rcases b with ⟨⟨a1, a2⟩, ⟨b1, b2⟩⟩
  simp only [AABB.includeBox, AABB.empty, AABB.mk.injEq, Pt.mk.injEq] at *
  omega

example : (⟨⟨-3, 4⟩, ⟨5, 6⟩⟩ : AABB).includeBox ⟨⟨7, -1⟩, ⟨8, 0⟩⟩ = ⟨⟨-3, -1⟩, ⟨8, 6⟩⟩ := by decide

/-- **C39.** Growing a box that is not empty by a distance gives the points at most that far from one of
its points; shrinking it leaves the points whose whole neighbourhood is in it. (The corners must not be
the limits of the coordinates, which mark a box without points.) -/
theorem C39_expand (b : AABB) (hb : b.NonEmpty) (hmin : b.min ≠ ⟨POINT_MAX, POINT_MAX⟩)
    (hmax : b.max ≠ ⟨POINT_MIN, POINT_MIN⟩) (d : Int) (p : Pt) :
    (0 ≤ d → ((b.expand d).contains p = true ↔ ∃ q, b.contains q = true ∧ Near d p q)) ∧
    (d ≤ 0 → ((b.expand d).contains p = true ↔ ∀ q, Near (-d) p q → b.contains q = true)) := by
  rw [nonEmpty_iff] at hb
  have e : b.expand d = ⟨⟨b.min.x - d, b.min.y - d⟩, ⟨b.max.x + d, b.max.y + d⟩⟩ := by
    unfold AABB.expand; rw [if_neg (by tauto)]
  rw [e]
  simp only [contains_iff]
  constructor
  · intro hd
    constructor
    · intro h
      unfold AABB.Has at h
      dsimp only at h
      refine ⟨⟨max b.min.x (min p.x b.max.x), max b.min.y (min p.y b.max.y)⟩, ?_, ?_⟩
      · unfold AABB.Has; dsimp only; omega
      · unfold Near; dsimp only; omega
    · rintro ⟨q, h1, h2⟩
      unfold AABB.Has Near at *
      dsimp only
      omega
  · intro hd
    constructor
    · intro h q hq
      unfold AABB.Has Near at *
      dsimp only at h
      omega
    · intro h
      have h1 := h ⟨p.x + d, p.y + d⟩ (by unfold Near; dsimp only; omega)
      have h2 := h ⟨p.x - d, p.y - d⟩ (by unfold Near; dsimp only; omega)
      unfold AABB.Has at *
      dsimp only at *
      omega

/-- **C39.** A box that has seen no points stays as it is when it is grown. -/
theorem C39_expand_empty (d : Int) : AABB.empty.expand d = AABB.empty := by
  have h : AABB.empty.min = ⟨POINT_MAX, POINT_MAX⟩ ∨ AABB.empty.max = ⟨POINT_MIN, POINT_MIN⟩ := Or.inl rfl
  unfold AABB.expand; rw [if_pos h]

example : (⟨⟨-3, 4⟩, ⟨5, 6⟩⟩ : AABB).expand 2 = ⟨⟨-5, 2⟩, ⟨7, 8⟩⟩ ∧
    (⟨⟨-3, 4⟩, ⟨5, 6⟩⟩ : AABB).expand (-1) = ⟨⟨-2, 5⟩, ⟨4, 5⟩⟩ := by decide

/-! ### Three dimensions -/

/-- **C39.** The bounding box of a mesh contains exactly the points within the extremes of its vertices,
in any order of adding them, if the coordinates fit in 32 bits (about two kilometres). -/
theorem C39_points3_partial (ps qs : List Pt3) (hps : ∀ a ∈ ps, a.Fits32) (hq : ps.Perm qs) (p : Pt3) :
    (AABB3D.ofPoints qs).Has p ↔ WithinExtremes3 ps p := by
  have e : AABB3D.ofPoints qs = AABB3D.ofPoints ps := by
    unfold AABB3D.ofPoints
    exact (hq.foldl_eq' (fun x _ y _ z => include3_comm z x y) _).symm
  rw [e]
  unfold AABB3D.ofPoints
  rw [include3_bounds]
  unfold WithinExtremes3
  simp only [AABB3D.empty]
  constructor
  · rintro ⟨⟨h1, h2⟩, ⟨h3, h4⟩, h5, h6⟩
    obtain ⟨a, ha⟩ : ∃ a, a ∈ ps := by
      rcases h1 with h1 | ⟨a, ha, _⟩
      · rcases h2 with h2 | ⟨a, ha, _⟩
        · simp only [INT32_MAX, INT32_MIN] at *; omega
        · exact ⟨a, ha⟩
      · exact ⟨a, ha⟩
    obtain ⟨⟨f1, f2⟩, ⟨f3, f4⟩, f5, f6⟩ := hps a ha
    refine ⟨?_, ?_, ?_, ?_, ?_, ?_⟩
    · rcases h1 with h | h
      · exact ⟨a, ha, le_trans f2 h⟩
      · exact h
    · rcases h2 with h | h
      · exact ⟨a, ha, le_trans h f1⟩
      · exact h
    · rcases h3 with h | h
      · exact ⟨a, ha, le_trans f4 h⟩
      · exact h
    · rcases h4 with h | h
      · exact ⟨a, ha, le_trans h f3⟩
      · exact h
    · rcases h5 with h | h
      · exact ⟨a, ha, le_trans f6 h⟩
      · exact h
    · rcases h6 with h | h
      · exact ⟨a, ha, le_trans h f5⟩
      · exact h
  · rintro ⟨h1, h2, h3, h4, h5, h6⟩
    exact ⟨⟨Or.inr h1, Or.inr h2⟩, ⟨Or.inr h3, Or.inr h4⟩, Or.inr h5, Or.inr h6⟩

example : AABB3D.ofPoints [⟨3, -4, 1⟩, ⟨-7, 2, 5⟩] = ⟨⟨-7, -4, 1⟩, ⟨3, 2, 5⟩⟩ := by decide

/-- With coordinates beyond 32 bits the box is too large: the markers of the empty box are 32-bit limits
although coordinates have 64 bits. -/
theorem C39_points3_counterexample :
    ∃ a p : Pt3, (AABB3D.ofPoints [a]).Has p ∧ ¬ WithinExtremes3 [a] p := by
  refine ⟨⟨3000000000, 0, 0⟩, ⟨2200000000, 0, 0⟩, ?_, ?_⟩
  · have e : AABB3D.ofPoints [⟨3000000000, 0, 0⟩] = ⟨⟨2147483647, 0, 0⟩, ⟨3000000000, 0, 0⟩⟩ := by decide
    rw [e]
    unfold AABB3D.Has
    decide
  · unfold WithinExtremes3
    decide

/-- **C39.** Two boxes in space that are not empty hit exactly when they have a point in common. -/
theorem C39_hit3 (b o : AABB3D) (hb : b.NonEmpty) (ho : o.NonEmpty) :
    b.hit o = true ↔ ∃ p, b.Has p ∧ o.Has p := by
  rw [nonEmpty3_iff] at hb ho
  unfold AABB3D.hit
  split_ifs with h
  · constructor
    · intro h'; exact absurd h' (by decide)
    · rintro ⟨p, h1, h2⟩
      unfold AABB3D.Has at h1 h2
      omega
  · constructor
    · intro _
      refine ⟨⟨max b.min.x o.min.x, max b.min.y o.min.y, max b.min.z o.min.z⟩, ?_, ?_⟩
      all_goals
        unfold AABB3D.Has
        dsimp only
        omega
    · intro _; rfl

example : (⟨⟨0, 0, 0⟩, ⟨2, 3, 4⟩⟩ : AABB3D).hit ⟨⟨2, 3, 4⟩, ⟨4, 4, 9⟩⟩ = true ∧
    (⟨⟨0, 0, 0⟩, ⟨2, 3, 4⟩⟩ : AABB3D).hit ⟨⟨2, 3, 5⟩, ⟨4, 4, 9⟩⟩ = false := by decide

/-- **C39.** Moving a box moves its points; including one box in another gives the smallest box with
both; a height is included by extending the box in Z only; the flattened box has the points below and
above the box. -/
theorem C39_operations3 (b o : AABB3D) (hb : b.NonEmpty) (ho : o.NonEmpty) :
    (∀ d p : Pt3, (b.translate d).Has ⟨p.x + d.x, p.y + d.y, p.z + d.z⟩ ↔ b.Has p) ∧
    (∀ p, b.Has p ∨ o.Has p → (b.includeBox o).Has p) ∧
    (∀ c : AABB3D, (∀ p, b.Has p ∨ o.Has p → c.Has p) → ∀ p, (b.includeBox o).Has p → c.Has p) ∧
    (∀ z p, (b.includeZ z).Has p ↔ ∃ p', b.Has p' ∧ p'.x = p.x ∧ p'.y = p.y ∧
      (p'.z = p.z ∨ (z ≤ p.z ∧ p.z ≤ p'.z) ∨ (p'.z ≤ p.z ∧ p.z ≤ z))) ∧
    (∀ p, b.flatten.contains p = true ↔ ∃ z, b.Has ⟨p.x, p.y, z⟩) := by
  rw [nonEmpty3_iff] at hb ho
  refine ⟨?_, ?_, ?_, ?_, ?_⟩
  · intro d p
    unfold AABB3D.Has AABB3D.translate
    dsimp only
    omega
  · rintro p (h | h)
    all_goals
      unfold AABB3D.Has AABB3D.includeBox at *
      dsimp only
      omega
  · intro c hc p hp
    have e1 := hc b.min (Or.inl ⟨⟨le_rfl, hb.1⟩, ⟨le_rfl, hb.2.1⟩, le_rfl, hb.2.2⟩)
    have e2 := hc b.max (Or.inl ⟨⟨hb.1, le_rfl⟩, ⟨hb.2.1, le_rfl⟩, hb.2.2, le_rfl⟩)
    have e3 := hc o.min (Or.inr ⟨⟨le_rfl, ho.1⟩, ⟨le_rfl, ho.2.1⟩, le_rfl, ho.2.2⟩)
    have e4 := hc o.max (Or.inr ⟨⟨ho.1, le_rfl⟩, ⟨ho.2.1, le_rfl⟩, ho.2.2, le_rfl⟩)
    unfold AABB3D.Has AABB3D.includeBox at *
    dsimp only at hp
    omega
  · intro z p
    constructor
    · intro h
      unfold AABB3D.Has AABB3D.includeZ at h
      dsimp only at h
      refine ⟨⟨p.x, p.y, max b.min.z (min p.z b.max.z)⟩, ?_, rfl, rfl, ?_⟩
      · unfold AABB3D.Has; dsimp only; omega
      · dsimp only; omega
    · rintro ⟨p', h1, h2, h3, h4⟩
      unfold AABB3D.Has AABB3D.includeZ at *
      dsimp only
      omega
  · intro p
    rw [contains_iff]
    constructor
    · intro h
      refine ⟨b.min.z, ?_⟩
      unfold AABB.Has AABB3D.flatten at h
      dsimp only at h
      exact ⟨h.1, h.2, le_rfl, hb.2.2⟩
    · rintro ⟨z, h1, h2, -⟩
      exact ⟨h1, h2⟩

/-- **C39.** Growing a box in space in all directions, or in X and Y only. -/
theorem C39_expand3 (b : AABB3D) (hb : b.NonEmpty) (d : Int) (p : Pt3) :
    (0 ≤ d → (((b.expand d).Has p ↔ ∃ q, b.Has q ∧ Near3 d d p q) ∧
      ((b.expandXY d).Has p ↔ ∃ q, b.Has q ∧ Near3 d 0 p q))) ∧
    (d ≤ 0 → (((b.expand d).Has p ↔ ∀ q, Near3 (-d) (-d) p q → b.Has q) ∧
      ((b.expandXY d).Has p ↔ ∀ q, Near3 (-d) 0 p q → b.Has q))) := by
  rw [nonEmpty3_iff] at hb
  have e1 : (b.expand d).Has p ↔ (b.min.x - d ≤ p.x ∧ p.x ≤ b.max.x + d) ∧
      (b.min.y - d ≤ p.y ∧ p.y ≤ b.max.y + d) ∧ (b.min.z - d ≤ p.z ∧ p.z ≤ b.max.z + d) := by
    unfold AABB3D.expand
    dsimp only
    split_ifs with h
    · constructor
      · intro h'; exact absurd h' (empty3_has p)
      · intro h'; omega
    · exact Iff.rfl
  have e2 : (b.expandXY d).Has p ↔ (b.min.x - d ≤ p.x ∧ p.x ≤ b.max.x + d) ∧
      (b.min.y - d ≤ p.y ∧ p.y ≤ b.max.y + d) ∧ (b.min.z ≤ p.z ∧ p.z ≤ b.max.z) := by
    unfold AABB3D.expandXY
    dsimp only
    split_ifs with h
    · constructor
      · intro h'; exact absurd h' (empty3_has p)
      · intro h'; omega
    · exact Iff.rfl
  rw [e1, e2]
  clear e1 e2
  refine ⟨fun hd => ⟨⟨?_, ?_⟩, ⟨?_, ?_⟩⟩, fun hd => ⟨⟨?_, ?_⟩, ⟨?_, ?_⟩⟩⟩
  · intro h
    refine ⟨⟨max b.min.x (min p.x b.max.x), max b.min.y (min p.y b.max.y), max b.min.z (min p.z b.max.z)⟩, ?_, ?_⟩
    · unfold AABB3D.Has; dsimp only; omega
    · unfold Near3; dsimp only; omega
  · rintro ⟨q, h1, h2⟩
    unfold AABB3D.Has Near3 at *
    omega
  · intro h
    refine ⟨⟨max b.min.x (min p.x b.max.x), max b.min.y (min p.y b.max.y), p.z⟩, ?_, ?_⟩
    · unfold AABB3D.Has; dsimp only; omega
    · unfold Near3; dsimp only; omega
  · rintro ⟨q, h1, h2⟩
    unfold AABB3D.Has Near3 at *
    omega
  · intro h q hq
    unfold AABB3D.Has Near3 at *
    omega
  · intro h
    have h1 := h ⟨p.x + d, p.y + d, p.z + d⟩ (by unfold Near3; dsimp only; omega)
    have h2 := h ⟨p.x - d, p.y - d, p.z - d⟩ (by unfold Near3; dsimp only; omega)
    unfold AABB3D.Has at *
    dsimp only at *
    omega
  · intro h q hq
    unfold AABB3D.Has Near3 at *
    omega
  · intro h
    have h1 := h ⟨p.x + d, p.y + d, p.z⟩ (by unfold Near3; dsimp only; omega)
    have h2 := h ⟨p.x - d, p.y - d, p.z⟩ (by unfold Near3; dsimp only; omega)
    unfold AABB3D.Has at *
    dsimp only at *
    omega

example : (⟨⟨0, 0, 0⟩, ⟨2, 3, 4⟩⟩ : AABB3D).NonEmpty ∧
    (⟨⟨0, 0, 0⟩, ⟨2, 3, 4⟩⟩ : AABB3D).expand (-2) = AABB3D.empty ∧
    (⟨⟨0, 0, 0⟩, ⟨2, 3, 4⟩⟩ : AABB3D).expandXY (-1) = ⟨⟨1, 1, 0⟩, ⟨1, 2, 4⟩⟩ :=
  ⟨(nonEmpty3_iff _).2 (by decide), by decide, by decide⟩

/-- **C39.** A box in space that was shrunk until nothing is left is an unused box again: whatever points are
added to it afterwards give the box of these points alone. -/
theorem C39_expand3_unused (b : AABB3D) (d : Int) (ps : List Pt3) :
    (¬ (b.expand d).NonEmpty → ps.foldl AABB3D.include (b.expand d) = AABB3D.ofPoints ps) ∧
    (b.NonEmpty → ¬ (b.expandXY d).NonEmpty →
      ps.foldl AABB3D.include (b.expandXY d) = AABB3D.ofPoints ps) := by
  constructor
  · intro h
    have : b.expand d = AABB3D.empty := by
      rw [nonEmpty3_iff] at h
      unfold AABB3D.expand at h ⊢
      dsimp only at h ⊢
      split_ifs at h ⊢ with hc
      · rfl
      · dsimp only at h; omega
    rw [this]
    rfl
  · intro hb h
    have : b.expandXY d = AABB3D.empty := by
      rw [nonEmpty3_iff] at h hb
      unfold AABB3D.expandXY at h ⊢
      dsimp only at h ⊢
      split_ifs at h ⊢ with hc
      · rfl
      · dsimp only at h; omega
    rw [this]
    rfl

example : (⟨⟨0, 0, 0⟩, ⟨100, 100, 30⟩⟩ : AABB3D).expand (-20) = AABB3D.empty ∧
    (⟨⟨0, 0, 0⟩, ⟨100, 100, 30⟩⟩ : AABB3D).expandXY (-20) = ⟨⟨20, 20, 0⟩, ⟨80, 80, 30⟩⟩ := by decide

end Verif.Box
