import Verif.Coasting.Lemmas

namespace Verif.Coasting
section
variable {X : Type} {G : Geo X} {c : Cfg}

/-- The segments of a path that begins at a position. -/
def psegs (p : Path X × X) : List (Seg X) := (segments p.2 p.1.points).map fun s => ⟨s.1, s.2, p.1.rate, p.1.width⟩

theorem nominal_append (a b : List (Seg X)) : nominal G (a ++ b) = nominal G a + nominal G b := by simp [nominal]

theorem nominal_psegs (p : Path X × X) : nominal G (psegs p) = vol G p.1.rate (segments p.2 p.1.points) := by
  unfold nominal psegs vol
  rw [List.map_map]
  rfl

theorem nominal_reverse (a : List (Seg X)) : nominal G a.reverse = nominal G a := by
  unfold nominal
  rw [List.map_reverse, List.sum_reverse]

theorem vol_reverse (rate : ℚ) (l : List (X × X)) : vol G rate l.reverse = vol G rate l := by
  unfold vol
  rw [List.map_reverse, List.sum_reverse]

theorem points_segments (x : X) (l : List X) : (segments x l).map (·.2) = l := by
  induction l generalizing x with
  | nil => rfl
  | cons p ps ih => simp [segments, ih]

theorem extrudeAll_psegs (p : Path X × X) : extrudeAll (psegs p) = p.1.points.map fun q => .extrude q p.1.mm3 := by
  unfold extrudeAll psegs
  conv_rhs => rw [← points_segments p.2 p.1.points]
  rw [List.map_map, List.map_map]
  rfl

theorem travelAll_psegs (p : Path X × X) : travelAll (psegs p) = p.1.points.map .travel := by
  unfold travelAll psegs
  conv_rhs => rw [← points_segments p.2 p.1.points]
  rw [List.map_map, List.map_map]
  rfl

theorem extrudeAll_append (a b : List (Seg X)) : extrudeAll (a ++ b) = extrudeAll a ++ extrudeAll b := by simp [extrudeAll]
theorem travelAll_append (a b : List (Seg X)) : travelAll (a ++ b) = travelAll a ++ travelAll b := by simp [travelAll]

/-- What is written for paths in reverse order. -/
def backwards (l : List (Path X × X)) (ks : List (How X)) : List (Move X) := (List.zipWith (fun p k => write p.1 k) l ks).reverse.flatten

theorem backwards_cons (p : Path X × X) (l : List (Path X × X)) (k : How X) (ks : List (How X)) :
    backwards (p :: l) (k :: ks) = backwards l ks ++ write p.1 k := by
  simp [backwards]

/-- All segments, for paths in reverse order. -/
def allSegs (l : List (Path X × X)) : List (Seg X) := l.reverse.flatMap psegs

theorem allSegs_cons (p : Path X × X) (l : List (Path X × X)) : allSegs (p :: l) = allSegs l ++ psegs p := by simp [allSegs]

theorem backwards_no (l : List (Path X × X)) (hl : ∀ p ∈ l, p.1.travel = false) : backwards l (l.map fun _ => .no) = extrudeAll (allSegs l) := by
  induction l with
  | nil => rfl
  | cons p l ih =>
    rw [List.map_cons, backwards_cons, allSegs_cons, extrudeAll_append, ih (fun q hq => hl q (by simp [hq])), extrudeAll_psegs, write,
      if_neg (by rw [hl p (by simp)]; simp)]

theorem pathLoop_travels (r : Run X) (T : List (Path X × X)) (hT : ∀ p ∈ T, p.1.travel = true) :
    pathLoop G c r T = some (r, T.map fun _ => .no) := by
  induction T generalizing r with
  | nil => rfl
  | cons p T ih =>
    rw [pathLoop, if_pos (hT p (by simp)), ih r (fun q hq => hT q (by simp [hq]))]
    rfl

section
variable (hlen : ∀ a b, 0 ≤ G.len a b) (T : List (Path X × X)) (hT : ∀ p ∈ T, p.1.travel = true)
include hlen hT

theorem pathLoop_reached (l : List (Path X × X)) (hl : ∀ p ∈ l, p.1.travel = false) (hrate : ∀ p ∈ l, 0 ≤ p.1.rate) (r : Run X)
    (hreached : r.reached = true) (hmin : r.minReached = decide (c.minVolume ≤ r.acc)) (hnd : r.done = false) :
    ∃ r', pathLoop G c r (l ++ T) = some (r', (l ++ T).map fun _ => .no) ∧ r'.minReached = decide (c.minVolume ≤ r.acc + nominal G (allSegs l)) := by
  induction l generalizing r with
  | nil =>
    refine ⟨r, pathLoop_travels r T hT, ?_⟩
    rw [hmin]
    simp [allSegs, nominal]
  | cons p l ih =>
    rw [List.cons_append, pathLoop, if_neg (by rw [hl p (by simp)]; simp)]
    obtain ⟨acc, h1, h2⟩ := pointLoop_reached (c := c) hlen (hrate p (by simp)) (segments p.2 p.1.points).reverse { r with found := .no } hreached hmin hnd
    rw [vol_reverse] at h1 h2
    rw [h1, Option.bind_some]
    dsimp only at h2 ⊢
    rw [allSegs_cons, nominal_append, nominal_psegs]
    have hrest : 0 ≤ nominal G (allSegs l) := by
      unfold nominal
      apply List.sum_nonneg
      intro q hq
      rw [List.mem_map] at hq
      obtain ⟨s, hs, rfl⟩ := hq
      unfold allSegs psegs at hs
      rw [List.mem_flatMap] at hs
      obtain ⟨q, hq, hs⟩ := hs
      rw [List.mem_map] at hs
      obtain ⟨u, -, rfl⟩ := hs
      exact mul_nonneg (hlen _ _) (hrate q (by simp at hq; simp [hq]))
    by_cases hd : c.minVolume ≤ r.acc + vol G p.1.rate (segments p.2 p.1.points)
    · rw [if_pos (by simp [Run.done, hd])]
      refine ⟨_, rfl, ?_⟩
      simp only [hd, decide_true]
      rw [eq_comm, decide_eq_true_eq]
      linarith
    · rw [if_neg (by simp [Run.done, hd])]
      have hacc := h2.resolve_left hd
      subst hacc
      obtain ⟨r', g1, g2⟩ := ih (fun q hq => hl q (by simp [hq])) (fun q hq => hrate q (by simp [hq]))
        ⟨r.acc + vol G p.1.rate (segments p.2 p.1.points), true, decide (c.minVolume ≤ r.acc + vol G p.1.rate (segments p.2 p.1.points)), .no⟩
        rfl rfl (by simp [Run.done, hd])
      rw [g1]
      refine ⟨r', rfl, ?_⟩
      rw [g2]
      dsimp only
      congr 2
      ring

theorem pathLoop_search (hc : c.volume ≤ c.minVolume) (l : List (Path X × X)) (hl : ∀ p ∈ l, p.1.travel = false)
    (hrate : ∀ p ∈ l, 0 ≤ p.1.rate) (r : Run X) (h1 : r.reached = false) (h2 : r.minReached = false) (hacc : r.acc < c.volume) :
    ∃ r' ks, pathLoop G c r (l ++ T) = some (r', ks ++ T.map fun _ => .no) ∧ ks.length = l.length ∧
      r'.minReached = decide (c.minVolume ≤ r.acc + nominal G (allSegs l)) ∧
      (c.volume ≤ r.acc + nominal G (allSegs l) →
        ∃ a s b t, CoastedFrom G (allSegs l) (c.volume - r.acc) (backwards l ks) a s b t) := by
  induction l generalizing r with
  | nil =>
    refine ⟨r, [], pathLoop_travels r T hT, rfl, ?_, ?_⟩
    · rw [h2]
      have e : nominal G (allSegs ([] : List (Path X × X))) = 0 := rfl
      rw [e, add_zero, eq_comm, decide_eq_false_iff_not]
      linarith
    · intro h
      have e : nominal G (allSegs ([] : List (Path X × X))) = 0 := rfl
      rw [e] at h
      linarith
  | cons p l ih =>
    rw [List.cons_append, pathLoop, if_neg (by rw [hl p (by simp)]; simp)]
    rw [allSegs_cons, nominal_append, nominal_psegs]
    have hl' : ∀ q ∈ l, q.1.travel = false := fun q hq => hl q (by simp [hq])
    have hrate' : ∀ q ∈ l, 0 ≤ q.1.rate := fun q hq => hrate q (by simp [hq])
    have htr : ¬ p.1.travel = true := by rw [hl p (by simp)]; simp
    have hrest : 0 ≤ nominal G (allSegs l) := by
      unfold nominal
      apply List.sum_nonneg
      intro q hq
      rw [List.mem_map] at hq
      obtain ⟨s, hs, rfl⟩ := hq
      unfold allSegs psegs at hs
      rw [List.mem_flatMap] at hs
      obtain ⟨q, hq, hs⟩ := hs
      rw [List.mem_map] at hs
      obtain ⟨u, -, rfl⟩ := hs
      exact mul_nonneg (hlen _ _) (hrate' q (by simpa using hq))
    rcases pointLoop_search hlen (hrate p (by simp)) hc (segments p.2 p.1.points).reverse { r with found := .no } h1 h2 rfl hacc with
      ⟨g1, how, g2, g3⟩ | ⟨g1, b, s, a, t, acc, g2, g3, g4, g5, g6, g7⟩
    · rw [vol_reverse] at g1 g3
      rw [g3, Option.bind_some, if_neg (by simp [Run.done])]
      dsimp only at g1 ⊢
      obtain ⟨r', ks, e1, e2, e3, e4⟩ := ih hl' hrate' ⟨r.acc + vol G p.1.rate (segments p.2 p.1.points), false, false, how⟩ rfl rfl g1
      rw [e1]
      dsimp only at e3 e4
      refine ⟨r', how :: ks, rfl, by simp [e2], ?_, fun h => ?_⟩
      · rw [e3]
        congr 2
        ring
      · obtain ⟨a, s, b, t, f⟩ := e4 (by linarith)
        have hw : write p.1 how = travelAll (psegs p) := by
          rw [travelAll_psegs, write.eq_def, if_neg htr]
          rcases g2 with ⟨g2, rfl⟩ | ⟨-, rfl⟩
          · have : p.1.points = [] := by
              have := congrArg List.length g2
              rw [List.length_reverse, segments_length] at this
              exact List.eq_nil_of_length_eq_zero this
            rw [this]
            rfl
          · rfl
        refine ⟨a, s, b ++ psegs p, t, ⟨by rw [f.eq]; simp, f.lower, f.upper, ?_, ?_⟩⟩
        · rw [backwards_cons, f.out, hw, List.append_assoc, List.cons_append, ← travelAll_append]
          rfl
        · rw [nominal_append, nominal_psegs, ← add_assoc, f.left]
          ring
    · rw [vol_reverse] at g1 g6 g7
      rw [g6, Option.bind_some]
      dsimp only at g1 g5 g7 ⊢
      have hsplit : segments p.2 p.1.points = a.reverse ++ s :: b.reverse := by
        have := congrArg List.reverse g2
        rw [List.reverse_reverse] at this
        rw [this]
        simp
      have hw : write p.1 (.partly a.length (G.lerp s.1 s.2 t)) =
          extrudeAll (a.reverse.map fun s => ⟨s.1, s.2, p.1.rate, p.1.width⟩) ++ .extrude (G.lerp s.1 s.2 t) (p.1.rate * p.1.width) ::
            travelAll ((s :: b.reverse).map fun s => ⟨s.1, s.2, p.1.rate, p.1.width⟩) := by
        have hp := points_segments p.2 p.1.points
        rw [hsplit, List.map_append] at hp
        rw [write, if_neg htr]
        rw [← hp, List.take_left' (by simp), List.drop_left' (by simp)]
        unfold extrudeAll travelAll
        simp only [List.map_map]
        rfl
      have hseg : psegs p = (a.reverse.map fun s => ⟨s.1, s.2, p.1.rate, p.1.width⟩) ++ ⟨s.1, s.2, p.1.rate, p.1.width⟩ ::
          (b.reverse.map fun s => ⟨s.1, s.2, p.1.rate, p.1.width⟩ : List (Seg X)) := by
        unfold psegs
        rw [hsplit, List.map_append, List.map_cons]
      have hfin : ∃ r' , (if (Run.done (X := X) ⟨acc, true, decide (c.minVolume ≤ r.acc + vol G p.1.rate (segments p.2 p.1.points)),
            .partly a.length (G.lerp s.1 s.2 t)⟩) = true then
          some ((⟨acc, true, decide (c.minVolume ≤ r.acc + vol G p.1.rate (segments p.2 p.1.points)), .partly a.length (G.lerp s.1 s.2 t)⟩ : Run X),
            .partly a.length (G.lerp s.1 s.2 t) :: (l ++ T).map fun _ => How.no)
          else (pathLoop G c ⟨acc, true, decide (c.minVolume ≤ r.acc + vol G p.1.rate (segments p.2 p.1.points)),
            .partly a.length (G.lerp s.1 s.2 t)⟩ (l ++ T)).map fun q => (q.1, .partly a.length (G.lerp s.1 s.2 t) :: q.2)) =
          some (r', .partly a.length (G.lerp s.1 s.2 t) :: (l ++ T).map fun _ => How.no) ∧
          r'.minReached = decide (c.minVolume ≤ r.acc + (nominal G (allSegs l) + vol G p.1.rate (segments p.2 p.1.points))) := by
        by_cases hd : c.minVolume ≤ r.acc + vol G p.1.rate (segments p.2 p.1.points)
        · rw [if_pos (by simp [Run.done, hd])]
          refine ⟨_, rfl, ?_⟩
          simp only [hd, decide_true]
          rw [eq_comm, decide_eq_true_eq]
          linarith
        · rw [if_neg (by simp [Run.done, hd])]
          have hacc := g7.resolve_left hd
          subst hacc
          obtain ⟨r', e1, e2⟩ := pathLoop_reached (c := c) hlen T hT l hl' hrate' ⟨r.acc + vol G p.1.rate (segments p.2 p.1.points), true,
            decide (c.minVolume ≤ r.acc + vol G p.1.rate (segments p.2 p.1.points)), .partly a.length (G.lerp s.1 s.2 t)⟩ rfl rfl
            (by simp [Run.done, hd])
          rw [e1]
          refine ⟨r', rfl, ?_⟩
          rw [e2]
          dsimp only
          congr 2
          ring
      obtain ⟨r', e1, e2⟩ := hfin
      refine ⟨r', .partly a.length (G.lerp s.1 s.2 t) :: l.map fun _ => .no, ?_, by simp, e2, fun _ => ?_⟩
      · rw [e1, List.map_append, List.cons_append]
      · refine ⟨allSegs l ++ a.reverse.map (fun s => ⟨s.1, s.2, p.1.rate, p.1.width⟩), ⟨s.1, s.2, p.1.rate, p.1.width⟩,
          b.reverse.map (fun s => ⟨s.1, s.2, p.1.rate, p.1.width⟩), t, ⟨by rw [hseg]; simp, g3, g4, ?_, ?_⟩⟩
        · rw [backwards_cons, backwards_no l hl', hw, extrudeAll_append, List.append_assoc, List.map_cons]
        · dsimp only
          have : nominal G (b.reverse.map (fun s => (⟨s.1, s.2, p.1.rate, p.1.width⟩ : Seg X))) = vol G p.1.rate b := by
            rw [← vol_reverse]
            unfold nominal vol
            rw [List.map_map]
            rfl
          rw [this]
          linarith

end
end
end Verif.Coasting
